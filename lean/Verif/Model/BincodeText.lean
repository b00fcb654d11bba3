import Verif.Model.Bincode
/-!
Wire format of text in bincode 2.0 (external crate, see `Verif/Model/Bincode.lean`).
-/
namespace Verif
namespace Bincode

/-- The UTF-8 bytes of a string. -/
def strBytes (s : String) : Bytes := s.toByteArray.data.toList

/-- `String::from_utf8`. -/
def bytesToStr? (b : Bytes) : Option String := String.fromUTF8? ⟨b.toArray⟩

/-- `String`, `&str`: the number of bytes as `u64`, then the bytes; decoding checks UTF-8. -/
instance : Codec String where
  enc s := encVar (strBytes s).length ++ strBytes s
  dec := do
    let n ← decVar 8
    let b ← takeBytes n
    match bytesToStr? b with
    | some s => pure s
    | none => Dec.fail .utf8

/-- The number of bytes of the character that begins with a byte (bincode `utf8_char_width`); 0 if none
does. -/
def charWidth (b : UInt8) : Nat :=
  if b < 0x80 then 1
  else if b < 0xC2 then 0
  else if b < 0xE0 then 2
  else if b < 0xF0 then 3
  else if b < 0xF5 then 4
  else 0

/-- `char`: its UTF-8 bytes.  Decoding reads the number of bytes given by the first one, then checks
them. -/
instance : Codec Char where
  enc c := String.utf8EncodeChar c
  dec := do
    let b ← byte
    if charWidth b = 0 then Dec.fail .utf8
    else do
      let r ← takeBytes (charWidth b - 1)
      match (⟨(b :: r).toArray⟩ : ByteArray).utf8DecodeChar? 0 with
      | some c => pure c
      | none => Dec.fail .utf8

end Bincode
end Verif
