/-
Model of the wire format of the external crate bincode 2.0 with `config::standard()`
(little endian, variable length integers).  Used by every `Encode`/`Decode` implementation
of the repository (for instance core/cu29_clock/src/lib.rs:169-186,
core/cu29_unifiedlog/src/lib.rs:8,68,301, core/cu29_value/src/benc.rs:7-34).
The crate itself is not part of /repo: its format belongs to the trusted base.
-/
namespace Verif

abbrev Bytes := List UInt8

/-- The decode errors of bincode the repository can observe (bincode `DecodeError`). -/
inductive DecodeError where
  | unexpectedEnd          -- `UnexpectedEnd`
  | invalidIntegerType     -- `InvalidIntegerType`: a tag for a wider integer than asked
  | invalidBool            -- `InvalidBooleanValue`
  | invalidVariant         -- `UnexpectedVariant`
  | utf8                   -- `Utf8` / `InvalidCharEncoding`
  | lengthMismatch         -- `ArrayLengthMismatch`
  | other                  -- `OtherString` / `Other`
  deriving DecidableEq, Repr

/-- A decoder reads a value from the front of a slice and returns the rest
(bincode `Decode::decode` on a slice reader). -/
def Dec (α : Type) := Bytes → Except DecodeError (α × Bytes)

namespace Dec
def ret {α : Type} (a : α) : Dec α := fun bs => .ok (a, bs)
def andThen {α β : Type} (d : Dec α) (f : α → Dec β) : Dec β := fun bs =>
  match d bs with
  | .error e => .error e
  | .ok (a, r) => f a r
def fail {α : Type} (e : DecodeError) : Dec α := fun _ => .error e
instance : Monad Dec where
  pure := ret
  bind := andThen

/-- Run a decoder on a slice. -/
def run {α : Type} (d : Dec α) (bs : Bytes) : Except DecodeError (α × Bytes) := d bs
end Dec

namespace Bincode

/-- `k` little endian bytes of `n`. -/
def leBytes : Nat → Nat → Bytes
  | 0, _ => []
  | k + 1, n => UInt8.ofNat n :: leBytes k (n / 256)

/-- Value of little endian bytes. -/
def leVal : Bytes → Nat
  | [] => 0
  | b :: bs => b.toNat + 256 * leVal bs

/-- bincode varint encoding of an unsigned integer below 2^64
(`varint_encode_u16/u32/u64`: 1 byte below 251, else a marker byte and 2, 4 or 8 bytes). -/
def encVar (n : Nat) : Bytes :=
  if n < 251 then [UInt8.ofNat n]
  else if n < 65536 then (251 : UInt8) :: leBytes 2 n
  else if n < 4294967296 then (252 : UInt8) :: leBytes 4 n
  else (253 : UInt8) :: leBytes 8 n

/-- Read exactly `k` bytes. -/
def takeBytes (k : Nat) : Dec Bytes := fun bs =>
  if bs.length < k then .error .unexpectedEnd else .ok (bs.take k, bs.drop k)

/-- Read one byte. -/
def byte : Dec UInt8 := fun bs =>
  match bs with
  | [] => .error .unexpectedEnd
  | b :: r => .ok (b, r)

def fixed (k : Nat) : Dec Nat := do
  let bs ← takeBytes k
  pure (leVal bs)

/-- bincode varint decoding, `w` is the byte width of the type asked for (2, 4 or 8):
markers of wider integers are refused. -/
def decVar (w : Nat) : Dec Nat := do
  let b ← byte
  if b.toNat < 251 then pure b.toNat
  else if b = 251 then fixed 2
  else if b = 252 ∧ 4 ≤ w then fixed 4
  else if b = 253 ∧ 8 ≤ w then fixed 8
  else Dec.fail .invalidIntegerType

/-- A type with a bincode encoder and decoder. -/
class Codec (α : Type) where
  enc : α → Bytes
  dec : Dec α
export Codec (enc dec)

instance : Codec UInt8 := ⟨fun x => [x], byte⟩
instance : Codec UInt16 := ⟨fun x => encVar x.toNat, do let n ← decVar 2; pure (UInt16.ofNat n)⟩
instance : Codec UInt32 := ⟨fun x => encVar x.toNat, do let n ← decVar 4; pure (UInt32.ofNat n)⟩
instance : Codec UInt64 := ⟨fun x => encVar x.toNat, do let n ← decVar 8; pure (UInt64.ofNat n)⟩

/-- zigzag of signed integers (`varint_encode_i16/i32/i64`). -/
def zigzag (i : Int) : Nat := if 0 ≤ i then (2 * i).toNat else (-(2 * i) - 1).toNat
def unzigzag (n : Nat) : Int := if n % 2 = 0 then (n / 2 : Nat) else -((n / 2 : Nat) : Int) - 1

/-- `i8` is one raw byte. -/
instance : Codec Int8 := ⟨fun x => [x.toUInt8], do let b ← byte; pure b.toInt8⟩
instance : Codec Int16 :=
  ⟨fun x => encVar (zigzag x.toInt), do let n ← decVar 2; pure (Int16.ofInt (unzigzag n))⟩
instance : Codec Int32 :=
  ⟨fun x => encVar (zigzag x.toInt), do let n ← decVar 4; pure (Int32.ofInt (unzigzag n))⟩
instance : Codec Int64 :=
  ⟨fun x => encVar (zigzag x.toInt), do let n ← decVar 8; pure (Int64.ofInt (unzigzag n))⟩

/-- `bool`: one byte 0 or 1, other values refused. -/
instance : Codec Bool where
  enc b := [if b then 1 else 0]
  dec := do
    let b ← byte
    if b = 0 then pure false else if b = 1 then pure true else Dec.fail .invalidBool

/-- `()` takes no space. -/
instance : Codec Unit := ⟨fun _ => [], pure ()⟩

/-- An `f32`, as its bit pattern: 4 raw little endian bytes. -/
structure F32 where
  bits : UInt32
  deriving DecidableEq, Repr
/-- An `f64`, as its bit pattern: 8 raw little endian bytes. -/
structure F64 where
  bits : UInt64
  deriving DecidableEq, Repr

instance : Codec F32 :=
  ⟨fun x => leBytes 4 x.bits.toNat, do let n ← fixed 4; pure ⟨UInt32.ofNat n⟩⟩
instance : Codec F64 :=
  ⟨fun x => leBytes 8 x.bits.toNat, do let n ← fixed 8; pure ⟨UInt64.ofNat n⟩⟩

section
variable {α β : Type}

/-- Tuples and structs: the fields one after the other. -/
instance [Codec α] [Codec β] : Codec (α × β) where
  enc p := enc p.1 ++ enc p.2
  dec := do
    let a ← dec
    let b ← dec
    pure (a, b)

/-- `Option`: a byte 0 or 1, then the value. -/
instance [Codec α] : Codec (Option α) where
  enc
    | none => [0]
    | some a => 1 :: enc a
  dec := do
    let b ← byte
    if b = 0 then pure none
    else if b = 1 then do
      let a ← dec
      pure (some a)
    else Dec.fail .invalidVariant

/-- The elements of a sequence, one after the other, without a length. -/
def encAll [Codec α] : List α → Bytes
  | [] => []
  | a :: as => enc a ++ encAll as

/-- Decode `n` elements in a row. -/
def decN (d : Dec α) : Nat → Dec (List α)
  | 0 => pure []
  | n + 1 => do
    let a ← d
    let as ← decN d n
    pure (a :: as)

/-- `Vec<T>`, `&[T]`, `Box<[T]>`: length as `u64`, then the elements. -/
def encList [Codec α] (l : List α) : Bytes := encVar l.length ++ encAll l
def decList (α : Type) [Codec α] : Dec (List α) := do
  let n ← decVar 8
  decN (dec (α := α)) n
instance instCodecList [Codec α] : Codec (List α) := ⟨encList, decList α⟩

/-- A fixed-size array `[T; n]`: the elements without a length. -/
def encArray [Codec α] {n : Nat} (v : Vector α n) : Bytes := encAll v.toList
end

/-- `x` survives encoding and decoding, the decoder consuming exactly the bytes of `x`
whatever follows them. -/
def RoundTrips {α : Type} [Codec α] (x : α) : Prop :=
  ∀ rest : Bytes, (dec : Dec α) (enc x ++ rest) = .ok (x, rest)

end Bincode
end Verif
