import Verif.Model.Export
import Verif.Model.Wire
import Verif.Model.Image
/-!
The decoder of copper lists with the memory it asks for: a vector of bytes gets its room from the length the data say,
before one byte of it has been seen.  Modelled for the status text of each message (core/cu29_runtime/src/cutask.rs:
82-89) and the buffer of an image (components/payloads/cu_sensor_payloads/src/image.rs:38-51).  The vectors of elements
larger than a byte in other payloads, and a failing allocator, are not modelled.
-/
namespace Verif
namespace Wire
open Bincode Clock CopperList
variable {P α β : Type}

/-- A decoder with the memory it asks for: a panic, or what it returns and how many bytes it asked for. -/
def MDec (α : Type) : Type := Bytes → Rs (Except DecodeError (α × Bytes) × Nat)

/-- A decoder that asks for none. -/
def MDec.lift (d : Dec α) : MDec α := fun bs => .ok (d bs, 0)

/-- One decoder after another (`?`). -/
def MDec.bind (m : MDec α) (f : α → MDec β) : MDec β := fun bs =>
  match m bs with
  | .panic => .panic
  | .ok (.error e, k) => .ok (.error e, k)
  | .ok (.ok (a, rest), k) =>
    match f a rest with
    | .panic => .panic
    | .ok (r, k') => .ok (r, k + k')

/-- `vec![0u8; n]` and the reading of that many bytes (external crate bincode 2.0) on a 64 bits machine: more than
`isize::MAX` bytes is a "capacity overflow" panic. -/
def roomMem (n : Nat) : MDec (List UInt8) := fun bs =>
  if n ≤ 9223372036854775807 then .ok (decN (dec : Dec UInt8) n bs, n) else .panic

/-- `Decode for Vec<u8>` (external crate bincode 2.0): the length, the room, then the bytes. -/
def bytesMem : MDec (List UInt8) := (MDec.lift (decVar 8)).bind roomMem

/-- `Decode for CuCompactString` (cutask.rs:82-89). -/
def statusMem : MDec String :=
  bytesMem.bind fun b => MDec.lift (match bytesToStr? b with
    | some s => pure s
    | none => Dec.fail .utf8)

/-- Derived `Decode` of `CuMsgMetadata` (cutask.rs:97-108). -/
def metaMem : MDec MsgMeta :=
  (MDec.lift (dec : Dec PartialCuTimeRange)).bind fun p =>
    (MDec.lift (dec : Dec Tov)).bind fun t =>
      statusMem.bind fun s => MDec.lift (pure ⟨p, t, s⟩)

/-- The type of the payloads of a slot: its codec, and its decoder with the memory. -/
structure Slot (P : Type) where
  codec : Codec P
  mem : MDec P

/-- Derived `Decode` of `CuMsg<T>` (cutask.rs:126-136). -/
def msgMem (s : Slot P) : MDec (Msg P) :=
  (MDec.lift byte).bind fun b =>
    if b = 0 then metaMem.bind fun md => MDec.lift (pure ⟨none, md⟩)
    else if b = 1 then s.mem.bind fun p => metaMem.bind fun md => MDec.lift (pure ⟨some p, md⟩)
    else MDec.lift (Dec.fail .invalidVariant)

/-- `Decode for CuMsgs` (cu29_derive/src/lib.rs:1391-1410). -/
def msgsMem : List (Slot P) → MDec (List (Msg P))
  | [] => MDec.lift (pure [])
  | s :: ss => (msgMem s).bind fun m => (msgsMem ss).bind fun ms => MDec.lift (pure (m :: ms))

/-- Derived `Decode` of `CopperList` (copperlist.rs:46-51). -/
def clMem (slots : List (Slot P)) : MDec (CL (List (Msg P))) :=
  (MDec.lift (dec : Dec UInt32)).bind fun id =>
    (MDec.lift decState).bind fun st =>
      (msgsMem slots).bind fun ms => MDec.lift (pure ⟨id, st, ms⟩)

/-- `copperlists_dump` (cu29_export/src/lib.rs:85-109), of at most `fuel` lists: the lists it yields, and whether it
ends (an error ends it) rather than panics. -/
def listLoop (d : MDec α) : Nat → Bytes → List α × Bool
  | 0, _ => ([], true)
  | fuel + 1, bs =>
    match d bs with
    | .panic => ([], false)
    | .ok (.error _, _) => ([], true)
    | .ok (.ok (a, rest), _) => (a :: (listLoop d fuel rest).1, (listLoop d fuel rest).2)

/-- A list takes at least one byte. -/
def copperlistsDumpMem (slots : List (Slot P)) (bs : Bytes) : List (CL (List (Msg P))) × Bool :=
  listLoop (clMem slots) (bs.length + 1) bs

/-- A payload whose decoder asks for no memory. -/
def Slot.plain (c : Codec P) : Slot P := ⟨c, MDec.lift c.dec⟩

/-- `Decode for CuImage` (image.rs:38-51): its buffer is a `Vec<u8>` (image.rs:47). -/
def imageMem : MDec Image.CuImage :=
  (MDec.lift (dec : Dec UInt64)).bind fun seq =>
    (MDec.lift Image.decFormat).bind fun format =>
      bytesMem.bind fun buffer => MDec.lift (pure ⟨seq, format, .detached buffer⟩)

def Slot.image : Slot Image.CuImage := ⟨⟨Image.encImage, Image.decImage⟩, imageMem⟩

end Wire
end Verif
