import Verif.Model.Msp
/-! Histories of a parser, packets the protocol can carry, and their bytes. -/
namespace Verif
namespace Msp

/-- Parsers a program can get: any bytes parsed, any resets. -/
inductive Reach : Parser → Prop
  | new : Reach Parser.new
  | parse {p p' : Parser} {b : UInt8} {r : Except Err (Option Packet)} :
      Reach p → p.parse b = .ok (p', r) → Reach p'
  | reset {p : Parser} : Reach p → Reach p.reset

/-- What a version of the protocol can carry. -/
def Fits : Version → Packet → Prop
  | .v1, k => k.cmd.toNat < 256 ∧ k.data.length < 256
  | .v2, k => k.data.length < 65536

/-- The packet written into a buffer of the advertised size. -/
def written : Version → Packet → Except Err Bytes
  | .v1, k => k.serialize k.size
  | .v2, k => k.serializeV2 k.sizeV2

/-- The part of a frame that its checksum protects, the checksum itself included, and the place of the
length of the data. -/
def Checksummed : Version → Nat → Prop
  | _, i => 3 ≤ i
def LengthField : Version → Nat → Prop
  | .v1, i => i = 3
  | .v2, i => i = 6 ∨ i = 7

/-- A stream of frames with something before each that has no start marker. -/
inductive Stream : List Packet → Bytes → Prop
  | nil {g : Bytes} : 36 ∉ g → Stream [] g
  | cons {g f bs : Bytes} {v : Version} {k : Packet} {ks : List Packet} : 36 ∉ g → Fits v k →
      written v k = .ok f → Stream ks bs → Stream (k :: ks) (g ++ f ++ bs)

end Msp
end Verif
