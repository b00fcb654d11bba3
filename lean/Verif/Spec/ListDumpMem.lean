import Verif.Model.ListDumpMem
import Verif.Spec.EndToEnd
/-! Vocabulary of C115. -/
namespace Verif
namespace Wire
open Bincode Clock CopperList
variable {P : Type}

/-- The decoder with the memory returns what the codec does, unless it panics; and it goes forward. -/
structure Slot.Sound (s : Slot P) : Prop where
  same : ∀ bs, s.mem bs = .panic ∨ ∃ k, s.mem bs = .ok (s.codec.dec bs, k)
  forward : ∀ bs p rest, s.codec.dec bs = .ok (p, rest) → rest.length ≤ bs.length

/-- A payload as it was written is read back, asking for no more memory than it has bytes. -/
def Slot.Frugal (s : Slot P) (p : P) : Prop :=
  ∀ rest, ∃ k, s.mem (s.codec.enc p ++ rest) = .ok (.ok (p, rest), k) ∧ k ≤ (s.codec.enc p).length

/-- The messages of a list are of the types of its slots, and no status is larger than the address space. -/
def Fits (slots : List (Slot P)) (cl : CL (List (Msg P))) : Prop :=
  Pointwise (fun s m => (∀ p, m.payload = some p → s.Frugal p) ∧ m.md.statusTxt.utf8ByteSize < 9223372036854775808)
    slots cl.msgs

/-- The codecs of the slots. -/
def codecs (slots : List (Slot P)) : List (Codec P) := slots.map Slot.codec

/-- The bytes of lists, one after the other. -/
def written (slots : List (Slot P)) (l : List (CL (List (Msg P)))) : Bytes :=
  l.flatMap (clCodec (codecs slots)).enc

/-- The data are these lists, one after the other, and a rest. -/
inductive Lists (slots : List (Slot P)) : Bytes → List (CL (List (Msg P))) → Bytes → Prop
  | nil {bs : Bytes} : Lists slots bs [] bs
  | cons {bs r rest : Bytes} {cl : CL (List (Msg P))} {cls : List (CL (List (Msg P)))}
      (h : (clCodec (codecs slots)).dec bs = .ok (cl, r)) (hs : Lists slots r cls rest) : Lists slots bs (cl :: cls) rest

/-- Metadata that say that their status has `n` bytes. -/
def StatusSaid (bs : Bytes) (n : Nat) : Prop :=
  ∃ p t r1 r2 r, (dec : Dec PartialCuTimeRange) bs = .ok (p, r1) ∧ (dec : Dec Tov) r1 = .ok (t, r2) ∧
    decVar 8 r2 = .ok (n, r)

/-- The data of a message that ask for more than the address space: for its status, or for its payload. -/
inductive Greedy (s : Slot P) : Bytes → Prop
  | bare {r : Bytes} {n : Nat} (h : StatusSaid r n) (hn : 9223372036854775807 < n) : Greedy s (0 :: r)
  | behind {r r' : Bytes} {p : P} {n : Nat} (hp : s.codec.dec r = .ok (p, r')) (h : StatusSaid r' n)
      (hn : 9223372036854775807 < n) : Greedy s (1 :: r)
  | payload {r : Bytes} (h : s.mem r = .panic) : Greedy s (1 :: r)

/-- The data of a list one of whose messages does, behind messages that are read. -/
def GreedyList (slots : List (Slot P)) (bs : Bytes) : Prop :=
  ∃ id st r1 r2 pre s post ms r, (dec : Dec UInt32) bs = .ok (id, r1) ∧ decState r1 = .ok (st, r2) ∧
    slots = pre ++ s :: post ∧ decMsgs (codecs pre) r2 = .ok (ms, r) ∧ Greedy s r

/-- The data of an image that say that its buffer has `n` bytes. -/
def BufferSaid (bs : Bytes) (n : Nat) : Prop :=
  ∃ seq f r1 r2 r, (dec : Dec UInt64) bs = .ok (seq, r1) ∧ Image.decFormat r1 = .ok (f, r2) ∧ decVar 8 r2 = .ok (n, r)

end Wire
end Verif
