import Verif.Model.ArrowAggregate
import Verif.Spec.ArrowBool
/-! Specification for C99: what an aggregate ranges over. -/
namespace Verif
namespace Arrow
variable {T : Type}

/-- The values of an array that are not null, in order. -/
def present (values : List T) (nulls : Option BoolBuf) : List T :=
  (slots values (nulls.map BoolBuf.view)).filterMap id

/-- An array that can exist: the buffer of validity has its bits, as many as there are values. -/
def Fits (values : List T) (nulls : Option BoolBuf) : Prop :=
  ∀ n, nulls = some n → n.off + n.len ≤ n.bits.length ∧ n.len = values.length

/-- A build the code can have, and an element type of at most its vectors: vectors of 16, 32 or 64 bytes, elements
of 1 to 32 bytes. -/
def Build (vec size : Nat) : Prop :=
  (vec = 16 ∨ vec = 32 ∨ vec = 64) ∧ (size = 1 ∨ size = 2 ∨ size = 4 ∨ size = 8 ∨ size = 16 ∨ size = 32)

/-- The one case in which the shift of the validity overflows: elements of one byte in vectors of 64, in a build
that checks for overflows. -/
def Overflows (ov : Overflow) (vec size : Nat) : Prop := ov = .checked ∧ vec = 64 ∧ size = 1

/-- `m` is the least of the values by the given order. -/
def Least (le : T → T → Prop) (l : List T) (m : T) : Prop := m ∈ l ∧ ∀ x ∈ l, le m x

/-- The total order of floating point numbers of IEEE 754 (`total_cmp`), on 32 bits: as an integer. -/
def totalKey (b : BitVec 32) : Int := if b.msb then -((b &&& 0x7fffffff#32).toNat : Int) - 1 else b.toNat

/-- A NaN of 32 bits, of either sign. -/
def isNan32 (b : BitVec 32) : Prop := 0x7f800000 < (b &&& 0x7fffffff#32).toNat
instance (b : BitVec 32) : Decidable (isNan32 b) := inferInstanceAs (Decidable (_ < _))

end Arrow
end Verif
