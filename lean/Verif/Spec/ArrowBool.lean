import Verif.Model.ArrowBool
/-! Specification for C98: what the slots of an array hold, and the logic the kernels promise. -/
namespace Verif
namespace Arrow

/-- The bits a buffer shows. -/
def BoolBuf.view (b : BoolBuf) : List Bool := (b.bits.drop b.off).take b.len

/-- What a slot holds. -/
def slot {α : Type} (valid : Bool) (v : α) : Option α := if valid then some v else none

/-- The slots of an array of values, with the bits of validity if there are any. -/
def slots {α : Type} (values : List α) : Option (List Bool) → List (Option α)
  | none => values.map some
  | some valid => List.zipWith slot valid values

/-- The slots of an array of booleans. -/
def BoolArray.slots (a : BoolArray) : List (Option Bool) := Arrow.slots a.values.view (a.nulls.map BoolBuf.view)

/-- An array that can exist: its buffers have the bits, and as many of each. -/
def BoolArray.Ok (a : BoolArray) : Prop :=
  a.values.off + a.values.len ≤ a.values.bits.length ∧
    ∀ n, a.nulls = some n → n.off + n.len ≤ n.bits.length ∧ n.len = a.values.len

/-- Kleene's `and`: null stands for a value that is not known. -/
def kleeneAnd : Option Bool → Option Bool → Option Bool
  | some false, _ => some false
  | _, some false => some false
  | some true, some true => some true
  | _, _ => none

/-- Kleene's `or`. -/
def kleeneOr : Option Bool → Option Bool → Option Bool
  | some true, _ => some true
  | _, some true => some true
  | some false, some false => some false
  | _, _ => none

/-- An operation whose result is null if one of the operands is. -/
def strict {α β γ : Type} (f : α → β → γ) : Option α → Option β → Option γ
  | some a, some b => some (f a b)
  | _, _ => none

end Arrow
end Verif
