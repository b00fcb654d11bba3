import Verif.Model.ArrowArity
import Verif.Spec.ArrowAggregate
/-! Specification for C100: operations slot by slot. -/
namespace Verif
namespace Arrow
variable {A B O T : Type}

/-- What the slots of an array hold. -/
def Prim.slots (a : Prim T) : List (Option T) := Arrow.slots a.values (a.nulls.map BoolBuf.view)

/-- An array that can exist. -/
def Prim.Ok (a : Prim T) : Prop := Fits a.values a.nulls

/-- What the slots of an accessor mean. -/
def Access.slots (a : Access T) : List (Option T) := Arrow.slots a.values (a.logical.map BoolBuf.view)
def Access.Ok (a : Access T) : Prop := Fits a.values a.nulls ∧ Fits a.values a.logical

/-- An accessor whose nulls are all its own: it has some exactly if it means some. -/
def Access.Plain (a : Access T) : Prop := nullCount a.nulls = 0 ↔ nullCount a.logical = 0

/-- An operation that can fail, on slots: null if a slot is, and then it does not fail. -/
def strictTry (f : A → Except ArrowErr O) : Option A → Except ArrowErr (Option O)
  | some a => (f a).map some
  | none => .ok none
def strictTry₂ (f : A → B → Except ArrowErr O) : Option A → Option B → Except ArrowErr (Option O)
  | some a, some b => (f a b).map some
  | _, _ => .ok none

/-- The results, or the first error. -/
def collect : List (Except ArrowErr O) → Except ArrowErr (List O)
  | [] => .ok []
  | .error e :: _ => .error e
  | .ok v :: l => (collect l).map (v :: ·)

/-- The result of a kernel, as its slots. -/
def result (r : Rs (Except ArrowErr (Prim O))) : Rs (Except ArrowErr (List (Option O))) :=
  r.map' fun x => x.map Prim.slots

/-- The slots of a dictionary: those of the values the keys stand for. -/
def Dict.slots (d : Dict T) : List (Option T) :=
  d.keys.slots.map fun k => k.bind fun k => (d.values.slots[k]?).join

/-- The slots of an array of unknown type, for those that have any of the type asked for. -/
def AnyArray.slots : AnyArray T → Option (List (Option T))
  | .prim _ a => some a.slots
  | .dict _ d => some d.slots
  | .otherDict => none
  | .other => none

/-- What it holds: the slots of an array, and the values of a dictionary, also those no slot stands for. -/
def AnyArray.held : AnyArray T → List (Option T)
  | .prim _ a => a.slots
  | .dict _ d => d.values.slots
  | .otherDict => []
  | .other => []

/-- An array that can exist. -/
def AnyArray.Ok : AnyArray T → Prop
  | .prim _ a => a.Ok
  | .dict _ d => d.values.Ok
  | .otherDict => True
  | .other => True

/-- Both operands, a single value as often as the other one has slots. -/
def Datum.spread (d : Datum T) (n : Nat) : List (Option T) :=
  if d.scalar then List.replicate n (d.array.slots.headD none) else d.array.slots

/-- The number of slots of a result. -/
def lengthOf (l : Datum A) (r : Datum B) : Nat :=
  if l.scalar then r.array.slots.length else l.array.slots.length

/-- An operand that can exist: a single value is an array of one slot. -/
def Datum.Ok (d : Datum T) : Prop := d.array.Ok ∧ (d.scalar = true → d.array.slots.length = 1)

/-- Both operands have as many slots, or one of them is a single value. -/
def Match (l : Datum A) (r : Datum B) : Prop :=
  l.scalar = r.scalar → l.array.slots.length = r.array.slots.length

/-- What an integer type can hold. -/
def Native.Holds (N : Native) (v : Int) : Prop :=
  if N.signed then -2 ^ (N.bits - 1) ≤ v ∧ v < 2 ^ (N.bits - 1) else 0 ≤ v ∧ v < 2 ^ N.bits

/-- The exact result of an operation on integers, if there is one. -/
def Op.exact : Op → Int → Int → Option Int
  | .addWrapping, a, b | .add, a, b => some (a + b)
  | .subWrapping, a, b | .sub, a, b => some (a - b)
  | .mulWrapping, a, b | .mul, a, b => some (a * b)
  | .div, a, b => if b = 0 then none else some (a.tdiv b)
  | .rem, a, b => if b = 0 then none else some (a.tmod b)

/-- The operations that wrap around. -/
def Op.wraps : Op → Bool
  | .addWrapping | .subWrapping | .mulWrapping => true
  | _ => false

/-- The number the type must hold for the operation to succeed: for a remainder, the quotient. -/
def Op.needs : Op → Int → Int → Option Int
  | .rem, a, b => if b = 0 then none else some (a.tdiv b)
  | op, a, b => op.exact a b

/-- What an operation may give: the exact result, or for one that wraps around, the number of the type that differs
from it by a multiple of the number of values; an error exactly if there is no result, or the type cannot hold it. -/
def Right (N : Native) (op : Op) (a b : Int) : Except ArrowErr Int → Prop
  | .ok v => N.Holds v ∧ ∃ x, op.exact a b = some x ∧
      if op.wraps then (2 : Int) ^ N.bits ∣ v - x else v = x ∧ ∀ q, op.needs a b = some q → N.Holds q
  | .error e => op.wraps = false ∧
      ((e = .divZero ∧ op.exact a b = none) ∨ (e = .overflow ∧ ∃ q, op.needs a b = some q ∧ ¬ N.Holds q))

/-- What `neg` may give. -/
def RightNeg (N : Native) (a : Int) : Except ArrowErr Int → Prop
  | .ok v => N.Holds v ∧ v = -a
  | .error e => e = .overflow ∧ ¬ N.Holds (-a)

end Arrow
end Verif
