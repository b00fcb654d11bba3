import Verif.Model.Soa
/-!
What a structure-of-arrays container is meant to be: a list of at most `n` records.
-/
namespace Verif
namespace Soa
variable {V σ : Type}

/-- The operations of the container. `σ` is the state captured by the closure given to `apply`. -/
inductive Op (V σ : Type) where
  | push (r : List V)
  | pop
  | get (i : Nat)
  | set (i : Nat) (r : List V)
  | setField (f i : Nat) (v : V)
  | apply (f : σ → List V → σ × List V) (st : σ)
  | iter

/-- What an operation returns. -/
inductive Out (V σ : Type) where
  | done
  | popped (r : Option (List V))
  | got (r : List V)
  | applied (st : σ)
  | items (rs : List (List V))
  deriving DecidableEq, Repr

/-- The container. -/
def Soa.step (n : Nat) (s : Soa V) : Op V σ → Rs (Soa V × Out V σ)
  | .push r => (s.push n r).bind (fun s => .ok (s, .done))
  | .pop => s.pop.bind (fun q => .ok (q.1, .popped q.2))
  | .get i => (s.get i).bind (fun r => .ok (s, .got r))
  | .set i r => (s.set i r).bind (fun s => .ok (s, .done))
  | .setField f i v => (s.setField f i v).bind (fun s => .ok (s, .done))
  | .apply f st => (s.apply f st).bind (fun q => .ok (q.2, .applied q.1))
  | .iter => s.iter.bind (fun rs => .ok (s, .items rs))

/-- `f` on the records from the first to the last, threading its state. -/
def mapState (f : σ → List V → σ × List V) : σ → List (List V) → σ × List (List V)
  | st, [] => (st, [])
  | st, r :: rs =>
    let q := f st r
    let q' := mapState f q.1 rs
    (q'.1, q.2 :: q'.2)

/-- The specification: the same operations on a list of records of `k` fields, at most `n`. -/
def listStep (n k : Nat) (rows : List (List V)) : Op V σ → Rs (List (List V) × Out V σ)
  | .push r => if rows.length < n then .ok (rows ++ [r], .done) else .panic
  | .pop => .ok (rows.dropLast, .popped rows.getLast?)
  | .get i =>
    match rows[i]? with
    | some r => .ok (rows, .got r)
    | none => .panic
  | .set i r => if i < rows.length then .ok (rows.set i r, .done) else .panic
  | .setField f i v =>
    if f < k ∧ i < n then .ok (rows.modify i (fun r => r.set f v), .done) else .panic
  | .apply f st => .ok ((mapState f st rows).2, .applied (mapState f st rows).1)
  | .iter => .ok (rows, .items rows)

/-- Records have `k` fields (their type). -/
def Op.Typed (k : Nat) : Op V σ → Prop
  | .push r => r.length = k
  | .set _ r => r.length = k
  | .apply f _ => ∀ st r, r.length = k → (f st r).2.length = k
  | _ => True

/-- All the results of a sequence of operations, up to a panic. -/
def runSoa (n : Nat) : Soa V → List (Op V σ) → List (Rs (Out V σ))
  | _, [] => []
  | s, op :: ops =>
    match s.step n op with
    | .panic => [.panic]
    | .ok (s, o) => .ok o :: runSoa n s ops

def runList (n k : Nat) : List (List V) → List (Op V σ) → List (Rs (Out V σ))
  | _, [] => []
  | rows, op :: ops =>
    match listStep n k rows op with
    | .panic => [.panic]
    | .ok (rows, o) => .ok o :: runList n k rows ops

end Soa
end Verif
