import Verif.Model.Freeze
/-! What a snapshot of tasks is for. -/
namespace Verif
namespace Frozen
variable {I O S : Type}

/-- Calls one after the other: the outputs. -/
def calls (t : Task I O S) (s : S) : List I → Rs (S × List O)
  | [] => .ok (s, [])
  | i :: is =>
    match t.next s i with
    | .panic => .panic
    | .ok (s', o) =>
      match calls t s' is with
      | .panic => .panic
      | .ok (s'', os) => .ok (s'', o :: os)

/-- What a task puts out on these calls. -/
def outputs (t : Task I O S) (s : S) (is : List I) : Rs (List O) := (calls t s is).map' (·.2)

/-- Reached by some calls on a new instance, each with an input that may occur. -/
def Reached (t : Task I O S) (may : I → Prop) (s : S) : Prop :=
  ∃ is os, (∀ i ∈ is, may i) ∧ calls t t.new is = .ok (s, os)

/-- In two states a task puts out the same from then on. -/
def Alike (t : Task I O S) (may : I → Prop) (s s' : S) : Prop :=
  ∀ is, (∀ i ∈ is, may i) → outputs t s is = outputs t s' is

/-- Whenever it is frozen, a new instance thawed from what was written reads exactly that and goes on like it. -/
def Resumes (t : Task I O S) (may : I → Prop) : Prop :=
  ∀ s, Reached t may s → ∀ rest : Bytes, ∃ s', t.thaw t.new (t.freeze s ++ rest) = .ok (s', rest) ∧ Alike t may s s'

/-- A task of an application in its present state. -/
structure Live where
  {I O S : Type}
  task : Task I O S
  may : I → Prop
  state : S

/-- All the tasks frozen, one after the other. -/
def snapshot : List Live → Bytes
  | [] => []
  | l :: ls => l.task.freeze l.state ++ snapshot ls

/-- New instances of the tasks, thawed one after the other. -/
def restore : List Live → Bytes → Except DecodeError (List Live × Bytes)
  | [], bs => .ok ([], bs)
  | l :: ls, bs =>
    match l.task.thaw l.task.new bs with
    | .error e => .error e
    | .ok (s, bs) =>
      match restore ls bs with
      | .error e => .error e
      | .ok (r, bs) => .ok (⟨l.task, l.may, s⟩ :: r, bs)

/-- The same task, from now on with the same outputs. -/
inductive GoesOn : List Live → List Live → Prop
  | nil : GoesOn [] []
  | cons {I O S : Type} {t : Task I O S} {may : I → Prop} {s s' : S} {ls rs : List Live} (h : Alike t may s s')
      (hs : GoesOn ls rs) : GoesOn (⟨t, may, s⟩ :: ls) (⟨t, may, s'⟩ :: rs)

end Frozen
end Verif
