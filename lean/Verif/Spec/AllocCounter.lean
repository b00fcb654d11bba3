import Verif.Model.AllocCounter
/-! Vocabulary of C62. -/
namespace Verif
namespace Alloc

/-- Programs: a thread is in at most one call, counts at its end, and gives back only blocks that the
program has. -/
def Legal : Sys → List Act → Prop
  | _, [] => True
  | s, a :: as =>
    (match a with
      | .allocSys th _ => s.callOf th = none
      | .deallocSys th n => s.callOf th = none ∧ n ∈ s.blocks
      | .count th => s.callOf th ≠ none
      | .reset => True) ∧ Legal (s.step a) as

def NoReset (as : List Act) : Prop := .reset ∉ as

/-- The bytes of the calls of one kind that end in these actions, of the threads selected. -/
def ended (k : Kind) (sel : Nat → Bool) : Sys → List Act → Nat
  | _, [] => 0
  | s, a :: as =>
    (match a with
      | .count th =>
        match s.callOf th with
        | some (k', n) => if k' = k ∧ sel th = true then n else 0
        | none => 0
      | _ => 0) + ended k sel (s.step a) as

/-- The bytes of the calls of one kind under way. -/
def underWay (k : Kind) (s : Sys) : Nat := ((s.calls.filter (·.2.1 == k)).map (·.2.2)).sum

end Alloc
end Verif
