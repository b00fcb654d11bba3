import Verif.Model.Bridge
/-!
What a user expects of the pair of tasks: a source gets what the sink sent while both ran.
-/
namespace Verif
namespace Bridge
open Clock
variable {P : Type}

/-- The messages the sink sent while it and source `i` were started, in order; `(sink, src)`: whether they are
started. -/
def heard (i : Nat) : Bool × Bool → List (Event P) → List (Msg P)
  | _, [] => []
  | (_, b), .sinkStart :: es => heard i (true, b) es
  | (_, b), .sinkStop :: es => heard i (false, b) es
  | (a, b), .sinkProcess m :: es => if a && b then m :: heard i (a, b) es else heard i (a, b) es
  | (a, b), .srcStart j :: es => heard i (a, if j = i then true else b) es
  | (a, b), .srcStop j :: es => heard i (a, if j = i then false else b) es
  | (a, b), .srcProcess _ _ :: es => heard i (a, b) es

/-- What source `i` was asked and gave: one entry for each of its calls, with the message it was given. -/
def answers (i : Nat) : List (Event P) → List (Out P) → List (Msg P × Out P)
  | .srcProcess j out :: es, o :: os => if j = i then (out, o) :: answers i es os else answers i es os
  | _ :: es, _ :: os => answers i es os
  | _, _ => []

/-- The answer of a call that takes message `m`. -/
def answerTo (m : Msg P) (out : Msg P) : Out P :=
  match m.payload with
  | none => .failed
  | some p => .message ⟨some p, { out.md with tov := m.md.tov }⟩

/-- A call that took this message, or none: then it fails or leaves its output message alone. -/
def Told (a : Msg P × Out P) : Option (Msg P) → Prop
  | some m => a.2 = answerTo m a.1
  | none => a.2 = .failed ∨ a.2 = .message a.1

/-- How many messages are waiting for source `i`: one more for each one heard, one less for each call; a stop
or a start of the source forgets them.  `none`: more than `cap` were waiting. -/
def backlog (cap i : Nat) : Bool × Bool → Nat → List (Event P) → Option Nat
  | _, n, [] => some n
  | (_, b), n, .sinkStart :: es => backlog cap i (true, b) n es
  | (_, b), n, .sinkStop :: es => backlog cap i (false, b) n es
  | (a, b), n, .sinkProcess _ :: es =>
    if a && b then (if n < cap then backlog cap i (a, b) (n + 1) es else none) else backlog cap i (a, b) n es
  | (a, b), n, .srcStart j :: es => if j = i then backlog cap i (a, true) 0 es else backlog cap i (a, b) n es
  | (a, b), n, .srcStop j :: es => if j = i then backlog cap i (a, false) 0 es else backlog cap i (a, b) n es
  | (a, b), n, .srcProcess j _ :: es => if j = i then backlog cap i (a, b) (n - 1) es else backlog cap i (a, b) n es

end Bridge
end Verif
