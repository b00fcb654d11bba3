import Verif.Model.VideoSource
/-!
Specification for the properties of `Props/VideoSource`.
-/
namespace Verif
namespace VideoSource
open Clock
variable {F : Type}

/-- What a user has in mind: the frames that arrived since the application was made, numbered, and the
number of the first that may still be delivered. -/
structure Seen (F : Type) where
  arrived : List F
  next : Nat

/-- The frame a call of `process` delivers: the oldest of the last `N` frames that came after those
delivered before. -/
def Seen.due (N : Nat) (s : Seen F) : Nat := max s.next (s.arrived.length - N)

/-- The numbered frames that are delivered, one for each call: `none` if there is none. -/
def deliveries (N : Nat) (s : Seen F) : List (Event F) → List (Option (Nat × F))
  | [] => []
  | .frame f :: l => deliveries N { s with arrived := s.arrived ++ [f] } l
  | .start :: l => deliveries N { s with next := s.arrived.length } l
  | .stop :: l => deliveries N { s with next := s.arrived.length } l
  | .process _ :: l =>
    match s.arrived[s.due N]? with
    | none => none :: deliveries N s l
    | some f => some (s.due N, f) :: deliveries N { s with next := s.due N + 1 } l

/-- The runtime keeps up: there are never more than `N` frames waiting. -/
def KeepsUp (N : Nat) : Nat → List (Event F) → Prop
  | _, [] => True
  | w, .frame _ :: l => w + 1 ≤ N ∧ KeepsUp N (w + 1) l
  | w, .process _ :: l => KeepsUp N (w - 1) l
  | _, .start :: _ => False
  | _, .stop :: _ => False

end VideoSource
end Verif
