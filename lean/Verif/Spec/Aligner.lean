import Verif.Model.Aligner
/-! Newest times of streams and windows of time. -/
namespace Verif
open Clock
namespace Aligner

variable {V : Type}

/-- `t` is the time at which the newest message of the buffer ends; all the messages have a time. -/
def Newest (buf : List (Msg V)) (t : CuTime) : Prop :=
  (∃ m ∈ buf, right m.md.tov = some t) ∧ ∀ m ∈ buf, ∃ u, right m.md.tov = some u ∧ u.ns ≤ t.ns

/-- `t` is the earliest of the newest times of the streams that have one. -/
def Earliest (bufs : List (List (Msg V))) (t : CuTime) : Prop :=
  (∃ b ∈ bufs, Newest b t) ∧ ∀ b ∈ bufs, ∀ u, Newest b u → t.ns ≤ u.ns

/-- The time of validity lies between `a` and `b`. -/
def Inside (a b : CuTime) : Tov → Prop
  | .time t => a.ns ≤ t.ns ∧ t.ns ≤ b.ns
  | .range r => a.ns ≤ r.start.ns ∧ r.stop.ns ≤ b.ns
  | .none => False

instance (a b : CuTime) (t : Tov) : Decidable (Inside a b t) := by
  cases t <;> unfold Inside <;> infer_instance

/-- The message is over before `h`, or has no time. -/
def Older (h : CuTime) (m : Msg V) : Prop := ∀ t, right m.md.tov = some t → t.ns < h.ns

/-- The messages have times, in order. -/
def Ordered (ms : List (Msg V)) : Prop :=
  (∀ m ∈ ms, ∃ t, right m.md.tov = some t) ∧
  ms.Pairwise fun a b => ∀ t u, right a.md.tov = some t → right b.md.tov = some u → t.ns ≤ u.ns

/-- The messages that arrived on the stream of the given index. -/
def arrivals (k : Nat) (is : List (Iter V)) : List (Msg V) := is.filterMap fun i => i.input[k]?

end Aligner
end Verif
