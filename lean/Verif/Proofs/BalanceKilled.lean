import Verif.Proofs.BalanceWire
import Verif.Proofs.KilledReplay
import Verif.Proofs.KilledSession
import Verif.Props.BalanceResim
/-! The first iterations of a run of the balancing robot. -/
namespace Verif
namespace Bot
open Clock CopperList Planner Verif.Runtime Fp Bincode
variable {inp : Inputs}

theorem loop_pred {n : Nat} {rt : Rt Robot Payload} (h : loop inp (n + 1) = .ok (rt, none)) :
    ∃ rt1, loop inp n = .ok (rt1, none) := by
  rw [loop_succ] at h
  cases hl : loop inp n with
  | panic => rw [hl] at h; cases h
  | ok q =>
    obtain ⟨rt1, _ | e⟩ := q
    · exact ⟨rt1, rfl⟩
    · rw [hl] at h; cases h

theorem loop_le {k n : Nat} (hk : k ≤ n) {rt : Rt Robot Payload} (h : loop inp n = .ok (rt, none)) :
    ∃ rt1, loop inp k = .ok (rt1, none) := by
  obtain ⟨d, rfl⟩ := Nat.le.dest hk
  induction d generalizing rt with
  | zero => exact ⟨rt, h⟩
  | succ d ih =>
    obtain ⟨rt1, h1⟩ := loop_pred h
    exact ih (Nat.le_add_right _ _) h1

theorem loop_extends {k n : Nat} (hk : k ≤ n) {rt rtk : Rt Robot Payload} (h : loop inp n = .ok (rt, none))
    (h1 : loop inp k = .ok (rtk, none)) : rtk.w.trace <+: rt.w.trace := by
  unfold loop at h h1
  generalize startAll (app inp) fresh = q at h h1
  obtain ⟨rts, _ | e⟩ := q
  · exact runLoop_extends k n rts rtk rt _ hk h1 h
  · cases h

theorem loggedLists_prefix {a b : List (Ev Payload)} (h : a <+: b) : loggedLists a <+: loggedLists b := by
  obtain ⟨c, rfl⟩ := h
  rw [loggedLists_append]
  exact List.prefix_append _ _

/-- Lists that are the first of those of a run are those of the run stopped before. -/
theorem loop_take (hc : Clocked inp) {n : Nat} (hn : n < 4294967295) {rt : Rt Robot Payload}
    (h : loop inp n = .ok (rt, none)) {kept : List (CL (List (Msg Payload)))} (hk : kept <+: loggedLists rt.w.trace) :
    kept.length ≤ n ∧ ∃ rtk, loop inp kept.length = .ok (rtk, none) ∧ loggedLists rtk.w.trace = kept := by
  have len : ∀ m, m ≤ n → ∀ rtm, loop inp m = .ok (rtm, none) → (loggedLists rtm.w.trace).length = m := by
    intro m hm rtm hl
    exact (BotResim.C92_hardware (inp' := { inp with quit := fun _ => false }) hc (by omega) hl rfl (fun _ => rfl)).1
  have hle : kept.length ≤ n := by
    have := hk.length_le
    rw [len n (Nat.le_refl _) rt h] at this
    exact this
  obtain ⟨rtk, h1⟩ := loop_le hle h
  refine ⟨hle, rtk, h1, ?_⟩
  have h2 := loggedLists_prefix (loop_extends hle h h1)
  exact (List.prefix_of_prefix_length_le h2 hk (by rw [len _ hle _ h1])).eq_of_length (len _ hle _ h1)

theorem flatten_enc {α : Type} [Codec α] (l : List α) : (l.map enc).flatten = encAll l := by
  induction l with
  | nil => rfl
  | cons a l ih => simp only [List.map_cons, List.flatten_cons, ih, encAll]

end Bot
end Verif
