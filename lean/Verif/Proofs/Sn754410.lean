import Verif.Model.Sn754410
import Mathlib.Tactic.Linarith
import Mathlib.Tactic.Ring
/-! Lemmas on the motor driver. -/
namespace Verif
namespace Motor

theorem compensate_zero (dz : Rat) : compensate dz 0 = 0 := by simp [compensate]
theorem compensate_pos {dz p : Rat} (h0 : 0 ≤ dz) (h1 : dz < 1) (hp : 0 < p) :
    compensate dz p = dz + (1 - dz) * p ∧ 0 < compensate dz p := by
  have hne : p ≠ 0 := fun h => by rw [h] at hp; exact absurd hp (by decide)
  have e : compensate dz p = dz + (1 - dz) * p := by
    unfold compensate
    rw [if_pos hne, if_pos hp]
  refine ⟨e, ?_⟩
  rw [e]
  nlinarith
theorem compensate_neg {dz p : Rat} (h0 : 0 ≤ dz) (hp : p < 0) :
    compensate dz p = -dz + (1 + dz) * p ∧ compensate dz p < 0 := by
  have hne : p ≠ 0 := fun h => by rw [h] at hp; exact absurd hp (by decide)
  have hnp : ¬ p > 0 := not_lt.mpr (le_of_lt hp)
  have e : compensate dz p = -dz + (1 + dz) * p := by
    unfold compensate
    rw [if_pos hne, if_neg hnp]
  refine ⟨e, ?_⟩
  rw [e]
  nlinarith

/-- The outputs are those of the current power. -/
def Driver.Synced (d : Driver) : Prop :=
  (0 < d.current → d.duty0 = d.current ∧ d.duty1 = 0) ∧
  (d.current < 0 → d.duty0 = 0 ∧ d.duty1 = -d.current) ∧
  (d.current = 0 → d.duty0 = 0 ∧ d.duty1 = 0)

theorem process_synced {d : Driver} (h : d.Synced) (hd : d.dryrun = false) (p : Rat) :
    (d.process ⟨true, true⟩ (some p)).1.Synced ∧
    (d.process ⟨true, true⟩ (some p)).1.current = compensate d.deadzone p ∧
    (d.process ⟨true, true⟩ (some p)).1.deadzone = d.deadzone ∧
    (d.process ⟨true, true⟩ (some p)).1.dryrun = false ∧
    (d.process ⟨true, true⟩ (some p)).1.enabled = d.enabled ∧
    (d.process ⟨true, true⟩ (some p)).2 = true := by
  simp only [Driver.process, hd]
  generalize compensate d.deadzone p = c
  by_cases hc : c = d.current
  · simp [← hc, hd]
    exact h
  · simp only [Bool.false_eq_true, if_false, ne_eq, hc, not_false_eq_true, if_true]
    by_cases h1 : c > 0
    · have h2 : ¬ c < 0 := not_lt.mpr (le_of_lt h1)
      have h3 : c ≠ 0 := ne_of_gt h1
      simp [h1, Driver.set, Driver.Synced, h2, h3]
    · by_cases h2 : c < 0
      · have h3 : c ≠ 0 := ne_of_lt h2
        simp [h1, Driver.set, Driver.Synced, h2, h3]
      · simp [h1, Driver.set, Driver.Synced, h2]

theorem run_synced {d : Driver} (h : d.Synced) (hd : d.dryrun = false) (cs : List Rat) :
    (d.run (cs.map fun c => (⟨true, true⟩, some c))).Synced ∧
    (d.run (cs.map fun c => (⟨true, true⟩, some c))).deadzone = d.deadzone ∧
    (d.run (cs.map fun c => (⟨true, true⟩, some c))).dryrun = false ∧
    (d.run (cs.map fun c => (⟨true, true⟩, some c))).enabled = d.enabled := by
  induction cs generalizing d with
  | nil => exact ⟨h, rfl, hd, rfl⟩
  | cons c cs ih =>
    obtain ⟨h1, -, h3, h4, h5, -⟩ := process_synced h hd c
    obtain ⟨h6, h7, h8, h9⟩ := ih h1 h4
    exact ⟨h6, h7.trans h3, h8, h9.trans h5⟩

theorem run_append (d : Driver) (a b : List (Hw × Option Rat)) : d.run (a ++ b) = (d.run a).run b := by
  induction a generalizing d with
  | nil => rfl
  | cons x a ih => exact ih _

theorem set_fields (d : Driver) (hw : Hw) (a b : Rat) :
    (d.set hw a b).1.deadzone = d.deadzone ∧ (d.set hw a b).1.dryrun = d.dryrun ∧
    (d.set hw a b).1.current = d.current := by
  unfold Driver.set
  split
  · simp
  · split <;> simp

theorem process_dryrun (d : Driver) (hw : Hw) (c : Option Rat) : (d.process hw c).1.dryrun = d.dryrun := by
  cases c with
  | none => exact (set_fields d hw 0 0).2.1
  | some p =>
    simp only [Driver.process]
    split
    · exact (set_fields d hw 0 0).2.1
    · split
      · split
        · exact (set_fields _ hw _ _).2.1
        · split
          · exact (set_fields _ hw _ _).2.1
          · exact (set_fields _ hw _ _).2.1
      · rfl

end Motor
end Verif
