import Verif.Spec.Motor
import Verif.Proofs.Sn754410
/-! C50: the motor driver applies the commanded power. -/
namespace Verif
namespace Motor

/-- After any history of commands without gaps, the last one is applied: its sign, zero exactly for zero,
full scale exactly for a power of 1, and never more forwards; backwards, at most 1 plus twice the dead zone. -/
theorem C50_applied_partial {dz : Rat} (h0 : 0 ≤ dz) (h1 : dz < 1) (cs : List Rat) (p : Rat) (hp : -1 ≤ p ∧ p ≤ 1) :
    let d := (Driver.new dz false).start.run (commands (cs ++ [p]))
    d.enabled = true ∧ Turns d p ∧ d.duty0 ≤ 1 ∧ d.duty1 ≤ 1 + 2 * dz ∧ (d.duty0 = 1 ↔ p = 1) ∧
    (dz = 0 → d.duty0 - d.duty1 = p) := by
  intro d
  have hs : (Driver.new dz false).start.Synced := by simp [Driver.new, Driver.start, Driver.Synced]
  obtain ⟨g1, g2, g3, g4⟩ := run_synced hs rfl cs
  obtain ⟨k1, k2, k3, k4, k5, -⟩ := process_synced g1 g3 p
  have e : d = (((Driver.new dz false).start.run (commands cs)).process ⟨true, true⟩ (some p)).1 := by
    simp only [d, commands, List.map_append, run_append]
    rfl
  have e' : (Driver.new dz false).start.run (commands cs) =
      (Driver.new dz false).start.run (cs.map fun c => (⟨true, true⟩, some c)) := rfl
  rw [e'] at e
  rw [← e] at k1 k2 k3 k4 k5
  rw [g2] at k2
  have k2 : d.current = compensate dz p := k2
  have hen : d.enabled = true := by rw [k5, g4]; rfl
  obtain ⟨s1, s2, s3⟩ := k1
  refine ⟨hen, ?_⟩
  obtain ⟨hpl, hpu⟩ := hp
  rcases lt_trichotomy p 0 with hn | rfl | hpos
  · obtain ⟨c1, c2⟩ := compensate_neg h0 hn
    have ⟨t1, t2⟩ := s2 (by rw [k2]; exact c2)
    rw [t1, t2, k2, c1]
    refine ⟨⟨fun h => absurd h (ne_of_lt hn), fun h => absurd h (not_lt.mpr (le_of_lt hn)), fun _ => ⟨t1, ?_⟩⟩,
      by norm_num, by nlinarith, ?_, ?_⟩
    · rw [t2, k2]; linarith
    · constructor
      · intro h; norm_num at h
      · intro h; rw [h] at hn; norm_num at hn
    · intro h; subst h; ring
  · rw [compensate_zero] at k2
    have ⟨t1, t2⟩ := s3 k2
    refine ⟨⟨fun _ => ⟨t1, t2⟩, fun h => absurd h (lt_irrefl 0), fun h => absurd h (lt_irrefl 0)⟩, ?_, ?_, ?_, ?_⟩
    · rw [t1]; norm_num
    · rw [t2]; linarith
    · rw [t1]
    · rw [t1, t2]; norm_num
  · obtain ⟨c1, c2⟩ := compensate_pos h0 h1 hpos
    have ⟨t1, t2⟩ := s1 (by rw [k2]; exact c2)
    refine ⟨⟨fun h => absurd h (ne_of_gt hpos), fun _ => ⟨by rw [t1, k2]; exact c2, t2⟩,
      fun h => absurd h (not_lt.mpr (le_of_lt hpos))⟩, ?_, ?_, ?_, ?_⟩
    · rw [t1, k2, c1]; nlinarith
    · rw [t2]; linarith
    · rw [t1, k2, c1]
      constructor
      · intro h
        have : (1 - dz) * (1 - p) = 0 := by linarith
        rcases mul_eq_zero.mp this with h' | h' <;> linarith
      · intro h; rw [h]; ring
    · intro h; rw [t1, t2, k2, c1, h]; ring

example := C50_applied_partial (dz := 1 / 4) (by decide +kernel) (by decide +kernel) [1, -1 / 2] (1 / 2) (by decide +kernel)

/-- More power turns the motor faster, in both directions. -/
theorem C50_monotone {dz : Rat} (h0 : 0 ≤ dz) (h1 : dz < 1) {p q : Rat} (h : p < q) :
    compensate dz p < compensate dz q := by
  rcases lt_trichotomy p 0 with hp | rfl | hp <;> rcases lt_trichotomy q 0 with hq | rfl | hq
  · rw [(compensate_neg h0 hp).1, (compensate_neg h0 hq).1]; nlinarith
  · rw [compensate_zero]; exact (compensate_neg h0 hp).2
  · exact lt_trans (compensate_neg h0 hp).2 (compensate_pos h0 h1 hq).2
  · exact absurd (lt_trans h hq) (lt_irrefl _)
  · exact absurd h (lt_irrefl _)
  · rw [compensate_zero]; exact (compensate_pos h0 h1 hq).2
  · exact absurd (lt_trans hp (lt_trans h hq)) (lt_irrefl _)
  · exact absurd (lt_trans hp h) (lt_irrefl _)
  · rw [(compensate_pos h0 h1 hp).1, (compensate_pos h0 h1 hq).1]; nlinarith

example := C50_monotone (dz := 1 / 4) (by decide +kernel) (by decide +kernel) (p := -1 / 3) (q := 1 / 2) (by decide +kernel)

/-- Missing input stops the motor, whatever happened before (errors of the outputs included), and is
reported. -/
theorem C50_stops (d : Driver) :
    (d.process ⟨true, true⟩ none).1.duty0 = 0 ∧ (d.process ⟨true, true⟩ none).1.duty1 = 0 ∧
    ∀ hw, (d.process hw none).2 = false := by
  simp [Driver.process, Driver.set]

/-- In a dry run the motor never turns. -/
theorem C50_dryrun (dz : Rat) (cs : List (Hw × Option Rat)) :
    ((Driver.new dz true).start.run cs).duty0 = 0 ∧ ((Driver.new dz true).start.run cs).duty1 = 0 := by
  have key : ∀ (cs : List (Hw × Option Rat)) (d : Driver), d.dryrun = true → d.duty0 = 0 → d.duty1 = 0 →
      (d.run cs).duty0 = 0 ∧ (d.run cs).duty1 = 0 := by
    intro cs
    induction cs with
    | nil => intro d _ h0 h1; exact ⟨h0, h1⟩
    | cons c cs ih =>
      intro d hd h0 h1
      obtain ⟨hw, c⟩ := c
      have hp : (d.process hw c).1.duty0 = 0 ∧ (d.process hw c).1.duty1 = 0 := by
        have : (d.process hw c).1 = (d.set hw 0 0).1 := by
          cases c <;> simp [Driver.process, hd]
        rw [this]
        unfold Driver.set
        split
        · exact ⟨h0, h1⟩
        · split
          · exact ⟨rfl, h1⟩
          · exact ⟨rfl, rfl⟩
      exact ih _ ((process_dryrun d hw c).trans hd) hp.1 hp.2
  exact key cs _ rfl rfl rfl

/-- With any dead zone, full power backwards asks for more than full scale. -/
theorem C50_violated_scale {dz : Rat} (h0 : 0 < dz) :
    ((Driver.new dz false).start.run (commands [-1])).duty1 > 1 := by
  have e := (compensate_neg (le_of_lt h0) (show (-1 : Rat) < 0 by norm_num))
  obtain ⟨s, k, -⟩ := process_synced (d := (Driver.new dz false).start)
    (by simp [Driver.new, Driver.start, Driver.Synced]) rfl (-1)
  have k : ((Driver.new dz false).start.process ⟨true, true⟩ (some (-1))).1.current = compensate dz (-1) := k
  have ⟨_, t2⟩ := s.2.1 (by rw [k]; exact e.2)
  show ((Driver.new dz false).start.process ⟨true, true⟩ (some (-1))).1.duty1 > 1
  rw [t2, k, e.1]
  linarith

/-- After a gap, the command given before it is skipped: the motor stays stopped and no error is reported. -/
theorem C50_violated_gap (dz p : Rat) (n : Nat) :
    let d := ((Driver.new dz false).start.run (commands [p] ++ [(⟨true, true⟩, none)])).run
      (commands (List.replicate n p))
    d.duty0 = 0 ∧ d.duty1 = 0 ∧ (d.process ⟨true, true⟩ (some p)).2 = true := by
  intro d
  have hs : (Driver.new dz false).start.Synced := by simp [Driver.new, Driver.start, Driver.Synced]
  obtain ⟨-, k2, k3, k4, -, -⟩ := process_synced hs rfl p
  have key : ∀ (n : Nat) (d : Driver), d.dryrun = false → d.current = compensate d.deadzone p →
      d.run (commands (List.replicate n p)) = d ∧ (d.process ⟨true, true⟩ (some p)) = (d, true) := by
    intro n d hd hc
    have hp : d.process ⟨true, true⟩ (some p) = (d, true) := by
      simp [Driver.process, hd, hc]
    induction n with
    | zero => exact ⟨rfl, hp⟩
    | succ n ih =>
      refine ⟨?_, hp⟩
      simp only [commands, List.replicate_succ, List.map_cons, Driver.run, hp]
      exact ih.1
  have hd1 : (Driver.new dz false).start.run (commands [p] ++ [(⟨true, true⟩, none)]) =
      { ((Driver.new dz false).start.process ⟨true, true⟩ (some p)).1 with duty0 := 0, duty1 := 0 } := by
    simp [commands, Driver.run, Driver.process, Driver.set]
  have := key n _ (show ({ ((Driver.new dz false).start.process ⟨true, true⟩ (some p)).1 with duty0 := 0, duty1 := 0 } : Driver).dryrun = false from k4)
    (by show _ = compensate (((Driver.new dz false).start.process ⟨true, true⟩ (some p)).1).deadzone p; rw [k3]; exact k2)
  have e : d = { ((Driver.new dz false).start.process ⟨true, true⟩ (some p)).1 with duty0 := 0, duty1 := 0 } := by
    simp only [d, hd1]
    exact this.1
  rw [e]
  exact ⟨rfl, rfl, by rw [this.2]⟩

/-- A request that fails is not repeated, and a thawed driver does not apply its power: in both cases the
same command is then accepted without turning the motor. -/
theorem C50_violated_skipped :
    (let d := (Driver.new 0 false).start.run [(⟨false, true⟩, some (1 / 2))]
     d.process ⟨true, true⟩ (some (1 / 2)) = (d, true) ∧ d.duty0 = 0 ∧ d.duty1 = 0) ∧
    (let d := (Driver.new 0 false).start.run (commands [1 / 2])
     let d' := ((Driver.new 0 false).thaw d.freeze).start
     d'.process ⟨true, true⟩ (some (1 / 2)) = (d', true) ∧ d'.duty0 = 0 ∧ d'.duty1 = 0) := by
  decide +kernel

example : ((Driver.new (1 / 4) false).start.run (commands [1, -1 / 2, 1 / 2])).duty0 = 5 / 8 ∧
    (0 : Rat) ≤ 1 / 4 ∧ (1 / 4 : Rat) < 1 := by decide +kernel

end Motor
end Verif
