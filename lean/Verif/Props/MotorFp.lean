import Verif.Proofs.MotorFp
/-!
C85: the motor driver in floating point.
-/
namespace Verif
namespace MotorFp
open Fp

/-- After any history of commands without gaps, NaN and infinities included, the last one is applied: its sign,
exactly zero for zero, no more than full scale forwards and full scale for full power.  Without a dead zone the
command is applied exactly; otherwise it is scaled to what is left beyond the dead zone.  A command that is NaN stops the motor.  Backwards the duty cycle is only known to
be at most 3, see `C85_scale_violated`. -/
theorem C85_applied_partial {dz : Rat} (hdz : round f32 dz = .fin dz) (h0 : 0 ≤ dz) (h1 : dz < 1) (cs : List Num) (p : Num) :
    let d := (Driver.new (.fin dz) false).start.run ((cs ++ [p]).map some)
    d.enabled = true ∧ (p = .nan → d.duty0 = .fin 0 ∧ d.duty1 = .fin 0) ∧
    ∀ q, p = .fin q → round f32 q = .fin q → -1 ≤ q → q ≤ 1 → ∃ a b, d.duty0 = .fin a ∧ d.duty1 = .fin b ∧
      (q = 0 → a = 0 ∧ b = 0) ∧ (0 < q → 0 < a ∧ a ≤ 1 ∧ b = 0) ∧ (q < 0 → a = 0 ∧ 0 < b ∧ b ≤ 3) ∧
      (q = 1 → a = 1) ∧ (dz = 0 → a - b = q) ∧
      (0 < q → |a - (dz + (1 - dz) * q)| ≤ 1 / 500000) ∧ (q < 0 → |b - (dz + (1 + dz) * -q)| ≤ 1 / 500000) := by
  intro d
  have hs : (Driver.new (.fin dz) false).start.Synced := by
    simp [Driver.new, Driver.start, Driver.Synced, Num.lt]
  obtain ⟨g1, g2, g3, g4⟩ := run_synced hs rfl cs
  obtain ⟨k1, k2, -, -, k5⟩ := process_synced g1 g3 p
  have e : d = (((Driver.new (.fin dz) false).start.run (cs.map some)).process (some p)).1 := by
    simp only [d, List.map_append, run_append]
    rfl
  rw [← e] at k1 k2 k5
  rw [g2] at k2
  have k2 : d.current = compensate (.fin dz) p := k2
  refine ⟨by rw [k5, g4]; rfl, fun hn => ?_, fun q hq hr hq0 hq1 => ?_⟩
  · rw [hn, comp_nan] at k2
    exact k1.2.2 (by rw [k2]; rfl) (by rw [k2]; rfl)
  · have hF : 0 < f32.prec := by decide
    have hd := rep_of_round hdz
    have hp := rep_of_round hr
    subst hq
    rcases lt_trichotomy q 0 with hn | rfl | hpos
    · obtain ⟨c1, c2, c3⟩ := comp_neg h0 h1 hp hn hq0
      rw [c1] at k2
      generalize hv : rnd f32 (-dz + rnd f32 (rnd f32 (1 + dz) * q)) = v at c2 c3 k2
      have rv : Rep f32 v := hv ▸ rnd_rep _ _
      obtain ⟨t1, t2⟩ := k1.2.1 (by rw [k2]; simpa [Num.lt] using c2)
      rw [k2] at t2
      have hconv : (Num.fin v).neg.convert f64 = .fin (-v) :=
        convert64 (rep_neg rv) (by rw [abs_neg, abs_le]; constructor <;> linarith)
      rw [hconv] at t2
      refine ⟨0, -v, t1, t2, fun h => absurd h (ne_of_lt hn), fun h => absurd h (not_lt.2 hn.le),
        fun _ => ⟨rfl, by linarith, by linarith⟩, fun h => by linarith, fun h => ?_, fun h => by linarith, fun _ => ?_⟩
      rotate_left
      · have := comp_near (s := 1 + dz) (z := -dz) (p := q) (by rw [abs_le]; constructor <;> linarith)
          (by rw [abs_le]; constructor <;> linarith) (by rw [abs_le]; constructor <;> linarith)
        rw [hv] at this
        rw [← abs_neg]
        refine le_trans (le_of_eq ?_) this
        congr 1; ring
      have r1 : Rep f32 (1 : ℚ) := by simpa using rep_small (n := 1) (by decide)
      subst h
      rw [add_zero, rnd_id hF r1, one_mul, rnd_id hF hp, neg_zero, zero_add, rnd_id hF hp] at hv
      linarith
    · rw [comp_zero] at k2
      obtain ⟨t1, t2⟩ := k1.2.2 (by rw [k2]; simp [Num.lt]) (by rw [k2]; simp [Num.lt])
      exact ⟨0, 0, t1, t2, fun _ => ⟨rfl, rfl⟩, fun h => absurd h (lt_irrefl _), fun h => absurd h (lt_irrefl _),
        fun h => absurd h (by norm_num), fun _ => by norm_num, fun h => absurd h (lt_irrefl _), fun h => absurd h (lt_irrefl _)⟩
    · obtain ⟨c1, c2, c3⟩ := comp_pos hd h0 h1 hp hpos hq1
      rw [c1] at k2
      generalize hv : rnd f32 (dz + rnd f32 (rnd f32 (1 - dz) * q)) = v at c2 c3 k2
      have rv : Rep f32 v := hv ▸ rnd_rep _ _
      obtain ⟨t1, t2⟩ := k1.1 (by rw [k2]; simpa [Num.lt] using c2)
      rw [k2, convert64 rv (by rw [abs_le]; constructor <;> linarith)] at t1
      refine ⟨v, 0, t1, t2, fun h => absurd h (ne_of_gt hpos), fun _ => ⟨c2, c3, rfl⟩,
        fun h => absurd h (not_lt.2 hpos.le), fun h => ?_, fun h => ?_, fun _ => ?_, fun h => absurd h (not_lt.2 hpos.le)⟩
      · subst h
        rw [← hv]
        exact le_antisymm (hv ▸ c3) (comp_full h0 h1)
      · have r1 : Rep f32 (1 : ℚ) := by simpa using rep_small (n := 1) (by decide)
        subst h
        rw [sub_zero, rnd_id hF r1, one_mul, rnd_id hF hp, zero_add, rnd_id hF hp] at hv
        linarith
      · have := comp_near (s := 1 - dz) (z := dz) (p := q) (by rw [abs_le]; constructor <;> linarith)
          (by rw [abs_le]; constructor <;> linarith) (by rw [abs_le]; constructor <;> linarith)
        rw [hv] at this
        exact this

/-- The power applied for a command does not decrease if the command increases. -/
theorem C85_monotone {dz : Rat} (hdz : round f32 dz = .fin dz) (h0 : 0 ≤ dz) (h1 : dz < 1) {p q : Rat}
    (hp : round f32 p = .fin p) (hq : round f32 q = .fin q) (hp0 : -1 ≤ p) (hpq : p ≤ q) (hq1 : q ≤ 1) :
    (compensate (.fin dz) (.fin p)).le (compensate (.fin dz) (.fin q)) = true := by
  have hF : 0 < f32.prec := by decide
  have rd := rep_of_round hdz
  have rp := rep_of_round hp
  have rq := rep_of_round hq
  have a0 : 0 ≤ rnd f32 (1 - dz) := le_rnd hF (rep_zero _) (by linarith)
  have b0 : 0 ≤ rnd f32 (1 + dz) := le_rnd hF (rep_zero _) (by linarith)
  rcases lt_trichotomy p 0 with hn | rfl | hpos <;> rcases lt_trichotomy q 0 with hn' | rfl | hpos'
  · rw [(comp_neg h0 h1 rp hn hp0).1, (comp_neg h0 h1 rq hn' (by linarith)).1]
    simp only [Num.le, decide_eq_true_eq]
    exact rnd_mono hF (by linarith [rnd_mono (F := f32) hF (mul_le_mul_of_nonneg_left hpq b0)])
  · obtain ⟨c1, c2, -⟩ := comp_neg h0 h1 rp hn hp0
    rw [c1, comp_zero]; simpa [Num.le] using c2.le
  · obtain ⟨c1, c2, -⟩ := comp_neg h0 h1 rp hn hp0
    obtain ⟨d1, d2, -⟩ := comp_pos rd h0 h1 rq hpos' hq1
    rw [c1, d1]
    simp only [Num.le, decide_eq_true_eq]; linarith
  · linarith
  · rw [comp_zero]; simp [Num.le]
  · obtain ⟨d1, d2, -⟩ := comp_pos rd h0 h1 rq hpos' hq1
    rw [d1, comp_zero]; simpa [Num.le] using d2.le
  · linarith
  · linarith
  · rw [(comp_pos rd h0 h1 rp hpos (by linarith)).1, (comp_pos rd h0 h1 rq hpos' hq1).1]
    simp only [Num.le, decide_eq_true_eq]
    exact rnd_mono hF (by linarith [rnd_mono (F := f32) hF (mul_le_mul_of_nonneg_left hpq a0)])

/-- Missing input stops the motor and is reported. -/
theorem C85_stops (d : Driver) : (d.process none).1.duty0 = .fin 0 ∧ (d.process none).1.duty1 = .fin 0 ∧
    (d.process none).2 = false := ⟨rfl, rfl, rfl⟩

/-- A dead zone that is a number of single precision; full power forwards is exactly full scale. -/
example : round f32 (13421773 / 134217728) = .fin (13421773 / 134217728) ∧ (0 : Rat) ≤ 13421773 / 134217728 ∧
    (13421773 / 134217728 : Rat) < 1 ∧
    ((Driver.new (.fin (13421773 / 134217728)) false).start.run ([.nan, .inf true, .fin (-1 / 2), .fin 1].map some)).duty0 = .fin 1 ∧
    ((Driver.new (.fin (13421773 / 134217728)) false).start.run ([.fin 1, .fin (1 / 2), .nan].map some)).duty0 = .fin 0 ∧
    ((Driver.new (.fin (13421773 / 134217728)) false).start.run ([.fin 1, .fin (-1 / 2)].map some)).duty1 =
      .fin (10905191 / 16777216) := by
  decide +kernel

/-- With the dead zone of the balancing robot's kind, full power backwards asks for more than full scale. -/
theorem C85_scale_violated : ((Driver.new (.fin (13421773 / 134217728)) false).start.run [some (.fin (-1))]).duty1 =
    .fin (5033165 / 4194304) := by decide +kernel

end MotorFp
end Verif
