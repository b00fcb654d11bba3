import Verif.Spec.Pid
import Mathlib.Tactic.Linarith
import Mathlib.Tactic.Ring
import Mathlib.Tactic.FieldSimp
import Mathlib.Data.Rat.Cast.Order
/-! Lemmas on the PID controller. -/
namespace Verif
namespace Pid

theorem limited_within {l : Rat} (h : 0 ≤ l) (x : Rat) : -l ≤ limited l x ∧ limited l x ≤ l := by
  unfold limited
  refine ⟨le_max_left _ _, max_le (by linarith) (min_le_right _ _)⟩

theorem clamp_eq {l : Rat} (h : 0 ≤ l) (x : Rat) : clamp l x = .ok (limited l x) := by
  unfold clamp limited
  rw [if_neg (by linarith)]
  split
  · rename_i h1
    rw [min_eq_left (by linarith), max_eq_left (by linarith)]
  · split
    · rename_i h1 h2
      rw [min_eq_right (by linarith), max_eq_right (by linarith)]
    · rename_i h1 h2
      rw [min_eq_left (by linarith), max_eq_right (by linarith)]

theorem derivative_ok {kd l diff dt : Rat} (h : 0 ≤ l) :
    ∃ d, derivative kd l diff dt = .ok d ∧ (∀ x, d = some x → -l ≤ x ∧ x ≤ l) ∧
      (dt ≠ 0 → d = some (limited l (kd * (diff / dt)))) := by
  unfold derivative
  by_cases h0 : dt = 0
  · rw [if_pos h0, if_neg (by linarith)]
    split
    · exact ⟨none, rfl, by simp, fun h => absurd h0 h⟩
    · split
      · exact ⟨some l, rfl, by rintro x ⟨⟩; constructor <;> linarith, fun h => absurd h0 h⟩
      · exact ⟨some (-l), rfl, by rintro x ⟨⟩; constructor <;> linarith, fun h => absurd h0 h⟩
  · rw [if_neg h0, clamp_eq h]
    refine ⟨_, rfl, ?_, fun _ => rfl⟩
    rintro x ⟨⟩
    exact limited_within h _

theorem next_ok {cfg : Cfg} (hs : cfg.Sound) {c : Controller} (hw : Within cfg c.lastOutput) (m : Rat) {dt : Nat}
    (hdt : c.elapsed + dt < 2 ^ 64) :
    ∃ c' o, c.next cfg m dt = .ok (c', o) ∧ Within cfg o ∧ Within cfg c'.lastOutput ∧
      (c.elapsed + dt < cfg.sampling → c' = { c with elapsed := c.elapsed + dt } ∧ o = c.lastOutput) ∧
      (cfg.sampling ≤ c.elapsed + dt → c'.elapsed = 0 ∧ c'.lastOutput = o ∧ c'.lastError = cfg.setpoint - m ∧
        (c.elapsed + dt ≠ 0 → ∃ d u, o.d = some d ∧ o.output = some u)) := by
  obtain ⟨h1, h2, h3, h4⟩ := hs
  unfold Controller.next
  simp only
  rw [if_neg (by omega)]
  by_cases hh : c.elapsed + dt < cfg.sampling
  · rw [if_pos hh]
    exact ⟨_, _, rfl, hw, hw, fun _ => ⟨rfl, rfl⟩, fun h => absurd hh (by omega)⟩
  · rw [if_neg hh]
    obtain ⟨d, hd, hd1, hd2⟩ := derivative_ok (kd := cfg.kd) (diff := cfg.setpoint - m - c.lastError)
      (dt := ((c.elapsed + dt : Nat) : Rat) / 1000000) h3
    simp only [clamp_eq h1, clamp_eq h2, hd, Rs.ok_bind]
    cases d with
    | none =>
      simp only
      rw [if_neg (by linarith)]
      refine ⟨_, _, rfl, ?_, ?_, fun h => absurd h hh, fun _ => ⟨rfl, rfl, rfl, fun hne => ?_⟩⟩
      · exact ⟨limited_within h1 _, limited_within h2 _, by simp, by simp⟩
      · exact ⟨limited_within h1 _, limited_within h2 _, by simp, by simp⟩
      · have : ((c.elapsed + dt : Nat) : Rat) / 1000000 ≠ 0 := by
          apply div_ne_zero
          · exact Nat.cast_ne_zero.mpr hne
          · norm_num
        have := hd2 this
        simp at this
    | some d =>
      simp only [clamp_eq h4, Rs.ok_bind]
      have hw' : Within cfg ⟨limited cfg.pLimit (cfg.kp * (cfg.setpoint - m)),
          limited cfg.iLimit (cfg.ki * (c.integral + (cfg.setpoint - m) * (((c.elapsed + dt : Nat) : Rat) / 1000000))), some d,
          some (limited cfg.outputLimit (limited cfg.pLimit (cfg.kp * (cfg.setpoint - m)) +
            limited cfg.iLimit (cfg.ki * (c.integral + (cfg.setpoint - m) * (((c.elapsed + dt : Nat) : Rat) / 1000000))) + d))⟩ := by
        refine ⟨limited_within h1 _, limited_within h2 _, fun x hx => hd1 x hx, ?_⟩
        rintro u ⟨⟩
        exact limited_within h4 _
      exact ⟨_, _, rfl, hw', hw', fun h => absurd h hh, fun _ => ⟨rfl, rfl, rfl, fun _ => ⟨_, _, rfl, rfl⟩⟩⟩

theorem next_textbook {cfg : Cfg} (hs : cfg.Sound) {c : Controller} {m m0 : Rat} {dt t0 t : Nat}
    (hdt : c.elapsed + dt < 2 ^ 64) (hsam : cfg.sampling ≤ c.elapsed + dt) (hpos : 0 < c.elapsed + dt)
    (ht : t - t0 = c.elapsed + dt) (he : c.lastError = cfg.setpoint - m0) :
    c.next cfg m dt = .ok
      (⟨c.integral + (cfg.setpoint - m) * (((t - t0 : Nat) : Rat) / 1000000), cfg.setpoint - m, 0,
        textbook cfg (c.integral + (cfg.setpoint - m) * (((t - t0 : Nat) : Rat) / 1000000)) t0 m0 t m⟩,
       textbook cfg (c.integral + (cfg.setpoint - m) * (((t - t0 : Nat) : Rat) / 1000000)) t0 m0 t m) := by
  obtain ⟨h1, h2, h3, h4⟩ := hs
  unfold Controller.next
  simp only
  rw [if_neg (by omega), if_neg (by omega)]
  obtain ⟨d, hd, -, hd2⟩ := derivative_ok (kd := cfg.kd) (diff := cfg.setpoint - m - c.lastError)
    (dt := ((c.elapsed + dt : Nat) : Rat) / 1000000) h3
  have hne : ((c.elapsed + dt : Nat) : Rat) / 1000000 ≠ 0 := by
    apply div_ne_zero
    · exact Nat.cast_ne_zero.mpr (by omega)
    · norm_num
  have hd2 := hd2 hne
  subst hd2
  rw [ht]
  have ed : cfg.setpoint - m - c.lastError = m0 - m := by rw [he]; ring
  rw [ed] at hd
  simp only [clamp_eq h1, clamp_eq h2, ed, hd, clamp_eq h4, Rs.ok_bind, textbook, ht]

/-- What holds of every task in every history. -/
structure Good (cfg : Cfg) (t : Task) : Prop where
  same : t.cfg = cfg
  within : Within cfg t.pid.lastOutput
  number : 0 < cfg.sampling → ∃ d u, t.pid.lastOutput.d = some d ∧ t.pid.lastOutput.output = some u

theorem process_good {cfg : Cfg} (hs : cfg.Sound) {t t' : Task} {x : Option (Option Nat × Rat)} {r : Res}
    (hg : Good cfg t) (h : t.process x = .ok (t', r)) :
    Good cfg t' ∧ ∀ o, r = .produced o → Within cfg o ∧
      (0 < cfg.sampling → ∃ d u, o.d = some d ∧ o.output = some u) ∧
      ∃ tov m, x = some (some tov, m) ∧ cfg.setpoint - cfg.cutoff ≤ m ∧ m ≤ cfg.setpoint + cfg.cutoff := by
  obtain ⟨rfl, hw, hn⟩ := hg
  match x with
  | none => simp [Task.process] at h; obtain ⟨rfl, rfl⟩ := h; exact ⟨⟨rfl, hw, hn⟩, by simp⟩
  | some (none, m) => simp [Task.process] at h; obtain ⟨rfl, rfl⟩ := h; exact ⟨⟨rfl, hw, hn⟩, by simp⟩
  | some (some tov, m) =>
    simp only [Task.process] at h
    split at h
    · simp at h; obtain ⟨rfl, rfl⟩ := h; exact ⟨⟨rfl, hw, hn⟩, by simp⟩
    · split at h
      · simp at h
      · by_cases hdt : t.pid.elapsed + (tov - t.lastTov) < 2 ^ 64
        · obtain ⟨c', o, h1, h2, h3, h4, h5⟩ := next_ok hs hw m hdt
          have hnum : 0 < t.cfg.sampling → (∃ d u, o.d = some d ∧ o.output = some u) ∧
              ∃ d u, c'.lastOutput.d = some d ∧ c'.lastOutput.output = some u := by
            intro hp
            by_cases hh : t.pid.elapsed + (tov - t.lastTov) < t.cfg.sampling
            · obtain ⟨h6, h7⟩ := h4 hh
              rw [h7, h6]
              exact ⟨hn hp, hn hp⟩
            · obtain ⟨-, h7, -, h8⟩ := h5 (by omega)
              rw [h7]
              exact ⟨h8 (by omega), h8 (by omega)⟩
          rw [h1] at h
          simp only [Rs.ok_bind] at h
          split at h
          · simp at h; obtain ⟨rfl, rfl⟩ := h
            exact ⟨⟨rfl, h3, fun hp => (hnum hp).2⟩, by simp⟩
          · split at h
            · simp at h; obtain ⟨rfl, rfl⟩ := h
              exact ⟨⟨rfl, h3, fun hp => (hnum hp).2⟩, by simp⟩
            · rename_i hc1 hc2
              simp at h; obtain ⟨rfl, rfl⟩ := h
              refine ⟨⟨rfl, h3, fun hp => (hnum hp).2⟩, ?_⟩
              rintro o' ⟨⟩
              exact ⟨h2, fun hp => (hnum hp).1, tov, m, rfl, not_lt.mp hc2, not_lt.mp hc1⟩
        · exfalso
          have : t.pid.next t.cfg m (tov - t.lastTov) = .panic := by
            unfold Controller.next
            simp only
            rw [if_pos (by omega)]
          rw [this] at h
          simp at h

theorem Reach.good {cfg : Cfg} (hs : cfg.Sound) {t : Task} (h : Reach cfg t) : Good cfg t := by
  induction h with
  | new =>
    obtain ⟨h1, h2, h3, h4⟩ := hs
    refine ⟨rfl, ?_, fun _ => ⟨0, 0, rfl, rfl⟩⟩
    refine ⟨⟨by simpa [Task.new, Controller.new] using h1, h1⟩, ⟨by simpa [Task.new, Controller.new] using h2, h2⟩, ?_, ?_⟩
    · rintro d ⟨⟩; constructor <;> linarith
    · rintro d ⟨⟩; constructor <;> linarith
  | process _ h ih => exact (process_good hs ih h).1
  | stop _ ih => exact ⟨ih.1, ih.2, ih.3⟩

theorem run_cons {t t1 : Task} {x : Option (Option Nat × Rat)} {r : Res} (h : t.process x = .ok (t1, r))
    (xs : List (Option (Option Nat × Rat))) :
    t.run (x :: xs) = (t1.run xs).map' fun p => (p.1, r :: p.2) := by
  simp only [Task.run, h]
  cases t1.run xs <;> rfl

/-- Samples `k` later. -/
def shift (k : Nat) (xs : List (Nat × Rat)) : List (Nat × Rat) := xs.map fun x => (x.1 + k, x.2)

theorem run_textbook {cfg : Cfg} (hs : cfg.Sound) (k : Nat) (xs : List (Nat × Rat)) {t : Task} {t0 : Nat} {m0 : Rat}
    (hc : t.cfg = cfg) (hf : t.firstRun = false) (he : t.pid.lastError = cfg.setpoint - m0)
    (hk : t.lastTov + k = t0 + t.pid.elapsed) (hel : t.pid.elapsed ≤ cfg.sampling)
    (hx : Spaced cfg t0 (shift k xs)) :
    ∃ t', t.run (xs.map fun x => some (some x.1, x.2)) =
      .ok (t', (outputsOf cfg t.pid.integral t0 m0 (shift k xs)).map .produced) := by
  induction xs generalizing t t0 m0 with
  | nil => exact ⟨t, rfl⟩
  | cons x xs ih =>
    obtain ⟨t1, m⟩ := x
    obtain ⟨h1, h2, h3, h4, h5, h6⟩ := hx
    subst hc
    have hn := next_textbook hs (c := t.pid) (m := m) (m0 := m0) (dt := t1 - t.lastTov) (t0 := t0) (t := t1 + k)
      (by omega) (by omega) (by omega) (by omega) he
    generalize hcc : t.pid.integral + (t.cfg.setpoint - m) * (((t1 + k - t0 : Nat) : Rat) / 1000000) = s at hn
    have hp : t.process (some (some t1, m)) = .ok ({ t with lastTov := t1, pid := ⟨s, t.cfg.setpoint - m, 0, textbook t.cfg s t0 m0 (t1 + k) m⟩ },
        .produced (textbook t.cfg s t0 m0 (t1 + k) m)) := by
      simp only [Task.process]
      rw [if_neg (by simp [hf]), if_neg (by omega), hn]
      simp only [Rs.ok_bind]
      rw [if_neg (not_lt.mpr h5), if_neg (not_lt.mpr h4)]
    rw [List.map_cons, run_cons hp]
    obtain ⟨t', ht'⟩ := ih (t := { t with lastTov := t1, pid := ⟨s, t.cfg.setpoint - m, 0,
        textbook t.cfg s t0 m0 (t1 + k) m⟩ }) (t0 := t1 + k) (m0 := m) rfl hf rfl (by simp) (by simp) h6
    rw [ht']
    refine ⟨t', ?_⟩
    simp only [Rs.map', shift, List.map_cons, outputsOf, hcc]

end Pid
end Verif
