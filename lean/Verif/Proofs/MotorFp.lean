import Verif.Proofs.PidFp
import Verif.Model.MotorFp
/-!
Lemmas on the motor driver in floating point.
-/
namespace Verif
namespace MotorFp
open Fp

theorem rep_of_round {F : Format} {q : ℚ} (h : round F q = .fin q) : Rep F q := by
  rw [round_eq] at h
  split at h
  · cases h
  · split at h
    · cases h
    · have := rnd_rep F q
      rw [Num.fin.inj h] at this
      exact this

theorem rep_f64 {q : ℚ} (h : Rep f32 q) : Rep f64 q := by
  obtain ⟨m, e, rfl, hm, he⟩ := h
  exact ⟨m, e, rfl, le_trans hm (by decide), le_trans (by decide) he⟩

theorem round32 {q : ℚ} (h : |q| ≤ 4) : round f32 q = .fin (rnd f32 q) := by
  have p2 : pow2 2 = 4 := by decide +kernel
  obtain ⟨v, h1, rfl, -⟩ := round_bound (q := q) (k := 2) (by decide) (by decide) (by rw [p2]; exact h)
  exact h1

theorem convert64 {q : ℚ} (h : Rep f32 q) (hb : |q| ≤ 4) : (Num.fin q).convert f64 = .fin q := by
  have e := rnd_id (F := f64) (by decide) (rep_f64 h)
  have : |rnd f64 q| < pow2 f64.emax := by
    rw [e]
    have : pow2 2 = 4 := by decide +kernel
    exact lt_of_le_of_lt (by rw [this]; exact hb) (pow2_lt (show (2 : Int) < f64.emax by decide))
  show round f64 q = _
  rw [round_fin this, e]

theorem rep_small {n : Int} (h : |n| ≤ 4) : Rep f32 n :=
  rep_int (le_trans h (by decide)) (by decide)

variable {dz : ℚ}

theorem comp_pos (hd : Rep f32 dz) (h0 : 0 ≤ dz) (h1 : dz < 1) {p : ℚ} (hp : Rep f32 p) (hp0 : 0 < p) (hp1 : p ≤ 1) :
    compensate (.fin dz) (.fin p) = .fin (rnd f32 (dz + rnd f32 (rnd f32 (1 - dz) * p))) ∧
    0 < rnd f32 (dz + rnd f32 (rnd f32 (1 - dz) * p)) ∧ rnd f32 (dz + rnd f32 (rnd f32 (1 - dz) * p)) ≤ 1 := by
  have hF : 0 < f32.prec := by decide
  have r1 : Rep f32 (1 : ℚ) := by simpa using rep_small (n := 1) (by decide)
  have r0 := rep_zero f32
  have a0 : 0 ≤ rnd f32 (1 - dz) := le_rnd hF r0 (by linarith)
  have a1 : rnd f32 (1 - dz) ≤ 1 := rnd_le hF r1 (by linarith)
  have b0 : 0 ≤ rnd f32 (rnd f32 (1 - dz) * p) := le_rnd hF r0 (mul_nonneg a0 hp0.le)
  have b1 : rnd f32 (rnd f32 (1 - dz) * p) ≤ rnd f32 (1 - dz) := rnd_le hF (rnd_rep _ _) (by nlinarith)
  refine ⟨?_, ?_, ?_⟩
  · have ne : p ≠ 0 := ne_of_gt hp0
    have e1 : round f32 (1 + -dz) = .fin (rnd f32 (1 - dz)) := by
      rw [← sub_eq_add_neg]
      exact round32 (by rw [abs_le]; constructor <;> linarith)
    have e2 : round f32 (rnd f32 (1 - dz) * p) = .fin (rnd f32 (rnd f32 (1 - dz) * p)) :=
      round32 (by rw [abs_le]; constructor <;> nlinarith)
    have e3 : round f32 (dz + rnd f32 (rnd f32 (1 - dz) * p)) = .fin (rnd f32 (dz + rnd f32 (rnd f32 (1 - dz) * p))) :=
      round32 (by rw [abs_le]; constructor <;> linarith)
    simp [compensate, Num.eq, ne, Num.lt, hp0, Num.sub, Num.neg, Num.add, e1, Num.mul, e2, e3]
  · rcases eq_or_lt_of_le h0 with h | h
    · rw [← h, sub_zero, rnd_id hF r1, one_mul, rnd_id hF hp, zero_add, rnd_id hF hp]; exact hp0
    · exact lt_of_lt_of_le h (le_rnd hF hd (by linarith))
  · -- the error of `1 - dz` is less than half of the last bit of 1
    have he := abs_le.1 (rnd_err (F := f32) (1 - dz))
    have hm : max (pow2 (f32.emin - 1)) (|1 - dz| * pow2 (-f32.prec)) ≤ pow2 (-24) := by
      apply max_le
      · exact pow2_le (by decide)
      · have : |1 - dz| ≤ 1 := by rw [abs_le]; constructor <;> linarith
        have h24 : pow2 (-(f32.prec : Int)) = pow2 (-24) := rfl
        rw [h24]
        nlinarith [pow2_pos (-24)]
    have hle : dz + rnd f32 (rnd f32 (1 - dz) * p) ≤ 1 + pow2 (-24) := by linarith [he.2]
    have hc : rnd f32 (1 + pow2 (-24)) = 1 := by decide +kernel
    exact le_trans (rnd_mono hF hle) (le_of_eq hc)

theorem comp_neg (h0 : 0 ≤ dz) (h1 : dz < 1) {p : ℚ} (hp : Rep f32 p) (hp0 : p < 0) (hp1 : -1 ≤ p) :
    compensate (.fin dz) (.fin p) = .fin (rnd f32 (-dz + rnd f32 (rnd f32 (1 + dz) * p))) ∧
    rnd f32 (-dz + rnd f32 (rnd f32 (1 + dz) * p)) < 0 ∧ -3 ≤ rnd f32 (-dz + rnd f32 (rnd f32 (1 + dz) * p)) := by
  have hF : 0 < f32.prec := by decide
  have r1 : Rep f32 (1 : ℚ) := by simpa using rep_small (n := 1) (by decide)
  have r2 : Rep f32 (2 : ℚ) := by simpa using rep_small (n := 2) (by decide)
  have r3 : Rep f32 (-3 : ℚ) := by simpa using rep_small (n := -3) (by decide)
  have a0 : 1 ≤ rnd f32 (1 + dz) := le_rnd hF r1 (by linarith)
  have a1 : rnd f32 (1 + dz) ≤ 2 := rnd_le hF r2 (by linarith)
  have b0 : rnd f32 (rnd f32 (1 + dz) * p) ≤ p := rnd_le hF hp (by nlinarith)
  have b1 : -2 ≤ rnd f32 (rnd f32 (1 + dz) * p) := le_rnd hF (rep_neg r2) (by nlinarith)
  refine ⟨?_, ?_, ?_⟩
  · have ne : p ≠ 0 := ne_of_lt hp0
    have np : ¬ 0 < p := not_lt.2 hp0.le
    have e1 : round f32 (1 + dz) = .fin (rnd f32 (1 + dz)) :=
      round32 (by rw [abs_le]; constructor <;> linarith)
    have e2 : round f32 (rnd f32 (1 + dz) * p) = .fin (rnd f32 (rnd f32 (1 + dz) * p)) :=
      round32 (by rw [abs_le]; constructor <;> nlinarith)
    have e3 : round f32 (-dz + rnd f32 (rnd f32 (1 + dz) * p)) = .fin (rnd f32 (-dz + rnd f32 (rnd f32 (1 + dz) * p))) :=
      round32 (by rw [abs_le]; constructor <;> linarith)
    simp [compensate, Num.eq, ne, Num.lt, np, Num.neg, Num.add, e1, Num.mul, e2, e3]
  · exact lt_of_le_of_lt (rnd_le hF hp (by linarith)) hp0
  · exact le_rnd hF r3 (by linarith)

/-- Full power is full scale: `1 - dz` is rounded by no more than half of the last bit below 1. -/
theorem comp_full (h0 : 0 ≤ dz) (h1 : dz < 1) :
    1 ≤ rnd f32 (dz + rnd f32 (rnd f32 (1 - dz) * 1)) := by
  have hF : 0 < f32.prec := by decide
  rw [mul_one, rnd_id hF (rnd_rep _ _)]
  obtain ⟨n, hn1, hn2⟩ : ∃ n : Int, (1 - dz) * 16777216 - 1 / 2 ≤ (n : ℚ) ∧ (n : ℚ) ≤ (1 - dz) * 16777216 + 1 / 2 := by
    obtain ⟨h1, h2⟩ := abs_le.1 (nearest_spec ((1 - dz) * 16777216))
    exact ⟨nearest ((1 - dz) * 16777216), by linarith, by linarith⟩
  have hr : Rep f32 ((n : ℚ) * pow2 (-24)) := by
    refine ⟨_, _, rfl, ?_, by decide⟩
    have u : (n : ℚ) < (16777217 : Int) := by push_cast; linarith
    have l : ((-1 : Int) : ℚ) < (n : ℚ) := by push_cast; linarith
    have u := Int.cast_lt.1 u
    have l := Int.cast_lt.1 l
    show _ ≤ (2 : Int) ^ 24
    rw [abs_le]
    constructor <;> omega
  have hb := rnd_best hF (1 - dz) hr
  have p24 : pow2 (-24) = 1 / 16777216 := by decide +kernel
  have hv : |(n : ℚ) * pow2 (-24) - (1 - dz)| ≤ pow2 (-25) := by
    have p25 : pow2 (-25) = 1 / 33554432 := by decide +kernel
    rw [p24, p25, abs_le]
    constructor <;> linarith
  have hb := (abs_le.1 (le_trans hb hv)).1
  have hc : rnd f32 (1 - pow2 (-25)) = 1 := by decide +kernel
  exact le_trans (le_of_eq hc.symm) (rnd_mono hF (by linarith))

/-- The roundings of the compensation. -/
theorem comp_near {s z p : ℚ} (hs : |s| ≤ 2) (hz : |z| ≤ 1) (hp : |p| ≤ 1) :
    |rnd f32 (z + rnd f32 (rnd f32 s * p)) - (z + s * p)| ≤ 1 / 500000 := by
  have tp := tiny_pos
  have tl : tiny ≤ 1 / 10 ^ 40 := le_trans (tiny_le (k := -140) (by decide)) (by decide +kernel)
  have as := (Appr.exact s).rnd (le_refl _) (by norm_num) (le_refl _)
  have a1 := (as.mul (Appr.exact p) (by norm_num) (by norm_num) (le_refl _) (by norm_num) (by linarith)
    (le_refl _)).rnd (by norm_num) (by norm_num) (by have := abs_nonneg p; nlinarith)
  have a2 := (((Appr.exact z).weaken (l := 2 * (0 + 2) + 0 + 2) (s := 0) (by norm_num) (le_refl _)).add a1).rnd
    (by norm_num) (by norm_num) (by have := abs_nonneg p; nlinarith)
  refine le_trans a2.err ?_
  have h1 : |s| * |p| ≤ 2 := by nlinarith [abs_nonneg s, abs_nonneg p]
  have u : ulp = 1 / 16777216 := rfl
  rw [u]
  nlinarith [abs_nonneg p]

theorem comp_zero (dz : Num) : compensate dz (.fin 0) = .fin 0 := by simp [compensate, Num.eq]

theorem comp_nan (dz : Num) : compensate dz .nan = .nan := by
  have m : ∀ x : Num, x.mul f32 .nan = .nan := by intro x; cases x <;> rfl
  have a : ∀ x : Num, x.add f32 .nan = .nan := by intro x; cases x <;> rfl
  simp [compensate, Num.eq, Num.lt, m, a]

/-- The outputs are those of the current power. -/
def Driver.Synced (d : Driver) : Prop :=
  ((Num.fin 0).lt d.current = true → d.duty0 = d.current.convert f64 ∧ d.duty1 = .fin 0) ∧
  (d.current.lt (.fin 0) = true → d.duty0 = .fin 0 ∧ d.duty1 = d.current.neg.convert f64) ∧
  ((Num.fin 0).lt d.current = false → d.current.lt (.fin 0) = false → d.duty0 = .fin 0 ∧ d.duty1 = .fin 0)

theorem lt_asymm {a b : Num} (h : a.lt b = true) : b.lt a = false := by
  cases a <;> cases b <;> simp_all [Num.lt]
  exact le_of_lt h

theorem eq_true {a b : Num} (h : a.eq b = true) : a = b := by
  cases a <;> cases b <;> simp_all [Num.eq]

theorem process_synced {d : Driver} (h : d.Synced) (hd : d.dryrun = false) (p : Num) :
    (d.process (some p)).1.Synced ∧ (d.process (some p)).1.current = compensate d.deadzone p ∧
    (d.process (some p)).1.deadzone = d.deadzone ∧ (d.process (some p)).1.dryrun = false ∧
    (d.process (some p)).1.enabled = d.enabled := by
  simp only [Driver.process, hd]
  generalize compensate d.deadzone p = c
  by_cases hc : c.eq d.current = true
  · have := eq_true hc
    subst this
    simp [hc, hd]
    exact h
  · simp only [Bool.not_eq_true] at hc
    simp only [hc, Bool.not_false, if_true, Bool.false_eq_true, if_false]
    by_cases h1 : (Num.fin 0).lt c = true
    · have h2 := lt_asymm h1
      simp [h1, Driver.set, Driver.Synced, h2]
    · simp only [Bool.not_eq_true] at h1
      by_cases h2 : c.lt (.fin 0) = true
      · simp [h1, Driver.set, Driver.Synced, h2]
      · simp only [Bool.not_eq_true] at h2
        simp [h1, Driver.set, Driver.Synced, h2]

theorem run_synced {d : Driver} (h : d.Synced) (hd : d.dryrun = false) (cs : List Num) :
    (d.run (cs.map some)).Synced ∧ (d.run (cs.map some)).deadzone = d.deadzone ∧
    (d.run (cs.map some)).dryrun = false ∧ (d.run (cs.map some)).enabled = d.enabled := by
  induction cs generalizing d with
  | nil => exact ⟨h, rfl, hd, rfl⟩
  | cons c cs ih =>
    obtain ⟨h1, -, h3, h4, h5⟩ := process_synced h hd c
    obtain ⟨h6, h7, h8, h9⟩ := ih h1 h4
    exact ⟨h6, h7.trans h3, h8, h9.trans h5⟩

theorem run_append (d : Driver) (a b : List (Option Num)) : d.run (a ++ b) = (d.run a).run b := by
  induction a generalizing d with
  | nil => rfl
  | cons x a ih => exact ih _

end MotorFp
end Verif
