import Verif.Model.Fp
import Mathlib.Tactic.Linarith
import Mathlib.Tactic.Positivity
import Mathlib.Tactic.Ring
import Mathlib.Tactic.FieldSimp
import Mathlib.Algebra.Order.Field.Power
/-!
Lemmas on rounding: a result is a nearest number of the format, so rounding keeps order and numbers of the
format.
-/
namespace Verif
namespace Fp

theorem pow2_eq (k : Int) : pow2 k = (2 : ℚ) ^ k := by
  cases k with
  | ofNat n => simp [pow2]
  | negSucc n => simp [pow2, zpow_negSucc]

theorem pow2_pos (k : Int) : 0 < pow2 k := by rw [pow2_eq]; positivity

theorem pow2_add (a b : Int) : pow2 (a + b) = pow2 a * pow2 b := by
  simp only [pow2_eq]; exact zpow_add₀ (by norm_num) a b

theorem pow2_le {a b : Int} (h : a ≤ b) : pow2 a ≤ pow2 b := by
  simp only [pow2_eq]; exact zpow_le_zpow_right₀ (by norm_num) h

theorem pow2_lt {a b : Int} (h : a < b) : pow2 a < pow2 b := by
  simp only [pow2_eq]; exact zpow_lt_zpow_right₀ (by norm_num) h

theorem pow2_nat (n : Nat) : pow2 n = ((2 ^ n : Nat) : ℚ) := rfl

theorem pow2_succ (a : Int) : pow2 (a + 1) = 2 * pow2 a := by
  rw [pow2_add, mul_comm]; rfl

/-- The bits of a number. -/
theorem log2_spec {q : ℚ} (hq : q ≠ 0) : pow2 (log2 q) ≤ |q| ∧ |q| < pow2 (log2 q + 1) := by
  have hn : q.num.natAbs ≠ 0 := by
    rw [Int.natAbs_ne_zero]; exact Rat.num_ne_zero.2 hq
  have hd : q.den ≠ 0 := q.den_nz
  have hq' : |q| = (q.num.natAbs : ℚ) / (q.den : ℚ) := by
    conv => lhs; rw [← Rat.num_div_den q]
    rw [abs_div, Nat.abs_cast, Nat.cast_natAbs, Int.cast_abs]
  have n1 : ((2 ^ q.num.natAbs.log2 : Nat) : ℚ) ≤ (q.num.natAbs : ℚ) := by exact_mod_cast Nat.log2_self_le hn
  have n2 : (q.num.natAbs : ℚ) < ((2 ^ (q.num.natAbs.log2 + 1) : Nat) : ℚ) := by exact_mod_cast Nat.lt_log2_self
  have d1 : ((2 ^ q.den.log2 : Nat) : ℚ) ≤ (q.den : ℚ) := by exact_mod_cast Nat.log2_self_le hd
  have d2 : (q.den : ℚ) < ((2 ^ (q.den.log2 + 1) : Nat) : ℚ) := by exact_mod_cast Nat.lt_log2_self
  have hdp : (0 : ℚ) < q.den := by exact_mod_cast Nat.pos_of_ne_zero hd
  rw [← pow2_nat] at n1 n2 d1 d2
  push_cast at n2 d2
  -- with k the difference of the logarithms, 2^(k-1) < |q| < 2^(k+1)
  have up : |q| < pow2 ((q.num.natAbs.log2 : Int) - (q.den.log2 : Int) + 1) := by
    rw [hq', div_lt_iff₀ hdp]
    calc (q.num.natAbs : ℚ) < pow2 ((q.num.natAbs.log2 : Int) + 1) := n2
      _ = pow2 ((q.num.natAbs.log2 : Int) - (q.den.log2 : Int) + 1) * pow2 (q.den.log2 : Int) := by
          rw [← pow2_add]; congr 1; omega
      _ ≤ _ := mul_le_mul_of_nonneg_left d1 (pow2_pos _).le
  have low : pow2 ((q.num.natAbs.log2 : Int) - (q.den.log2 : Int) - 1) ≤ |q| := by
    rw [hq', le_div_iff₀ hdp]
    calc pow2 ((q.num.natAbs.log2 : Int) - (q.den.log2 : Int) - 1) * (q.den : ℚ)
        ≤ pow2 ((q.num.natAbs.log2 : Int) - (q.den.log2 : Int) - 1) * pow2 ((q.den.log2 : Int) + 1) :=
          mul_le_mul_of_nonneg_left d2.le (pow2_pos _).le
      _ = pow2 (q.num.natAbs.log2 : Int) := by rw [← pow2_add]; congr 1; omega
      _ ≤ _ := n1
  unfold log2
  simp only
  split
  · rename_i h
    exact ⟨h, up⟩
  · rename_i h
    refine ⟨low, ?_⟩
    rw [sub_add_cancel]
    exact not_le.1 h

/-- The numbers of a format, if there were no greatest one. -/
def Rep (F : Format) (v : ℚ) : Prop := ∃ (m e : Int), v = (m : ℚ) * pow2 e ∧ |m| ≤ 2 ^ F.prec ∧ F.emin ≤ e

theorem nearest_spec (x : ℚ) : |(nearest x : ℚ) - x| ≤ 1 / 2 := by
  have h1 : ((x.floor : Int) : ℚ) ≤ x := Rat.le_floor_iff.1 (le_refl _)
  have h2 : x < ((x.floor : Int) : ℚ) + 1 := by
    have := Rat.floor_lt_iff.1 (Int.lt_succ x.floor)
    push_cast at this
    exact this
  unfold nearest
  rw [abs_le]
  split
  · constructor <;> linarith
  · split
    · push_cast; constructor <;> linarith
    · have : x - (x.floor : ℚ) = 1 / 2 := by
        rename_i h3 h4
        exact le_antisymm (not_lt.1 h4) (not_lt.1 h3)
      split
      · constructor <;> linarith
      · push_cast; constructor <;> linarith

theorem nearest_best (x : ℚ) (n : Int) : |(nearest x : ℚ) - x| ≤ |(n : ℚ) - x| := by
  have h := nearest_spec x
  by_cases hn : n = nearest x
  · rw [hn]
  · have h1 : (1 : ℚ) ≤ |(n : ℚ) - (nearest x : ℚ)| := by
      rw [← Int.cast_sub, ← Int.cast_abs]
      exact_mod_cast Int.one_le_abs (sub_ne_zero.2 hn)
    have h2 : |(n : ℚ) - (nearest x : ℚ)| ≤ |(n : ℚ) - x| + |(nearest x : ℚ) - x| := by
      rw [abs_sub_comm (nearest x : ℚ) x]
      exact abs_sub_le _ _ _
    linarith

theorem exponent_spec {F : Format} {q : ℚ} (hq : q ≠ 0) :
    F.emin ≤ exponent F q ∧ |q| < pow2 (exponent F q + F.prec) ∧
    (F.emin < exponent F q → pow2 (exponent F q + F.prec - 1) ≤ |q|) := by
  obtain ⟨h1, h2⟩ := log2_spec hq
  unfold exponent
  refine ⟨le_max_left _ _, lt_of_lt_of_le h2 (pow2_le ?_), fun h => le_trans (pow2_le ?_) h1⟩
  · have := le_max_right F.emin (log2 q - F.prec + 1); omega
  · have : max F.emin (log2 q - F.prec + 1) = log2 q - F.prec + 1 := by omega
    omega

theorem nearestTo_rep {F : Format} {q : ℚ} (hq : q ≠ 0) : Rep F (nearestTo F q) := by
  obtain ⟨h1, h2, -⟩ := exponent_spec (F := F) hq
  refine ⟨_, _, rfl, ?_, h1⟩
  have hp := pow2_pos (exponent F q)
  have hx : |q / pow2 (exponent F q)| < ((2 ^ F.prec : Nat) : ℚ) := by
    rw [abs_div, abs_of_pos hp, div_lt_iff₀ hp, ← pow2_nat, ← pow2_add, add_comm (F.prec : Int)]
    exact h2
  have hr := nearest_spec (q / pow2 (exponent F q))
  generalize q / pow2 (exponent F q) = x at hx hr
  have : |(nearest x : ℚ)| < ((2 ^ F.prec : Nat) : ℚ) + 1 := by
    have := abs_sub_abs_le_abs_sub (nearest x : ℚ) x
    linarith
  rw [← Int.cast_abs] at this
  have : |nearest x| < (2 ^ F.prec : Int) + 1 := by exact_mod_cast this
  omega

/-- No number of the format is nearer. -/
theorem nearestTo_best {F : Format} (hF : 0 < F.prec) {q : ℚ} (hq : q ≠ 0) {v : ℚ} (hv : Rep F v) :
    |nearestTo F q - q| ≤ |v - q| := by
  obtain ⟨h1, h2, h3⟩ := exponent_spec (F := F) hq
  have hp := pow2_pos (exponent F q)
  -- for the multiples of the last bit
  have mult : ∀ n : Int, |nearestTo F q - q| ≤ |(n : ℚ) * pow2 (exponent F q) - q| := by
    intro n
    have hb := nearest_best (q / pow2 (exponent F q)) n
    have key : ∀ z : ℚ, z * pow2 (exponent F q) - q = (z - q / pow2 (exponent F q)) * pow2 (exponent F q) := by
      intro z; field_simp
    unfold nearestTo
    rw [key, key, abs_mul, abs_mul]
    exact mul_le_mul_of_nonneg_right hb (abs_nonneg _)
  obtain ⟨m, e, rfl, hm, he⟩ := hv
  by_cases hle : exponent F q ≤ e
  · obtain ⟨j, rfl⟩ := Int.le.dest hle
    have := mult (m * 2 ^ j)
    have e2 : (m : ℚ) * pow2 (exponent F q + j) = ((m * 2 ^ j : Int) : ℚ) * pow2 (exponent F q) := by
      rw [add_comm, pow2_add, pow2_nat]; push_cast; ring
    rw [e2]; exact this
  · -- a number with smaller bits is further away than a power of two
    have hlt : e < exponent F q := not_le.1 hle
    have hbig := h3 (lt_of_le_of_lt he hlt)
    have hmq : |(m : ℚ)| ≤ ((2 ^ F.prec : Nat) : ℚ) := by rw [← Int.cast_abs]; exact_mod_cast hm
    have hv : |(m : ℚ) * pow2 e| ≤ pow2 (exponent F q + F.prec - 1) := by
      rw [abs_mul, abs_of_pos (pow2_pos e)]
      calc |(m : ℚ)| * pow2 e ≤ ((2 ^ F.prec : Nat) : ℚ) * pow2 e := mul_le_mul_of_nonneg_right hmq (pow2_pos e).le
        _ = pow2 (F.prec + e) := by rw [← pow2_nat, ← pow2_add]
        _ ≤ _ := pow2_le (by omega)
    have hB : pow2 (exponent F q + F.prec - 1) = ((2 ^ (F.prec - 1) : Int) : ℚ) * pow2 (exponent F q) := by
      have : exponent F q + F.prec - 1 = ((F.prec - 1 : Nat) : Int) + exponent F q := by omega
      rw [this, pow2_add, pow2_nat]; push_cast; rfl
    have hv2 := abs_le.1 hv
    rcases le_or_gt 0 q with hs | hs
    · rw [abs_of_nonneg hs] at hbig
      refine le_trans (mult (2 ^ (F.prec - 1))) ?_
      rw [← hB, abs_sub_comm, abs_sub_comm _ q, abs_of_nonneg (by linarith), abs_of_nonneg (by linarith)]
      linarith
    · rw [abs_of_neg hs] at hbig
      refine le_trans (mult (-2 ^ (F.prec - 1))) ?_
      rw [Int.cast_neg, neg_mul, ← hB, abs_of_nonneg (by linarith), abs_of_nonneg (by linarith)]
      linarith

theorem rep_zero (F : Format) : Rep F 0 := ⟨0, F.emin, by simp, by positivity, le_refl _⟩

theorem rep_neg {F : Format} {v : ℚ} (h : Rep F v) : Rep F (-v) := by
  obtain ⟨m, e, rfl, hm, he⟩ := h
  exact ⟨-m, e, by push_cast; ring, by rw [abs_neg]; exact hm, he⟩

theorem rep_pow2 {F : Format} {k : Int} (h : F.emin ≤ k) : Rep F (pow2 k) :=
  ⟨1, k, by simp, by simpa using one_le_pow₀ (M₀ := ℤ) (by norm_num), h⟩

theorem rep_int {F : Format} {n : Int} (hn : |n| ≤ 2 ^ F.prec) (h0 : F.emin ≤ 0) : Rep F n :=
  ⟨n, 0, by simp [pow2], hn, h0⟩

/-- Rounding with unlimited exponents. -/
def rnd (F : Format) (q : ℚ) : ℚ := if q = 0 then 0 else nearestTo F q

theorem rnd_rep (F : Format) (q : ℚ) : Rep F (rnd F q) := by
  unfold rnd; split
  · exact rep_zero F
  · rename_i h; exact nearestTo_rep h

theorem rnd_best {F : Format} (hF : 0 < F.prec) (q : ℚ) {v : ℚ} (hv : Rep F v) : |rnd F q - q| ≤ |v - q| := by
  unfold rnd; split
  · rename_i h; subst h; simp
  · rename_i h; exact nearestTo_best hF h hv

/-- Numbers of the format are not changed. -/
theorem rnd_id {F : Format} (hF : 0 < F.prec) {v : ℚ} (hv : Rep F v) : rnd F v = v := by
  have := rnd_best hF v hv
  rw [sub_self, abs_zero] at this
  exact sub_eq_zero.1 (abs_eq_zero.1 (le_antisymm this (abs_nonneg _)))

/-- Rounding keeps order. -/
theorem rnd_mono {F : Format} (hF : 0 < F.prec) {a b : ℚ} (h : a ≤ b) : rnd F a ≤ rnd F b := by
  rcases eq_or_lt_of_le h with rfl | hlt
  · exact le_refl _
  · by_contra hc
    have hc := not_le.1 hc
    have h1 := rnd_best hF a (rnd_rep F b)
    have h2 := rnd_best hF b (rnd_rep F a)
    have h1' := sq_le_sq.2 h1
    have h2' := sq_le_sq.2 h2
    nlinarith

theorem rnd_le {F : Format} (hF : 0 < F.prec) {q v : ℚ} (hv : Rep F v) (h : q ≤ v) : rnd F q ≤ v := by
  rw [← rnd_id hF hv]; exact rnd_mono hF h

theorem le_rnd {F : Format} (hF : 0 < F.prec) {q v : ℚ} (hv : Rep F v) (h : v ≤ q) : v ≤ rnd F q := by
  rw [← rnd_id hF hv]; exact rnd_mono hF h

theorem rnd_abs {F : Format} (hF : 0 < F.prec) {q v : ℚ} (hv : Rep F v) (h : |q| ≤ v) : |rnd F q| ≤ v := by
  rw [abs_le] at h ⊢
  exact ⟨le_rnd hF (rep_neg hv) h.1, rnd_le hF hv h.2⟩

/-- The error of a rounding: half of the last bit. -/
theorem rnd_err {F : Format} (q : ℚ) : |rnd F q - q| ≤ max (pow2 (F.emin - 1)) (|q| * pow2 (-F.prec)) := by
  unfold rnd; split
  · rename_i h; subst h; simp [(pow2_pos (F.emin - 1)).le]
  · rename_i hq
    obtain ⟨h1, h2, h3⟩ := exponent_spec (F := F) hq
    have hp := pow2_pos (exponent F q)
    have hs := nearest_spec (q / pow2 (exponent F q))
    have key : nearestTo F q - q = ((nearest (q / pow2 (exponent F q)) : ℚ) - q / pow2 (exponent F q)) * pow2 (exponent F q) := by
      unfold nearestTo; field_simp
    have hle : |nearestTo F q - q| ≤ pow2 (exponent F q - 1) := by
      rw [key, abs_mul, abs_of_pos hp]
      have : pow2 (exponent F q) = 2 * pow2 (exponent F q - 1) := by rw [← pow2_succ]; congr 1; omega
      nlinarith [pow2_pos (exponent F q - 1)]
    rcases eq_or_lt_of_le h1 with he | he
    · rw [← he] at hle
      exact le_trans hle (le_max_left _ _)
    · refine le_trans hle (le_trans ?_ (le_max_right _ _))
      have := h3 he
      calc pow2 (exponent F q - 1) = pow2 (exponent F q + F.prec - 1) * pow2 (-F.prec) := by
            rw [← pow2_add]; congr 1; omega
        _ ≤ _ := mul_le_mul_of_nonneg_right this (pow2_pos _).le

theorem round_eq (F : Format) (q : ℚ) : round F q =
    if pow2 F.emax ≤ rnd F q then .inf false else if rnd F q ≤ -pow2 F.emax then .inf true else .fin (rnd F q) := by
  have hp := pow2_pos F.emax
  unfold round rnd
  split
  · rw [if_neg (not_le.2 hp), if_neg (not_le.2 (by linarith))]
  · rfl

/-- A result that is small enough is a number. -/
theorem round_fin {F : Format} {q : ℚ} (h : |rnd F q| < pow2 F.emax) :
    round F q = .fin (rnd F q) := by
  rw [abs_lt] at h
  rw [round_eq F, if_neg (not_le.2 h.2), if_neg (not_le.2 h.1)]

end Fp
end Verif
