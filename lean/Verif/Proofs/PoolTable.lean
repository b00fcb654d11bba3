import Verif.Model.PoolTable
import Verif.Spec.PoolTable
import Verif.Proofs.ShowTime
/-! Lemmas on the table of memory pools. -/
namespace Verif
namespace ConsoleMon
open Fp ShowTime

theorem lastDigits_spec (k n : Nat) : (lastDigits k n).length = k ∧ (∀ c ∈ lastDigits k n, c.isDigit = true) ∧
    ∀ a, Nat.ofDigitChars 10 (lastDigits k n) a = a * 10 ^ k + n % 10 ^ k := by
  induction k generalizing n with
  | zero => exact ⟨rfl, by simp [lastDigits], fun a => by simp [lastDigits, Nat.mod_one]⟩
  | succ k ih =>
    obtain ⟨h1, h2, h3⟩ := ih (n / 10)
    refine ⟨by simp [lastDigits, h1], ?_, fun a => ?_⟩
    · intro c hc
      rw [lastDigits, List.mem_append, List.mem_singleton] at hc
      rcases hc with hc | rfl
      · exact h2 c hc
      · exact digit_isDigit (Nat.mod_lt _ (by decide))
    · rw [lastDigits, Nat.ofDigitChars_append, h3,
        Nat.ofDigitChars_cons_digitChar_of_lt_ten (Nat.mod_lt _ (by decide)), Nat.ofDigitChars_nil]
      have h4 : n % 10 ^ (k + 1) = 10 * (n / 10 % 10 ^ k) + n % 10 := by
        rw [Nat.pow_succ, Nat.mul_comm (10 ^ k) 10, Nat.mod_mul]
        omega
      rw [h4, Nat.pow_succ]
      ring

theorem decimal_fixed (k : Nat) {q : ℚ} (h0 : 0 ≤ q) :
    ∃ v, decimal (fixed k (.fin q)) = some v ∧ |v - q| ≤ 1 / (2 * 10 ^ k) := by
  obtain ⟨m, hm⟩ : ∃ m, (nearest (q * 10 ^ k)).toNat = m := ⟨_, rfl⟩
  have hp : (0 : ℚ) < 10 ^ k := by positivity
  have hn : (0 : Int) ≤ nearest (q * 10 ^ k) := by
    have := nearest_mono (a := ((0 : Int) : ℚ)) (b := q * 10 ^ k) (by push_cast; positivity)
    rwa [nearest_int] at this
  have hs := nearest_spec (q * 10 ^ k)
  have hc : (nearest (q * 10 ^ k) : ℚ) = (m : ℚ) := by
    have : nearest (q * 10 ^ k) = (m : Int) := by omega
    rw [this]; push_cast; rfl
  rw [hc] at hs
  obtain ⟨l1, l2, l3⟩ := lastDigits_spec k m
  obtain ⟨t1, t2⟩ := takeWhile_digits (m / 10 ^ k) (c := '.') (by decide) (lastDigits k m)
  refine ⟨(m : ℚ) / 10 ^ k, ?_, ?_⟩
  · simp only [fixed, hm, decimal, t1, t2, l3, l1, Nat.ofDigitChars_ten_toDigits]
    rw [if_pos (by simpa using l2)]
    congr 1
    have := Nat.div_add_mod m (10 ^ k)
    have : (m : ℚ) = 10 ^ k * (m / 10 ^ k : Nat) + (m % 10 ^ k : Nat) := by
      exact_mod_cast this.symm
    rw [Nat.zero_mul, Nat.zero_add]
    conv => rhs; rw [this]
    field_simp
  · have : (m : ℚ) / 10 ^ k - q = ((m : ℚ) - q * 10 ^ k) / 10 ^ k := by field_simp
    rw [this, abs_div, abs_of_pos hp, div_le_iff₀ hp]
    have e : 1 / (2 * 10 ^ k) * (10 : ℚ) ^ k = 1 / 2 := by field_simp
    rw [e]
    exact hs

theorem fin_exact {q : ℚ} (hr : Rep f64 q) (h : |q| ≤ 9007199254740992) : round f64 q = .fin q := by
  have e := rnd_id (F := f64) (by decide) hr
  have : round f64 q = .fin (rnd f64 q) := round_fin (by
    rw [e]
    refine lt_of_le_of_lt h ?_
    have : (9007199254740992 : ℚ) = pow2 53 := by decide +kernel
    rw [this]
    exact pow2_lt (by decide))
  rwa [e] at this

theorem rep_nat {n : Nat} (h : n ≤ 9007199254740992) : Rep f64 (n : ℚ) := by
  have := rep_int (F := f64) (n := (n : Int)) (by
    rw [abs_of_nonneg (by positivity)]
    show (n : Int) ≤ 2 ^ 53
    omega) (by decide)
  exact_mod_cast this

theorem nat_abs {n : Nat} (h : n ≤ 9007199254740992) : |(n : ℚ)| ≤ 9007199254740992 := by
  rw [abs_of_nonneg (by positivity)]
  exact_mod_cast h

theorem ofNat_exact {n : Nat} (h : n ≤ 9007199254740992) : ofInt f64 n = .fin (n : ℚ) := by
  have := fin_exact (rep_nat h) (nat_abs h)
  unfold ofInt
  exact_mod_cast this

theorem megabytes_exact {n b : Nat} (hn : n ≤ 9007199254740992) (hb : b ≤ 9007199254740992)
    (h : n * b ≤ 9007199254740992) : megabytes n b = .fin ((n : ℚ) * b / 1048576) := by
  unfold megabytes
  rw [ofNat_exact hn, ofNat_exact hb]
  have e1 : round f64 ((n : ℚ) * b) = .fin ((n : ℚ) * b) := by
    have h1 := fin_exact (rep_nat h) (nat_abs h)
    push_cast at h1
    exact h1
  simp only [Num.mul, e1, Num.div]
  have em : (1024 * 1024 : ℚ) = 1048576 := by norm_num
  rw [em, if_neg (by norm_num)]
  apply fin_exact
  · refine ⟨(n * b : Nat), -20, ?_, ?_, by decide⟩
    · have : pow2 (-20) = 1 / 1048576 := by decide +kernel
      rw [this]
      push_cast
      ring
    · rw [abs_of_nonneg (by positivity)]
      show ((n * b : Nat) : Int) ≤ 2 ^ 53
      omega
  · have h1 := nat_abs h
    push_cast at h1
    rw [abs_div]
    have : |(1048576 : ℚ)| = 1048576 := by norm_num
    rw [this, div_le_iff₀ (by norm_num)]
    linarith

theorem percent_near {u t : Nat} (ht : 100 * t ≤ 9007199254740992) (hut : u ≤ t) (h0 : 0 < t) :
    ∃ q : ℚ, percent u t = .fin q ∧ 0 ≤ q ∧ |q - 100 * u / t| ≤ 1 / 1000 := by
  unfold percent
  rw [if_pos h0, ofNat_exact (by omega), ofNat_exact (by omega)]
  have e1 : round f64 ((100 : ℚ) * u) = .fin (100 * u) := by
    have h1 := fin_exact (rep_nat (n := 100 * u) (by omega)) (nat_abs (by omega))
    push_cast at h1
    exact h1
  have t0 : (0 : ℚ) < t := by exact_mod_cast h0
  have hq0 : (0 : ℚ) ≤ 100 * u / t := by positivity
  have hq1 : (100 : ℚ) * u / t ≤ 100 := by
    rw [div_le_iff₀ t0]
    have : (u : ℚ) ≤ t := by exact_mod_cast hut
    linarith
  simp only [Num.mul, e1, Num.div]
  rw [if_neg (ne_of_gt t0)]
  refine ⟨_, f64_fin hq0 (by linarith), rnd_nonneg hq0, ?_⟩
  refine le_trans (rnd_err (F := f64) _) (max_le ?_ ?_)
  · have : pow2 (f64.emin - 1) ≤ pow2 (-60) := pow2_le (by decide)
    exact le_trans this (by decide +kernel)
  · have e2 : pow2 (-(f64.prec : Int)) ≤ 1 / 1000000000000000 := by decide +kernel
    rw [abs_of_nonneg hq0]
    have e3 := pow2_pos (-(f64.prec : Int))
    nlinarith

end ConsoleMon
end Verif
