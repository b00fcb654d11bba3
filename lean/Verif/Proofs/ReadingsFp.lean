import Verif.Proofs.PidFp
import Verif.Model.ReadingsFp
import Verif.Spec.ReadingsFp
/-!
Lemmas on conversions of readings.
-/
namespace Verif
namespace ReadingsFp
open Fp

theorem ofInt_exact {n : Int} (h : |n| ≤ 16777216) : ofInt f32 n = .fin n := by
  have hr : Rep f32 (n : ℚ) := rep_int (F := f32) h (by decide)
  have e := rnd_id (F := f32) (by decide) hr
  have hb : |rnd f32 (n : ℚ)| < pow2 f32.emax := by
    rw [e]
    have h1 : |(n : ℚ)| ≤ 16777216 := by exact_mod_cast h
    have h2 : (16777216 : ℚ) < pow2 f32.emax := by decide +kernel
    linarith
  show round f32 (n : ℚ) = _
  rw [round_fin hb, e]

theorem round_large {q : ℚ} (h : |q| ≤ 1000000000000) : round f32 q = .fin (rnd f32 q) := by
  obtain ⟨v, h1, h2, -⟩ := round_bound (q := q) (k := 40) (by decide) (by decide)
    (le_trans h (by decide +kernel))
  rw [h1, h2]

theorem mul_fin {a b : ℚ} (h : |a * b| ≤ 1000000000000) : (Num.fin a).mul f32 (.fin b) = .fin (rnd f32 (a * b)) :=
  round_large h

theorem div_fin {a b : ℚ} (hb : b ≠ 0) (h : |a / b| ≤ 1000000000000) :
    (Num.fin a).div f32 (.fin b) = .fin (rnd f32 (a / b)) := by
  simp only [Num.div, if_neg hb]
  exact round_large h

theorem tiny_small : tiny ≤ 1 / 10 ^ 40 := le_trans (tiny_le (k := -140) (by decide)) (by decide +kernel)

theorem about_of {x y a k t : ℚ} (h : Appr x y a k t) (ha : a = |y|) (hk : k ≤ 14) (ht : t ≤ 1 / 10 ^ 20)
    (hy : 1 / 1000000 ≤ |y|) : IsAbout (.fin x) y := by
  subst ha
  refine ⟨x, rfl, le_trans h.err ?_⟩
  have : k * ulp ≤ 14 / 16777216 := by
    have : ulp = 1 / 16777216 := rfl
    rw [this]; linarith
  have h1 : |y| * (k * ulp) ≤ |y| * (14 / 16777216) := mul_le_mul_of_nonneg_left this (abs_nonneg _)
  linarith

theorem int_abs {n : Int} (h : n ≠ 0) : (1 : ℚ) ≤ |(n : ℚ)| := by
  exact_mod_cast Int.one_le_abs h

/-- `n / d * c`. -/
theorem div_mul_about {n : Int} (hn : |n| ≤ 65536) {d c c' : ℚ} (hd : 1 ≤ d) (hd' : d ≤ 100000) (hc : 1 ≤ c) (hc' : c ≤ 100000)
    (hcc : Appr c' c c 2 tiny) :
    IsAbout (((ofInt f32 n).div f32 (.fin d)).mul f32 (.fin c')) (n / d * c) := by
  have hnq : |(n : ℚ)| ≤ 65536 := by exact_mod_cast hn
  have d0 : 0 < d := by linarith
  rw [ofInt_exact (le_trans hn (by decide))]
  have b1 : |(n : ℚ) / d| ≤ 65536 := by
    rw [abs_div, abs_of_pos d0, div_le_iff₀ d0]; nlinarith
  rw [div_fin (ne_of_gt d0) (by linarith)]
  have tp := tiny_pos
  have ts := tiny_small
  have a1 := ((Appr.exact (n : ℚ)).div (z := d) (w := d) (l := 0) (by simp) d0 (le_refl _) (by norm_num) (le_refl _)
    (by norm_num)).rnd (by norm_num) (by norm_num) (by simp)
  have a2 := a1.mul hcc (by norm_num) (by norm_num) (by norm_num) (by norm_num) (by simp; linarith) tp.le
  have nd : 0 ≤ |(n : ℚ)| / d := div_nonneg (abs_nonneg _) d0.le
  have nd' : |(n : ℚ)| / d ≤ 65536 := by rw [abs_div, abs_of_pos d0] at b1; exact b1
  have s0 : 0 ≤ (2 * (2 * 0 / d) + tiny) * (2 * c + tiny) + 2 * (|(n : ℚ)| / d) * tiny := by
    have : (2 * (2 * 0 / d) + tiny) = tiny := by simp
    rw [this]; positivity
  have s1 : (2 * (2 * 0 / d) + tiny) * (2 * c + tiny) + 2 * (|(n : ℚ)| / d) * tiny ≤ 1 / 10 ^ 30 := by
    have : (2 * (2 * 0 / d) + tiny) = tiny := by simp
    rw [this]
    nlinarith
  have a3 := a2.rnd (by norm_num) (by norm_num) s0
  have bx : |rnd f32 ((n : ℚ) / d)| ≤ 65536 :=
    rnd_abs (F := f32) (by decide) (by simpa using rep_int (F := f32) (n := 65536) (by decide) (by decide)) b1
  have bc : |c'| ≤ 1000000 := by
    have := hcc.bound
    have u : ulp = 1 / 16777216 := rfl
    rw [u] at this
    linarith
  rw [mul_fin (by rw [abs_mul]; nlinarith [abs_nonneg (rnd f32 ((n : ℚ) / d)), abs_nonneg c'])]
  by_cases h0 : n = 0
  · subst h0
    refine ⟨_, rfl, ?_⟩
    simp [rnd]
  · refine about_of a3 ?_ (by norm_num) (by linarith) ?_
    · rw [abs_mul, abs_div, abs_of_pos d0, abs_of_pos (by linarith : 0 < c)]
    · rw [abs_mul, abs_div, abs_of_pos d0, abs_of_pos (by linarith : 0 < c), div_mul_eq_mul_div, le_div_iff₀ d0]
      have := int_abs h0
      nlinarith

/-- `n / d`. -/
theorem div_about {n : Int} (hn : |n| ≤ 65536) {d : ℚ} (hd : 1 ≤ d) (hd' : d ≤ 100000) :
    IsAbout ((ofInt f32 n).div f32 (.fin d)) (n / d) := by
  have hnq : |(n : ℚ)| ≤ 65536 := by exact_mod_cast hn
  have d0 : 0 < d := by linarith
  rw [ofInt_exact (le_trans hn (by decide))]
  have b1 : |(n : ℚ) / d| ≤ 65536 := by
    rw [abs_div, abs_of_pos d0, div_le_iff₀ d0]; nlinarith
  rw [div_fin (ne_of_gt d0) (by linarith)]
  have ts := tiny_small
  have a1 := ((Appr.exact (n : ℚ)).div (z := d) (w := d) (l := 0) (by simp) d0 (le_refl _) (by norm_num) (le_refl _)
    (by norm_num)).rnd (by norm_num) (by norm_num) (by simp)
  by_cases h0 : n = 0
  · subst h0
    exact ⟨_, rfl, by simp [rnd]⟩
  · refine about_of a1 ?_ (by norm_num) (by simp; linarith) ?_
    · rw [abs_div, abs_of_pos d0]
    · rw [abs_div, abs_of_pos d0, le_div_iff₀ d0]
      have := int_abs h0
      linarith

/-- Readings a step apart are not confused. -/
theorem ordered_of {α : Type} {value : α → Int} {f : α → Num} {s : ℚ} (hs : 0 < s) (hv : ∀ a, |value a| ≤ 65536)
    (h : ∀ a, IsAbout (f a) (value a * s)) : Ordered value f := by
  intro a b hab
  obtain ⟨x, hx, hx'⟩ := h a
  obtain ⟨y, hy, hy'⟩ := h b
  have ha : |(value a : ℚ)| ≤ 65536 := by exact_mod_cast hv a
  have hb : |(value b : ℚ)| ≤ 65536 := by exact_mod_cast hv b
  have hab' : (value a : ℚ) + 1 ≤ value b := by exact_mod_cast hab
  rw [abs_mul, abs_of_pos hs] at hx' hy'
  rw [hx, hy]
  simp only [Num.lt, decide_eq_true_eq]
  have h1 := (abs_le.1 hx').2
  have h2 := (abs_le.1 hy').1
  have h3 : |(value a : ℚ)| * s / 1000000 ≤ 65536 * s / 1000000 :=
    div_le_div_of_nonneg_right (mul_le_mul_of_nonneg_right ha hs.le) (by norm_num)
  have h4 : |(value b : ℚ)| * s / 1000000 ≤ 65536 * s / 1000000 :=
    div_le_div_of_nonneg_right (mul_le_mul_of_nonneg_right hb hs.le) (by norm_num)
  nlinarith

theorem i16_abs (n : Int16) : |n.toInt| ≤ 65536 := by
  have h1 := n.toInt_lt
  have h2 := n.le_toInt
  rw [abs_le]
  constructor <;> omega

theorem u16_abs (n : UInt16) : |(n.toNat : Int)| ≤ 65536 := by
  have := n.toNat_lt
  rw [abs_le]
  constructor <;> omega

theorem u8_abs (n : UInt8) : |(n.toNat : Int)| ≤ 65536 := by
  have := n.toNat_lt
  rw [abs_le]
  constructor <;> omega

theorem appr_exact {c : ℚ} (hc : 0 ≤ c) : Appr c c c 2 tiny := by
  have := (Appr.exact c).weaken (l := 2) (s := tiny) (by norm_num) tiny_pos.le
  rwa [abs_of_nonneg hc] at this

theorem lit : round f32 (8333 / 1000) = .fin (rnd f32 (8333 / 1000)) := by decide +kernel

theorem servo_exact (n : Int16) : (ofInt f32 n.toInt).mul f32 (.fin 240) = .fin (240 * n.toInt : Int) := by
  have hn := i16_abs n
  have h1 := n.toInt_lt
  have h2 := n.le_toInt
  have hb : |240 * n.toInt| ≤ 16777216 := by rw [abs_le]; constructor <;> omega
  have := ofInt_exact hb
  rw [ofInt_exact (le_trans hn (by decide))]
  unfold ofInt at this
  simp only [Num.mul]
  rw [← this]
  congr 1
  push_cast
  ring

/-- The position of a servo. -/
theorem servo_appr (n : Int16) : servoAngle n = .fin (rnd f32 (n.toInt * 24 / 100)) ∧
    Appr (rnd f32 (n.toInt * 24 / 100)) (n.toInt * 24 / 100) (|(n.toInt : ℚ)| * 24 / 100) 2 tiny := by
  have hnq : |(n.toInt : ℚ)| ≤ 65536 := by exact_mod_cast i16_abs n
  constructor
  · unfold servoAngle
    rw [servo_exact, div_fin (by norm_num)]
    · congr 2; push_cast; ring
    · push_cast
      rw [abs_div, abs_mul, abs_of_pos (by norm_num : (0 : ℚ) < 240), abs_of_pos (by norm_num : (0 : ℚ) < 1000)]
      linarith
  · have := (Appr.exact ((n.toInt : ℚ) * 24 / 100)).rnd (le_refl _) (by norm_num) (le_refl _)
    rw [abs_div, abs_mul, abs_of_pos (by norm_num : (0 : ℚ) < 24), abs_of_pos (by norm_num : (0 : ℚ) < 100)] at this
    exact this.weaken (by norm_num) (by linarith)

theorem servo_back (n : Int16) : ∃ v : ℚ, ((servoAngle n).mul f32 (.fin 1000)).div f32 (.fin 240) = .fin v ∧
    |v - n.toInt| ≤ |(n.toInt : ℚ)| / 1000000 := by
  have hnq : |(n.toInt : ℚ)| ≤ 65536 := by exact_mod_cast i16_abs n
  obtain ⟨h1, h2⟩ := servo_appr n
  have tp := tiny_pos
  have ts := tiny_small
  have u : ulp = 1 / 16777216 := rfl
  rw [h1]
  have b2 := h2.bound
  have a1 := h2.mul (Appr.exact 1000) (by norm_num) (by norm_num) (le_refl _) (by norm_num) tp.le (le_refl _)
  have b1 := a1.bound
  rw [abs_of_pos (by norm_num : (0 : ℚ) < 1000), u] at b1
  rw [mul_fin (by linarith)]
  have a2 := a1.rnd (by norm_num) (by norm_num) (by rw [abs_of_pos (by norm_num : (0 : ℚ) < 1000)]; nlinarith)
  have a3 := a2.div (z := 240) (w := 240) (l := 0) (by simp) (by norm_num) (by norm_num) (by norm_num) (le_refl _)
    (by norm_num)
  have b3 := a3.bound
  rw [abs_of_pos (by norm_num : (0 : ℚ) < 1000), u] at b3
  rw [div_fin (by norm_num) (by linarith)]
  have a4 := a3.rnd (by norm_num) (by norm_num) (by rw [abs_of_pos (by norm_num : (0 : ℚ) < 1000)]; nlinarith)
  have e : (n.toInt : ℚ) * 24 / 100 * 1000 / 240 = n.toInt := by ring
  rw [e] at a4
  by_cases h0 : n.toInt = 0
  · refine ⟨_, rfl, ?_⟩
    rw [h0]; simp [rnd]
  · have := about_of a4 (by rw [abs_of_pos (by norm_num : (0 : ℚ) < 1000)]; ring) (by norm_num)
      (by rw [abs_of_pos (by norm_num : (0 : ℚ) < 1000)]; linarith) (le_trans (by norm_num) (int_abs h0))
    obtain ⟨v, hv, hv'⟩ := this
    exact ⟨v, hv, hv'⟩

theorem trunc_near {v : ℚ} {n : Int} (h : |v - n| < 1) : |trunc v - n| ≤ 1 := by
  obtain ⟨h1, h2⟩ := abs_lt.1 h
  unfold trunc
  split
  · have f1 : n - 2 < v.floor := by
      have : n - 1 ≤ v.floor := Rat.le_floor_iff.2 (by push_cast; linarith)
      omega
    have f2 : v.floor < n + 1 := Rat.floor_lt_iff.2 (by push_cast; linarith)
    rw [abs_le]
    constructor <;> omega
  · have f1 : -n - 1 ≤ (-v).floor := Rat.le_floor_iff.2 (by push_cast; linarith)
    have f2 : (-v).floor < -n + 1 := Rat.floor_lt_iff.2 (by push_cast; linarith)
    rw [abs_le]
    constructor <;> omega

end ReadingsFp
end Verif
