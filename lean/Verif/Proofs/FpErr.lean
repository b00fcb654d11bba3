import Verif.Proofs.Fp
import Mathlib.Tactic.Linarith
import Mathlib.Tactic.Ring
import Mathlib.Tactic.Positivity
import Mathlib.Tactic.FieldSimp
/-!
Errors of computations in single precision.
-/
namespace Verif
namespace Fp

/-- Half of the last bit of 1. -/
def ulp : ℚ := 1 / 16777216
/-- Half of the smallest number. -/
def tiny : ℚ := pow2 (-150)

theorem ulp_pos : 0 < ulp := by norm_num [ulp]
theorem tiny_pos : 0 < tiny := pow2_pos _
theorem tiny_le {k : Int} (h : -150 ≤ k) : tiny ≤ pow2 k := pow2_le h

theorem rnd_rel (q : ℚ) : |rnd f32 q - q| ≤ |q| * ulp + tiny := by
  have h := rnd_err (F := f32) q
  have e1 : pow2 (f32.emin - 1) = tiny := rfl
  have e2 : pow2 (-(f32.prec : Int)) = ulp := by decide +kernel
  rw [e1, e2] at h
  have a := ulp_pos
  have b := tiny_pos
  have c : 0 ≤ |q| * ulp := mul_nonneg (abs_nonneg _) a.le
  exact le_trans h (max_le (by linarith) (by linarith))

/-- `x` is `y` up to `k` roundings of numbers of magnitude `a`, and up to `t` for underflows. -/
structure Appr (x y a : ℚ) (k : ℚ) (t : ℚ) : Prop where
  mag : |y| ≤ a
  err : |x - y| ≤ a * (k * ulp) + t

namespace Appr
variable {x y z w a b k l s t : ℚ}

theorem exact (x : ℚ) : Appr x x |x| 0 0 := ⟨le_refl _, by simp⟩

theorem bound (h : Appr x y a k t) : |x| ≤ a + (a * (k * ulp) + t) := by
  have := abs_add_le (x - y) y
  rw [sub_add_cancel] at this
  linarith [h.mag, h.err]

theorem nonneg (h : Appr x y a k t) : 0 ≤ a := le_trans (abs_nonneg _) h.mag

theorem weaken (h : Appr x y a k t) (hk : k ≤ l) (ht : t ≤ s) : Appr x y a l s := by
  refine ⟨h.mag, le_trans h.err ?_⟩
  have := h.nonneg
  have u := ulp_pos
  have : a * (k * ulp) ≤ a * (l * ulp) :=
    mul_le_mul_of_nonneg_left (mul_le_mul_of_nonneg_right hk u.le) this
  linarith

theorem rnd (h : Appr x y a k t) (hk0 : 0 ≤ k) (hk : k ≤ 1048576) (ht : 0 ≤ t) :
    Appr (Fp.rnd f32 x) y a (k + 2) (2 * t + tiny) := by
  refine ⟨h.mag, ?_⟩
  have h1 := rnd_rel x
  have h2 := h.bound
  have u := ulp_pos
  have ku : k * ulp ≤ 1 := by
    have : ulp = 1 / 16777216 := rfl
    rw [this]; linarith
  have u1 : ulp ≤ 1 := by norm_num [ulp]
  have ha := h.nonneg
  have h3 : a * (k * ulp) ≤ a := by nlinarith
  have h4 : |x| * ulp ≤ (2 * a + t) * ulp := mul_le_mul_of_nonneg_right (by linarith) u.le
  have h5 : t * ulp ≤ t := by nlinarith
  have h6 := abs_add_le (Fp.rnd f32 x - x) (x - y)
  rw [sub_add_sub_cancel] at h6
  have h7 := h.err
  have h8 : (2 * a + t) * ulp = 2 * (a * ulp) + t * ulp := by ring
  have h9 : a * ((k + 2) * ulp) = a * (k * ulp) + 2 * (a * ulp) := by ring
  rw [h9]
  linarith

theorem add (h : Appr x y a k t) (h' : Appr z w b k s) : Appr (x + z) (y + w) (a + b) k (t + s) := by
  refine ⟨le_trans (abs_add_le _ _) (by linarith [h.mag, h'.mag]), ?_⟩
  have h1 := abs_add_le (x - y) (z - w)
  rw [show x - y + (z - w) = x + z - (y + w) by ring] at h1
  have h2 := h.err
  have h3 := h'.err
  have : (a + b) * (k * ulp) = a * (k * ulp) + b * (k * ulp) := by ring
  linarith

theorem neg (h : Appr x y a k t) : Appr (-x) (-y) a k t := by
  refine ⟨by rw [abs_neg]; exact h.mag, ?_⟩
  rw [show -x - -y = -(x - y) by ring, abs_neg]
  exact h.err

theorem sub (h : Appr x y a k t) (h' : Appr z w b k s) : Appr (x - z) (y - w) (a + b) k (t + s) := by
  simpa [sub_eq_add_neg] using h.add h'.neg

theorem mul (h : Appr x y a k t) (h' : Appr z w b l s) (hk0 : 0 ≤ k) (hk : k ≤ 1048576) (hl0 : 0 ≤ l)
    (hl : l ≤ 1048576) (ht : 0 ≤ t) (hs : 0 ≤ s) :
    Appr (x * z) (y * w) (a * b) (2 * k + l) (t * (2 * b + s) + 2 * a * s) := by
  have ha := h.nonneg
  have hb := h'.nonneg
  have u := ulp_pos
  have conv : ∀ k : ℚ, k ≤ 1048576 → k * ulp ≤ 1 := by
    intro k hk
    have : ulp = 1 / 16777216 := rfl
    rw [this]; linarith
  have ku := conv k hk
  have lu := conv l hl
  refine ⟨by rw [abs_mul]; exact mul_le_mul h.mag h'.mag (abs_nonneg _) ha, ?_⟩
  have h1 : |x * z - y * w| ≤ |x - y| * |z| + |y| * |z - w| := by
    have := abs_add_le ((x - y) * z) (y * (z - w))
    rw [abs_mul, abs_mul] at this
    rwa [show (x - y) * z + y * (z - w) = x * z - y * w by ring] at this
  have hz : |z| ≤ 2 * b + s := by
    have := h'.bound
    have : b * (l * ulp) ≤ b := by nlinarith
    linarith
  have k0 : 0 ≤ k * ulp := mul_nonneg hk0 u.le
  have l0 : 0 ≤ l * ulp := mul_nonneg hl0 u.le
  have h2 : |x - y| * |z| ≤ (a * (k * ulp) + t) * (2 * b + s) :=
    mul_le_mul h.err hz (abs_nonneg _) (by positivity)
  have h3 : |y| * |z - w| ≤ a * (b * (l * ulp) + s) := mul_le_mul h.mag h'.err (abs_nonneg _) ha
  have h4 : a * (k * ulp) * s ≤ a * s := by nlinarith [mul_nonneg ha hs]
  nlinarith

/-- A quotient by a number with a relative error. -/
theorem div (h : Appr x y a k t) (hz : |z - w| ≤ w * (l * ulp)) (hw : 0 < w) (hk0 : 0 ≤ k) (hk : k ≤ 1048576)
    (hl0 : 0 ≤ l) (hl : l ≤ 1048576) :
    Appr (x / z) (y / w) (a / w) (2 * k + 2 * l) (2 * t / w) := by
  have ha := h.nonneg
  have u := ulp_pos
  have lu : l * ulp ≤ 1 / 2 := by
    have : ulp = 1 / 16777216 := rfl
    rw [this]; linarith
  have hz' := abs_le.1 hz
  have l0 : 0 ≤ l * ulp := mul_nonneg hl0 u.le
  have hz2 : w / 2 ≤ z := by nlinarith
  have hz0 : 0 < z := by linarith
  refine ⟨by rw [abs_div, abs_of_pos hw]; exact div_le_div_of_nonneg_right h.mag hw.le, ?_⟩
  have e : x / z - y / w = ((x - y) * w - y * (z - w)) / (z * w) := by field_simp; ring
  have h1 : |(x - y) * w - y * (z - w)| ≤ |x - y| * w + |y| * |z - w| := by
    have := abs_sub ((x - y) * w) (y * (z - w))
    rw [abs_mul, abs_mul, abs_of_pos hw] at this
    exact this
  have h2 : |x - y| * w ≤ (a * (k * ulp) + t) * w := mul_le_mul_of_nonneg_right h.err hw.le
  have h3 : |y| * |z - w| ≤ a * (w * (l * ulp)) := mul_le_mul h.mag hz (abs_nonneg _) ha
  have t0 : 0 ≤ a * (k * ulp) + t := le_trans (abs_nonneg _) h.err
  rw [e, abs_div, abs_of_pos (mul_pos hz0 hw), div_le_iff₀ (mul_pos hz0 hw)]
  have e2 : (a / w * ((2 * k + 2 * l) * ulp) + 2 * t / w) * (z * w) =
      2 * (a * (k * ulp) + t + a * (l * ulp)) * z := by field_simp; ring
  rw [e2]
  have h4 : 0 ≤ a * (k * ulp) + t + a * (l * ulp) := by
    have := mul_nonneg ha l0
    linarith
  nlinarith

end Appr
end Fp
end Verif
