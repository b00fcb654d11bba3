import Verif.Proofs.Fp
import Verif.Model.ShowTime
import Verif.Spec.ShowTime
import Mathlib.Tactic.Linarith
import Mathlib.Tactic.Ring
import Mathlib.Tactic.FieldSimp
import Mathlib.Tactic.Positivity
/-!
Lemmas on the text of durations.
-/
namespace Verif
namespace Fp

theorem nearest_mono {a b : ℚ} (h : a ≤ b) : nearest a ≤ nearest b := by
  have ha := nearest_best a (nearest b)
  have hb := nearest_best b (nearest a)
  by_contra hc
  have hc : (nearest b : ℚ) < nearest a := by exact_mod_cast not_le.1 hc
  rcases eq_or_lt_of_le h with rfl | hlt
  · exact lt_irrefl _ hc
  · rcases abs_cases ((nearest a : ℚ) - a) with ⟨e1, s1⟩ | ⟨e1, s1⟩ <;>
    rcases abs_cases ((nearest b : ℚ) - a) with ⟨e2, s2⟩ | ⟨e2, s2⟩ <;>
    rcases abs_cases ((nearest a : ℚ) - b) with ⟨e3, s3⟩ | ⟨e3, s3⟩ <;>
    rcases abs_cases ((nearest b : ℚ) - b) with ⟨e4, s4⟩ | ⟨e4, s4⟩ <;>
    linarith

theorem nearest_int (n : Int) : nearest (n : ℚ) = n := by
  have := nearest_best (n : ℚ) n
  rw [sub_self, abs_zero] at this
  have := sub_eq_zero.1 (abs_eq_zero.1 (le_antisymm this (abs_nonneg _)))
  exact_mod_cast this

end Fp

namespace ShowTime
open Fp Clock

theorem f64_rel {q : ℚ} (h : 1 / 2 ≤ q) : |rnd f64 q - q| ≤ q / 1000000000000000 := by
  have h1 := rnd_err (F := f64) q
  have e1 : pow2 (f64.emin - 1) ≤ 1 / 2000000000000000 := by
    have : pow2 (f64.emin - 1) ≤ pow2 (-60) := pow2_le (by decide)
    exact le_trans this (by decide +kernel)
  have e2 : pow2 (-(f64.prec : Int)) ≤ 1 / 1000000000000000 := by decide +kernel
  have q0 : (0 : ℚ) ≤ q := by linarith
  rw [abs_of_nonneg q0] at h1
  refine le_trans h1 (max_le ?_ ?_)
  · linarith
  · have := mul_le_mul_of_nonneg_left e2 q0
    linarith

theorem f64_fin {q : ℚ} (h0 : 0 ≤ q) (h : q ≤ 18446744073709551616) : round f64 q = .fin (rnd f64 q) := by
  have e : (18446744073709551616 : ℚ) = pow2 64 := by decide +kernel
  have hr : Rep f64 (18446744073709551616 : ℚ) := e ▸ rep_pow2 (by decide)
  have := rnd_abs (F := f64) (by decide) hr (by rw [abs_of_nonneg h0]; exact h)
  refine round_fin (lt_of_le_of_lt this ?_)
  rw [e]
  exact pow2_lt (by decide)

/-- The number shown, in thousandths. -/
def thousandths (n : Nat) (d : ℚ) : Nat := (nearest (rnd f64 (rnd f64 n / d) * 1000)).toNat

theorem rnd_nonneg {q : ℚ} (h : 0 ≤ q) : 0 ≤ rnd f64 q := le_rnd (by decide) (rep_zero _) h

theorem rnd_n {n : Nat} (h : n < 2 ^ 64) : rnd f64 n ≤ 18446744073709551616 := by
  have e : (18446744073709551616 : ℚ) = pow2 64 := by decide +kernel
  have hr : Rep f64 (18446744073709551616 : ℚ) := e ▸ rep_pow2 (by decide)
  have : (n : ℚ) ≤ 18446744073709551616 := by exact_mod_cast h.le
  exact rnd_le (by decide) hr this

theorem divided {n : Nat} (hn : n < 2 ^ 64) {d : ℚ} (hd : 1 ≤ d) :
    (ofInt f64 n).div f64 (.fin d) = .fin (rnd f64 (rnd f64 n / d)) := by
  have hnq : (n : ℚ) ≤ 18446744073709551616 := by exact_mod_cast hn.le
  have n0 : (0 : ℚ) ≤ n := by positivity
  have e : ofInt f64 n = .fin (rnd f64 n) := f64_fin (q := ((n : Int) : ℚ)) (by push_cast; exact n0) (by push_cast; exact hnq)
  have d0 : (0 : ℚ) < d := by linarith
  rw [e]
  simp only [Num.div, if_neg (ne_of_gt d0)]
  have r0 := rnd_nonneg n0
  have r1 := rnd_n hn
  exact f64_fin (div_nonneg r0 d0.le) (by rw [div_le_iff₀ d0]; nlinarith)

theorem showDiv_eq {n : Nat} (hn : n < 2 ^ 64) {d : ℚ} (hd : 1 ≤ d) (u : List Char) :
    showDiv n d u = Nat.toDigits 10 (thousandths n d / 1000) ++ '.' :: (pad3 (thousandths n d % 1000) ++ ' ' :: u) := by
  unfold showDiv
  rw [divided hn hd]
  simp [fixed3, thousandths]

theorem takeWhile_digits (n : Nat) {c : Char} (hc : c.isDigit = false) (r : List Char) :
    (Nat.toDigits 10 n ++ c :: r).takeWhile Char.isDigit = Nat.toDigits 10 n ∧
    (Nat.toDigits 10 n ++ c :: r).dropWhile Char.isDigit = c :: r := by
  have h : ∀ x ∈ Nat.toDigits 10 n, Char.isDigit x = true := fun x hx =>
    Nat.isDigit_of_mem_toDigits (by decide) (by decide) hx
  constructor
  · rw [List.takeWhile_append_of_pos h, List.takeWhile_cons, hc]; simp
  · rw [List.dropWhile_append_of_pos h, List.dropWhile_cons, hc]; simp

theorem digit_isDigit {n : Nat} (h : n < 10) : (Nat.digitChar n).isDigit = true := by
  have : ∀ n : Fin 10, (Nat.digitChar n.val).isDigit = true := by decide
  exact this ⟨n, h⟩

theorem pad3_spec {n : Nat} (h : n < 1000) {c : Char} (hc : c.isDigit = false) (r : List Char) :
    (pad3 n ++ c :: r).takeWhile Char.isDigit = pad3 n ∧ (pad3 n ++ c :: r).dropWhile Char.isDigit = c :: r ∧
    Nat.ofDigitChars 10 (pad3 n) 0 = n ∧ (pad3 n).length = 3 := by
  have h1 := digit_isDigit (n := n / 100 % 10) (Nat.mod_lt _ (by decide))
  have h2 := digit_isDigit (n := n / 10 % 10) (Nat.mod_lt _ (by decide))
  have h3 := digit_isDigit (n := n % 10) (Nat.mod_lt _ (by decide))
  refine ⟨by simp [pad3, h1, h2, h3, hc], by simp [pad3, h1, h2, h3, hc], ?_, rfl⟩
  unfold pad3
  rw [Nat.ofDigitChars_cons_digitChar_of_lt_ten (Nat.mod_lt _ (by decide)),
    Nat.ofDigitChars_cons_digitChar_of_lt_ten (Nat.mod_lt _ (by decide)),
    Nat.ofDigitChars_cons_digitChar_of_lt_ten (Nat.mod_lt _ (by decide)), Nat.ofDigitChars_nil]
  omega

theorem read_showDiv {n : Nat} (hn : n < 2 ^ 64) {d ns : ℚ} (hd : 1 ≤ d) {u : List Char} (hu : readUnit u = some ns) :
    readTime (showDiv n d u) = some (thousandths n d / 1000 * ns) := by
  rw [showDiv_eq hn hd]
  obtain ⟨h1, h2⟩ := takeWhile_digits (thousandths n d / 1000) (c := '.') (by decide)
    (pad3 (thousandths n d % 1000) ++ ' ' :: u)
  obtain ⟨h3, h4, h5, h6⟩ := pad3_spec (n := thousandths n d % 1000) (Nat.mod_lt _ (by decide)) (c := ' ') (by decide) u
  unfold readTime
  simp only [h1, h2, h3, h4, h5, h6, hu, Option.map_some, Nat.ofDigitChars_ten_toDigits]
  congr 2
  have := Nat.div_add_mod (thousandths n d) 1000
  have : (thousandths n d : ℚ) = 1000 * (thousandths n d / 1000 : Nat) + (thousandths n d % 1000 : Nat) := by
    exact_mod_cast this.symm
  rw [this]
  field_simp
  norm_num
  ring

theorem read_ns (n : Nat) : readTime (Nat.toDigits 10 n ++ ' ' :: ['n', 's']) = some (n : ℚ) := by
  obtain ⟨h1, h2⟩ := takeWhile_digits n (c := ' ') (by decide) ['n', 's']
  unfold readTime
  simp only [h1, h2, Nat.ofDigitChars_ten_toDigits]
  simp [readUnit]

/-- How far the number shown is off. -/
theorem thousandths_near {n : Nat} {d : ℚ} (hd : 1 ≤ d) (hdn : d ≤ n) (hnd : (n : ℚ) ≤ 300000 * d) :
    |(thousandths n d : ℚ) / 1000 * d - n| ≤ n * (501 / 1000000) := by
  have d0 : (0 : ℚ) < d := by linarith
  have n1 : (1 : ℚ) ≤ n := by linarith
  have r0 : (0 : ℚ) ≤ rnd f64 n := rnd_nonneg (by linarith)
  have e1 := abs_le.1 (f64_rel (q := (n : ℚ)) (by linarith))
  have x1 : 1 / 2 ≤ rnd f64 n / d := by rw [le_div_iff₀ d0]; linarith [e1.1]
  have e2 := abs_le.1 (f64_rel x1)
  have e3 := abs_le.1 (nearest_spec (rnd f64 (rnd f64 n / d) * 1000))
  have k0 : 0 ≤ nearest (rnd f64 (rnd f64 n / d) * 1000) := by
    have : nearest ((0 : Int) : ℚ) ≤ nearest (rnd f64 (rnd f64 n / d) * 1000) := by
      apply nearest_mono
      have := rnd_nonneg (q := rnd f64 n / d) (by linarith)
      push_cast
      linarith
    rwa [nearest_int] at this
  have ek : (thousandths n d : ℚ) = (nearest (rnd f64 (rnd f64 n / d) * 1000) : ℚ) := by
    unfold thousandths
    have := Int.toNat_of_nonneg k0
    exact_mod_cast this
  rw [ek]
  generalize (nearest (rnd f64 (rnd f64 n / d) * 1000) : ℚ) = k at *
  generalize hy : rnd f64 (rnd f64 n / d) = y at *
  generalize rnd f64 (n : ℚ) = r at *
  -- in units of `d`
  have hx : r / d * d = r := div_mul_cancel₀ _ (ne_of_gt d0)
  generalize r / d = x at *
  have hx2 : x ≤ 400000 := by
    by_contra hc
    have := not_le.1 hc
    nlinarith
  have y1 : y - x ≤ 1 / 1000000000 := by linarith [e2.2]
  have y2 : -(1 / 1000000000) ≤ y - x := by linarith [e2.1]
  have k1 : k / 1000 - x ≤ 1 / 2000 + 1 / 1000000000 := by linarith [e3.2]
  have k2 : -(1 / 2000 + 1 / 1000000000) ≤ k / 1000 - x := by linarith [e3.1]
  have m1 : (k / 1000 - x) * d ≤ (1 / 2000 + 1 / 1000000000) * d := mul_le_mul_of_nonneg_right k1 d0.le
  have m2 : -(1 / 2000 + 1 / 1000000000) * d ≤ (k / 1000 - x) * d := mul_le_mul_of_nonneg_right k2 d0.le
  have m3 : (k / 1000 - x) * d = k / 1000 * d - r := by rw [sub_mul, hx]
  rw [m3] at m1 m2
  rw [abs_le]
  constructor <;> linarith [e1.1, e1.2]

theorem thousandths_mono {n n' : Nat} (h : n ≤ n') {d : ℚ} (hd : 1 ≤ d) : thousandths n d ≤ thousandths n' d := by
  have d0 : (0 : ℚ) < d := by linarith
  have h' : (n : ℚ) ≤ n' := by exact_mod_cast h
  have h1 := rnd_mono (F := f64) (by decide) h'
  have h2 := rnd_mono (F := f64) (by decide) (div_le_div_of_nonneg_right h1 d0.le)
  have h3 := nearest_mono (mul_le_mul_of_nonneg_right h2 (show (0 : ℚ) ≤ 1000 by norm_num))
  unfold thousandths
  omega

/-- At a multiple of the unit. -/
theorem thousandths_at {m : Nat} (hm : m < 10000) {d : Nat} (hd : 1 ≤ d) (hmd : m * d < 9007199254740992) :
    thousandths (m * d) d = 1000 * m := by
  have d0 : (d : ℚ) ≠ 0 := by positivity
  have hr : Rep f64 (((m * d : Nat) : Int) : ℚ) := rep_int (by
    rw [abs_of_nonneg (by positivity)]
    show ((m * d : Nat) : Int) ≤ 2 ^ 53
    omega) (by decide)
  have hm' : Rep f64 ((m : Int) : ℚ) := rep_int (by
    rw [abs_of_nonneg (by positivity)]
    show (m : Int) ≤ 2 ^ 53
    omega) (by decide)
  have e1 : rnd f64 ((m * d : Nat) : ℚ) = (m : ℚ) * d := by
    have := rnd_id (F := f64) (by decide) hr
    push_cast at this ⊢
    exact this
  have e2 : rnd f64 (m : ℚ) = m := by
    have := rnd_id (F := f64) (by decide) hm'
    push_cast at this
    exact this
  unfold thousandths
  rw [e1, mul_div_assoc, div_self d0, mul_one, e2]
  have : nearest ((m : ℚ) * 1000) = ((1000 * m : Nat) : Int) := by
    have := nearest_int ((1000 * m : Nat) : Int)
    rw [← this]
    congr 1
    push_cast
    ring
  rw [this]
  rfl

/-- What is read. -/
def shown (n : Nat) : ℚ :=
  if n ≥ 86400000000000 then thousandths n (86400000000000 : Nat) / 1000 * (86400000000000 : Nat)
  else if n ≥ 3600000000000 then thousandths n (3600000000000 : Nat) / 1000 * (3600000000000 : Nat)
  else if n ≥ 60000000000 then thousandths n (60000000000 : Nat) / 1000 * (60000000000 : Nat)
  else if n ≥ 1000000000 then thousandths n (1000000000 : Nat) / 1000 * (1000000000 : Nat)
  else if n ≥ 1000000 then thousandths n (1000000 : Nat) / 1000 * (1000000 : Nat)
  else if n ≥ 1000 then thousandths n (1000 : Nat) / 1000 * (1000 : Nat)
  else n

theorem read_text (a : CuDuration) : readTime (text a) = some (shown a.ns.toNat) := by
  have hn := a.ns.toNat_lt
  unfold text shown
  generalize a.ns.toNat = n at *
  dsimp only
  have r : ∀ (d : Nat) (d' ns : ℚ) (u : List Char), 1 ≤ d → d' = d → readUnit u = some ns → ns = d →
      readTime (showDiv n d' u) = some (thousandths n (d : ℚ) / 1000 * (d : ℚ)) := by
    intro d d' ns u hd hd' hu hns
    subst hd' hns
    exact read_showDiv hn (by exact_mod_cast hd) hu
  repeat' split
  · exact r _ _ _ _ (by decide) (by norm_num) rfl (by norm_num)
  · exact r _ _ _ _ (by decide) (by norm_num) rfl (by norm_num)
  · exact r _ _ _ _ (by decide) (by norm_num) rfl (by norm_num)
  · exact r _ _ _ _ (by decide) (by norm_num) rfl (by norm_num)
  · exact r _ _ _ _ (by decide) (by norm_num) rfl (by norm_num)
  · exact r _ _ _ _ (by decide) (by norm_num) rfl (by norm_num)
  · exact read_ns n

theorem shown_near {n : Nat} (hn : n < 2 ^ 64) : |shown n - n| ≤ n * (501 / 1000000) := by
  have r : ∀ d : Nat, 1 ≤ d → d ≤ n → n ≤ 300000 * d →
      |(thousandths n (d : ℚ) : ℚ) / 1000 * (d : ℚ) - n| ≤ n * (501 / 1000000) := fun d h1 h2 h3 =>
    thousandths_near (by exact_mod_cast h1) (by exact_mod_cast h2) (by exact_mod_cast h3)
  unfold shown
  repeat' split
  · exact r _ (by decide) ‹_› (by omega)
  · exact r _ (by decide) ‹_› (by omega)
  · exact r _ (by decide) ‹_› (by omega)
  · exact r _ (by decide) ‹_› (by omega)
  · exact r _ (by decide) ‹_› (by omega)
  · exact r _ (by decide) ‹_› (by omega)
  · rw [sub_self, abs_zero]; positivity

theorem unit_le {n d : Nat} (hd : 1 ≤ d) (hd' : d < 9007199254740992) (h : d ≤ n) :
    (d : ℚ) ≤ thousandths n (d : ℚ) / 1000 * (d : ℚ) := by
  have h1 := thousandths_at (m := 1) (by decide) hd (by omega)
  rw [one_mul] at h1
  have h2 := thousandths_mono h (d := (d : ℚ)) (by exact_mod_cast hd)
  rw [h1] at h2
  have h3 : (1000 : ℚ) ≤ thousandths n (d : ℚ) := by exact_mod_cast h2
  have d0 : (0 : ℚ) ≤ d := by positivity
  nlinarith

theorem le_next {n d m : Nat} (hd : 1 ≤ d) (hm : m < 10000) (hd' : m * d < 9007199254740992) (h : n ≤ m * d) :
    thousandths n (d : ℚ) / 1000 * (d : ℚ) ≤ ((m * d : Nat) : ℚ) := by
  have h1 := thousandths_at hm hd hd'
  have h2 := thousandths_mono h (d := (d : ℚ)) (by exact_mod_cast hd)
  rw [h1] at h2
  have h3 : (thousandths n (d : ℚ) : ℚ) ≤ 1000 * m := by exact_mod_cast h2
  have d0 : (0 : ℚ) ≤ d := by positivity
  push_cast
  nlinarith

/-- The units. -/
def units : List Nat := [86400000000000, 3600000000000, 60000000000, 1000000000, 1000000, 1000]

theorem above {n b : Nat} (hb : b ∈ units) (h : b ≤ n) : (b : ℚ) ≤ shown n := by
  have key : ∀ d : Nat, b ≤ d → 1 ≤ d → d < 9007199254740992 → d ≤ n →
      (b : ℚ) ≤ thousandths n (d : ℚ) / 1000 * (d : ℚ) := fun d h0 h1 h2 h3 =>
    le_trans (by exact_mod_cast h0) (unit_le h1 h2 h3)
  simp only [units, List.mem_cons, List.not_mem_nil, or_false] at hb
  unfold shown
  split
  · exact key _ (by omega) (by decide) (by decide) ‹_›
  split
  · exact key _ (by omega) (by decide) (by decide) ‹_›
  split
  · exact key _ (by omega) (by decide) (by decide) ‹_›
  split
  · exact key _ (by omega) (by decide) (by decide) ‹_›
  split
  · exact key _ (by omega) (by decide) (by decide) ‹_›
  split
  · exact key _ (by omega) (by decide) (by decide) ‹_›
  · exact_mod_cast h

theorem below {n b : Nat} (hb : b ∈ units) (h : n < b) : shown n ≤ b := by
  have key : ∀ m d : Nat, m * d ≤ b → 1 ≤ d → m < 10000 → m * d < 9007199254740992 → n ≤ m * d →
      thousandths n (d : ℚ) / 1000 * (d : ℚ) ≤ (b : ℚ) := fun m d h0 h1 h2 h3 h4 =>
    le_trans (le_next h1 h2 h3 h4) (by exact_mod_cast h0)
  simp only [units, List.mem_cons, List.not_mem_nil, or_false] at hb
  unfold shown
  split
  · omega
  split
  · exact key 24 _ (by omega) (by decide) (by decide) (by decide) (by omega)
  split
  · exact key 60 _ (by omega) (by decide) (by decide) (by decide) (by omega)
  split
  · exact key 60 _ (by omega) (by decide) (by decide) (by decide) (by omega)
  split
  · exact key 1000 _ (by omega) (by decide) (by decide) (by decide) (by omega)
  split
  · exact key 1000 _ (by omega) (by decide) (by decide) (by decide) (by omega)
  · exact_mod_cast h.le

theorem shown_mono {n n' : Nat} (h : n ≤ n') : shown n ≤ shown n' := by
  by_cases hc : ∃ b ∈ units, n < b ∧ b ≤ n'
  · obtain ⟨b, hb, h1, h2⟩ := hc
    exact le_trans (below hb h1) (above hb h2)
  · have hb : ∀ b ∈ units, b ≤ n' → b ≤ n := by
      intro b hb h1
      by_contra h2
      exact hc ⟨b, hb, by omega, h1⟩
    have key : ∀ d : Nat, 1 ≤ d → thousandths n (d : ℚ) / 1000 * (d : ℚ) ≤ thousandths n' (d : ℚ) / 1000 * (d : ℚ) := by
      intro d hd
      have := thousandths_mono h (d := (d : ℚ)) (by exact_mod_cast hd)
      have : (thousandths n (d : ℚ) : ℚ) ≤ thousandths n' (d : ℚ) := by exact_mod_cast this
      have d0 : (0 : ℚ) ≤ d := by positivity
      exact mul_le_mul_of_nonneg_right (div_le_div_of_nonneg_right this (by norm_num)) d0
    have ite : ∀ b ∈ units, ∀ x y x' y' : ℚ, x ≤ x' → y ≤ y' →
        (if n ≥ b then x else y) ≤ (if n' ≥ b then x' else y') := by
      intro b hb' x y x' y' hx hy
      by_cases h1 : n' ≥ b
      · rw [if_pos h1, if_pos (hb b hb' h1)]; exact hx
      · rw [if_neg h1, if_neg (fun h2 => h1 (le_trans h2 h))]; exact hy
    unfold shown
    exact ite _ (by decide) _ _ _ _ (key _ (by decide)) (ite _ (by decide) _ _ _ _ (key _ (by decide))
      (ite _ (by decide) _ _ _ _ (key _ (by decide)) (ite _ (by decide) _ _ _ _ (key _ (by decide))
      (ite _ (by decide) _ _ _ _ (key _ (by decide)) (ite _ (by decide) _ _ _ _ (key _ (by decide))
      (by exact_mod_cast h))))))

end ShowTime
end Verif
