import Verif.Model.FpBits
import Verif.Proofs.Fp
import Verif.Proofs.Bincode
/-! Single precision numbers and their bit patterns. -/
namespace Verif
namespace Fp
open Bincode

/-- The values of the type `f32`. -/
def IsF32 : Num → Prop
  | .fin q => Rep f32 q ∧ |q| < pow2 128
  | _ => True

theorem round_f32 (q : ℚ) : IsF32 (round f32 q) := by
  unfold round
  split
  · exact ⟨rep_zero _, by rw [abs_zero]; exact pow2_pos _⟩
  · rename_i h
    split
    · trivial
    · rename_i h1
      split
      · trivial
      · rename_i h2
        refine ⟨nearestTo_rep h, abs_lt.2 ⟨not_le.1 h2, not_le.1 h1⟩⟩

theorem IsF32.neg {x : Num} (h : IsF32 x) : IsF32 x.neg := by
  cases x with
  | nan => trivial
  | inf _ => trivial
  | fin q => exact ⟨rep_neg h.1, by rw [abs_neg]; exact h.2⟩

theorem add_f32 (x y : Num) : IsF32 (x.add f32 y) := by
  unfold Num.add
  split <;> first | trivial | exact round_f32 _ | (split <;> trivial)

theorem sub_f32 (x y : Num) : IsF32 (x.sub f32 y) := add_f32 _ _

theorem mul_f32 (x y : Num) : IsF32 (x.mul f32 y) := by
  unfold Num.mul
  split <;> first | trivial | exact round_f32 _ | (split <;> trivial)

theorem clamp_f32 {x lo hi y : Num} (hx : IsF32 x) (hl : IsF32 lo) (hh : IsF32 hi) (h : x.clamp lo hi = some y) :
    IsF32 y := by
  unfold Num.clamp at h
  split at h
  · cases h
  · split at h
    · cases h; exact hl
    · split at h
      · cases h; exact hh
      · cases h; exact hx

theorem f32_zero : IsF32 (.fin 0) := ⟨rep_zero _, by rw [abs_zero]; exact pow2_pos _⟩

/-- The significand of a number. -/
theorem significand {q : ℚ} (hq : q ≠ 0) (hr : Rep f32 q) (hb : |q| < pow2 128) :
    ∃ m e : Nat, exponent f32 q = (e : Int) - 149 ∧ |q| = (m : ℚ) * pow2 ((e : Int) - 149) ∧ m < 16777216 ∧ e ≤ 253 ∧
      (0 < e → 8388608 ≤ m) := by
  obtain ⟨h1, h2, h3⟩ := exponent_spec (F := f32) hq
  have hid := rnd_id (F := f32) (by decide) hr
  unfold rnd at hid
  rw [if_neg hq] at hid
  unfold nearestTo at hid
  generalize nearest (q / pow2 (exponent f32 q)) = n at hid
  generalize exponent f32 q = e at h1 h2 h3 hid
  simp only [f32] at h1 h2 h3
  have hp := pow2_pos e
  have hq' : |q| = (n.natAbs : ℚ) * pow2 e := by
    rw [← hid, abs_mul, abs_of_pos hp, Nat.cast_natAbs, Int.cast_abs]
  obtain ⟨k, hk⟩ := Int.eq_ofNat_of_zero_le (a := e + 149) (by omega)
  have he : e = (k : Int) - 149 := by omega
  subst he
  refine ⟨n.natAbs, k, rfl, hq', ?_, ?_, fun h0 => ?_⟩
  · rw [hq', add_comm, pow2_add] at h2
    have := lt_of_mul_lt_mul_right h2 hp.le
    have e24 : pow2 (24 : Int) = ((16777216 : Nat) : ℚ) := rfl
    push_cast at this
    rw [e24] at this
    exact_mod_cast this
  · by_contra hc
    have := h3 (by omega)
    have h4 := lt_of_le_of_lt this hb
    have h5 : pow2 128 ≤ pow2 ((k : Int) - 149 + ((24 : Nat) : Int) - 1) := pow2_le (by omega)
    linarith
  · have h4 := h3 (by omega)
    rw [hq', show (k : Int) - 149 + ((24 : Nat) : Int) - 1 = 23 + ((k : Int) - 149) by omega, pow2_add] at h4
    have := le_of_mul_le_mul_right h4 hp
    have e23 : pow2 (23 : Int) = ((8388608 : Nat) : ℚ) := rfl
    rw [e23] at this
    exact_mod_cast this

theorem magnitude_fields {q : ℚ} (hq : q ≠ 0) (hr : Rep f32 q) (hb : |q| < pow2 128) :
    ∃ f k, f < 255 ∧ k < 8388608 ∧ magnitudeBits q = f * 8388608 + k ∧
      |q| = if f = 0 then (k : ℚ) * pow2 (-149) else ((8388608 + k : Nat) : ℚ) * pow2 (f - 150) := by
  obtain ⟨m, e, h1, h2, h3, h4, h5⟩ := significand hq hr hb
  have hm : magnitudeBits q = e * 8388608 + m := by
    unfold magnitudeBits
    rw [h1, h2, mul_div_cancel_right₀ _ (pow2_pos _).ne']
    have : ((m : ℚ)).floor = (m : Int) := by
      have := Rat.floor_intCast (m : Int)
      simpa using this
    rw [this, Int.toNat_natCast, show ((e : Int) - 149 + 149).toNat = e by omega]
  by_cases hlt : m < 8388608
  · have he : e = 0 := by
      by_contra h
      have := h5 (by omega)
      omega
    subst he
    exact ⟨0, m, by omega, hlt, by omega, by rw [if_pos rfl, h2, show ((0 : Nat) : Int) - 149 = -149 by omega]⟩
  · refine ⟨e + 1, m - 8388608, by omega, by omega, by rw [hm]; clear hm h2; omega, ?_⟩
    rw [if_neg (by omega), h2, show 8388608 + (m - 8388608) = m by omega]
    rw [show (e : Int) - 149 = ((e + 1 : Nat) : Int) - 150 by omega]

theorem bits_lt (x : Num) (h : IsF32 x) : bitsNat x < 4294967296 := by
  cases x with
  | nan => decide
  | inf b => cases b <;> decide
  | fin q =>
    show (if q = 0 then 0 else (if q < 0 then 2147483648 else 0) + magnitudeBits q) < 4294967296
    split
    · decide
    · rename_i hq
      obtain ⟨f, k, h1, h2, h3, -⟩ := magnitude_fields hq h.1 h.2
      rw [h3]
      split <;> omega

/-- A number is found in its bits. -/
theorem ofBits_bits {x : Num} (h : IsF32 x) : ofBitsNat (bitsNat x) = x := by
  cases x with
  | nan => decide
  | inf b => cases b <;> decide
  | fin q =>
    show ofBitsNat (if q = 0 then 0 else (if q < 0 then 2147483648 else 0) + magnitudeBits q) = .fin q
    split
    · rename_i hq
      subst hq
      decide +kernel
    · rename_i hq
      obtain ⟨f, k, h1, h2, h3, h4⟩ := magnitude_fields hq h.1 h.2
      rw [h3]
      unfold ofBitsNat
      split
      · rename_i hneg
        have e1 : decide (2147483648 ≤ 2147483648 + (f * 8388608 + k)) = true := by simp
        have e2 : (2147483648 + (f * 8388608 + k)) / 8388608 % 256 = f := by omega
        have e3 : (2147483648 + (f * 8388608 + k)) % 8388608 = k := by omega
        rw [e1, e2, e3]
        unfold ofFields
        rw [if_neg (by omega)]
        simp only [if_true]
        rw [← h4, abs_of_neg hneg, neg_neg]
      · rename_i hneg
        have e1 : decide (2147483648 ≤ 0 + (f * 8388608 + k)) = false := by simp; omega
        have e2 : (0 + (f * 8388608 + k)) / 8388608 % 256 = f := by omega
        have e3 : (0 + (f * 8388608 + k)) % 8388608 = k := by omega
        rw [e1, e2, e3]
        unfold ofFields
        rw [if_neg (by omega)]
        simp only [Bool.false_eq_true, if_false]
        rw [← h4, abs_of_nonneg (not_lt.1 hneg)]

/-- And in its bytes. -/
theorem codec_rt {x : Num} (h : IsF32 x) (rest : Bytes) : codec.dec (codec.enc x ++ rest) = .ok (x, rest) := by
  show ((dec : Dec F32) >>= fun x => pure (ofBitsNat x.bits.toNat)) (enc (F32.mk (UInt32.ofNat (bitsNat x))) ++ rest) = _
  rw [Dec.bind_ok (rt_f32 _ rest)]
  have : (UInt32.ofNat (bitsNat x)).toNat = bitsNat x := by
    rw [UInt32.toNat_ofNat', Nat.mod_eq_of_lt (bits_lt x h)]
  simp only [this, ofBits_bits h]
  rfl

end Fp
end Verif
