import Verif.Proofs.ReadingsFp
/-!
C86: readings in single precision.
-/
namespace Verif
namespace ReadingsFp
open Fp

/-- The readings of the inertial unit: accelerations exactly, the others up to a millionth. -/
theorem C86_imu (n : Int16) :
    convertAcc n = .fin (n.toInt / 32768 * 16) ∧ IsAbout (convertAngVel n) (n.toInt / 32768 * 2000) ∧
    IsAbout (convertMag n) (n.toInt / 32768 * (8333 / 1000)) ∧ IsAbout (convertAngle n) (n.toInt / 32768 * 180) := by
  have hn := i16_abs n
  have hnq : |(n.toInt : ℚ)| ≤ 65536 := by exact_mod_cast hn
  refine ⟨?_, ?_, ?_, ?_⟩
  · have hF : 0 < f32.prec := by decide
    have p15 : pow2 (-15) = 1 / 32768 := by decide +kernel
    have p11 : pow2 (-11) = 1 / 2048 := by decide +kernel
    have r1 : Rep f32 ((n.toInt : ℚ) / 32768) := ⟨n.toInt, -15, by rw [p15]; ring, le_trans hn (by decide), by decide⟩
    have r2 : Rep f32 ((n.toInt : ℚ) / 32768 * 16) := ⟨n.toInt, -11, by rw [p11]; ring, le_trans hn (by decide), by decide⟩
    unfold convertAcc
    rw [ofInt_exact (le_trans hn (by decide)), div_fin (by norm_num), rnd_id hF r1, mul_fin, rnd_id hF r2]
    · rw [abs_mul, abs_div, abs_of_pos (by norm_num : (0 : ℚ) < 32768), abs_of_pos (by norm_num : (0 : ℚ) < 16)]; linarith
    · rw [abs_div, abs_of_pos (by norm_num : (0 : ℚ) < 32768)]; linarith
  · exact div_mul_about hn (by norm_num) (by norm_num) (by norm_num) (by norm_num) (appr_exact (by norm_num))
  · unfold convertMag
    rw [lit]
    refine div_mul_about hn (by norm_num) (by norm_num) (by norm_num) (by norm_num) ?_
    have := (Appr.exact (8333 / 1000 : ℚ)).rnd (le_refl _) (by norm_num) (le_refl _)
    rw [abs_of_pos (by norm_num : (0 : ℚ) < 8333 / 1000)] at this
    exact this.weaken (by norm_num) (by linarith)
  · exact div_mul_about hn (by norm_num) (by norm_num) (by norm_num) (by norm_num) (appr_exact (by norm_num))

/-- The readings of converters, lidars and servos: exactly where the number of single precision exists, else up
to a millionth. -/
theorem C86_devices :
    (∀ n : UInt16, analog n = .fin n.toNat) ∧ (∀ n : UInt16, distance n = .fin (4 * n.toNat)) ∧
    (∀ n : UInt8, IsAbout (reflectivity n) (n.toNat / 255)) ∧ reflectivity 0 = .fin 0 ∧ reflectivity 255 = .fin 1 ∧
    (∀ n : UInt16, IsAbout (azimuth n) (n.toNat / 100)) ∧ (∀ n : Int16, IsAbout (servoAngle n) (n.toInt * 24 / 100)) ∧
    (∀ n : UInt16, IsAbout (servoVoltage n) (n.toNat / 1000)) := by
  refine ⟨fun n => ?_, fun n => ?_, fun n => ?_, by decide +kernel, by decide +kernel, fun n => ?_, fun n => ?_, fun n => ?_⟩
  · exact ofInt_exact (le_trans (u16_abs n) (by decide))
  · have hn := n.toNat_lt
    have h4 : |(4 * n.toNat : Int)| ≤ 16777216 := by rw [abs_le]; constructor <;> omega
    have := ofInt_exact h4
    unfold distance
    rw [ofInt_exact (le_trans (u16_abs n) (by decide))]
    unfold ofInt at this
    simp only [Num.mul]
    push_cast at this ⊢
    rw [mul_comm (n.toNat : ℚ), this]
  · exact div_about (u8_abs n) (by norm_num) (by norm_num)
  · exact div_about (u16_abs n) (by norm_num) (by norm_num)
  · obtain ⟨h1, h2⟩ := servo_appr n
    rw [h1]
    by_cases h0 : n.toInt = 0
    · refine ⟨_, rfl, ?_⟩
      rw [h0]; simp [rnd]
    · have := int_abs h0
      have ts := tiny_small
      refine about_of h2 ?_ (by norm_num) (by linarith) ?_
      · rw [abs_div, abs_mul, abs_of_pos (by norm_num : (0 : ℚ) < 24), abs_of_pos (by norm_num : (0 : ℚ) < 100)]
      · rw [abs_div, abs_mul, abs_of_pos (by norm_num : (0 : ℚ) < 24), abs_of_pos (by norm_num : (0 : ℚ) < 100)]; linarith
  · exact div_about (u16_abs n) (by norm_num) (by norm_num)

/-- No two readings are confused, and their order is kept. -/
theorem C86_ordered :
    Ordered Int16.toInt convertAcc ∧ Ordered Int16.toInt convertAngVel ∧ Ordered Int16.toInt convertMag ∧
    Ordered Int16.toInt convertAngle ∧ Ordered Int16.toInt servoAngle ∧
    Ordered (fun n : UInt16 => (n.toNat : Int)) analog ∧ Ordered (fun n : UInt16 => (n.toNat : Int)) distance ∧
    Ordered (fun n : UInt16 => (n.toNat : Int)) azimuth ∧ Ordered (fun n : UInt16 => (n.toNat : Int)) servoVoltage ∧
    Ordered (fun n : UInt8 => (n.toNat : Int)) reflectivity := by
  obtain ⟨d1, d2, d3, -, -, d6, d7, d8⟩ := C86_devices
  have ex : ∀ {x : Num} {q : ℚ}, x = .fin q → IsAbout x q := fun h => ⟨_, h, by simp; positivity⟩
  have eq : ∀ {x : Num} {q r : ℚ}, IsAbout x q → q = r → IsAbout x r := fun h e => e ▸ h
  refine ⟨ordered_of (s := 16 / 32768) (by norm_num) i16_abs fun n => eq (ex (C86_imu n).1) (by ring),
    ordered_of (s := 2000 / 32768) (by norm_num) i16_abs fun n => eq (C86_imu n).2.1 (by ring),
    ordered_of (s := 8333 / 32768000) (by norm_num) i16_abs fun n => eq (C86_imu n).2.2.1 (by ring),
    ordered_of (s := 180 / 32768) (by norm_num) i16_abs fun n => eq (C86_imu n).2.2.2 (by ring),
    ordered_of (s := 24 / 100) (by norm_num) i16_abs fun n => eq (d7 n) (by ring),
    ordered_of (s := 1) (by norm_num) u16_abs fun n => eq (ex (d1 n)) (by push_cast; ring),
    ordered_of (s := 4) (by norm_num) u16_abs fun n => eq (ex (d2 n)) (by push_cast; ring),
    ordered_of (s := 1 / 100) (by norm_num) u16_abs fun n => eq (d6 n) (by push_cast; ring),
    ordered_of (s := 1 / 1000) (by norm_num) u16_abs fun n => eq (d8 n) (by push_cast; ring),
    ordered_of (s := 1 / 255) (by norm_num) u8_abs fun n => eq (d3 n) (by push_cast; ring)⟩

/-- Encoders and coordinates are exact up to 2^24 in magnitude. -/
theorem C86_wide_partial (n : Int32) (h : |n.toInt| ≤ 16777216) :
    ticks n = .fin n.toInt ∧ coordinate n = .fin n.toInt := ⟨ofInt_exact h, ofInt_exact h⟩

/-- Beyond, an encoder stands still for the PID while it turns. -/
theorem C86_wide_violated : ticks 16777216 = ticks 16777217 := by decide +kernel

/-- A servo told to go to the position it reports moves by at most one step. -/
theorem C86_servo_partial (n : Int16) : |angleToPosition (servoAngle n) - n.toInt| ≤ 1 := by
  obtain ⟨v, h1, h2⟩ := servo_back n
  have hl := n.toInt_lt
  have hg := n.le_toInt
  have hnq : |(n.toInt : ℚ)| ≤ 65536 := by exact_mod_cast i16_abs n
  have ht := trunc_near (v := v) (n := n.toInt) (by linarith)
  unfold angleToPosition
  rw [h1]
  simp only [castI16]
  rw [abs_le] at ht ⊢
  constructor <;> omega

/-- It does move: from 269 to 268, because the conversion truncates. -/
theorem C86_servo_violated : angleToPosition (servoAngle 269) = 268 := by decide +kernel

/-- The voltage of a cell, in tenths of volts for all cells together. -/
theorem C86_cell_partial (m : Overflow) (v cells : UInt8) (h0 : 1 ≤ cells.toNat) (h1 : cells.toNat ≤ 25) :
    ∃ x, cellVoltage m v cells = .ok x ∧ IsAbout x (v.toNat / 10 / cells.toNat) := by
  unfold cellVoltage
  rw [if_pos (.inl (by omega))]
  have e : (10 * cells : UInt8).toNat = 10 * cells.toNat := by
    rw [UInt8.toNat_mul]
    show 10 * cells.toNat % 256 = _
    omega
  refine ⟨_, rfl, ?_⟩
  rw [e]
  have hc : |((10 * cells.toNat : Nat) : Int)| ≤ 16777216 := by rw [abs_le]; constructor <;> omega
  rw [ofInt_exact (n := ((10 * cells.toNat : Nat) : Int)) hc]
  have c1 : (1 : ℚ) ≤ cells.toNat := by exact_mod_cast h0
  have c2 : (cells.toNat : ℚ) ≤ 25 := by exact_mod_cast h1
  have := div_about (n := (v.toNat : Int)) (u8_abs v) (d := (((10 * cells.toNat : Nat) : Int) : ℚ)) (by push_cast; linarith)
    (by push_cast; linarith)
  have e2 : ((v.toNat : Int) : ℚ) / (((10 * cells.toNat : Nat) : Int) : ℚ) = v.toNat / 10 / cells.toNat := by
    push_cast; rw [div_div]
  rw [e2] at this
  exact this

/-- A battery of 26 cells: a panic, or a voltage for less than half of a cell; a battery that reports no cells: an
infinite voltage, or NaN. -/
theorem C86_cell_violated :
    cellVoltage .checked 96 26 = .panic ∧ cellVoltage .wrapping 96 26 = .ok (.fin 24) ∧
    cellVoltage .checked 96 0 = .ok (.inf false) ∧ cellVoltage .checked 0 0 = .ok .nan := by
  refine ⟨?_, ?_, ?_, ?_⟩ <;> decide +kernel

/-- Concrete readings. -/
example : convertAcc 2048 = .fin 1 ∧ convertAngle (-16384) = .fin (-90) ∧ servoAngle 500 = .fin 120 ∧
    azimuth 36000 = .fin 360 ∧ (cellVoltage .checked 148 4) = .ok (.fin (15518925 / 4194304)) ∧
    (|(1000 : Int32).toInt| ≤ 16777216) := by
  refine ⟨?_, ?_, ?_, ?_, ?_, ?_⟩ <;> decide +kernel

end ReadingsFp
end Verif
