import Verif.Proofs.Devices
/-!
C69: what the encoder, the output pin and the inertial sensor report and do.
-/
namespace Verif
namespace Devices
open Clock

/-- With fewer than 2³¹ edges since it was made, the encoder reports exactly how far the wheel turned. -/
theorem C69_encoder_partial (m : Overflow) (l : List (Bool × CuTime)) (hl : l.length < 2147483648) (now : CuTime)
    (out : Msg Int32) :
    ∃ msg t, (Encoder.new.edges m l).process now out = .ok msg ∧ msg.payload = some t ∧ t.toInt = turned l ∧
      msg.md.tov = .time now ∧ msg.md.statusTxt = toString (turned l) := by
  have h0 : Encoder.new.ticks.toInt = 0 := rfl
  obtain ⟨h1, h2⟩ := edges_ticks m l Encoder.new rfl (by rw [h0]; omega) (by rw [h0]; omega)
  refine ⟨_, _, by unfold Encoder.process; rw [h1]; rfl, rfl, ?_, rfl, ?_⟩
  · rw [h2, h0]; omega
  · simp only [Msg.setPayload]; rw [h2, h0, Int.zero_add]

example := C69_encoder_partial .checked [(true, ⟨1⟩), (true, ⟨2⟩), (false, ⟨3⟩)] (by decide)

/-- Negation: one edge more, always the same way, and the encoder panics for ever (checked builds) or
reports as many turns the other way (release builds). -/
theorem C69_encoder_violated (t now : CuTime) (out : Msg Int32) :
    (((Encoder.new.edges .checked (List.replicate 2147483647 (true, t))).edge .checked true t).process now out = .panic) ∧
    (∃ msg, ((Encoder.new.edges .wrapping (List.replicate 2147483647 (true, t))).edge .wrapping true t).process now out =
      .ok msg ∧ msg.payload = some (-2147483648)) := by
  have h0 : Encoder.new.ticks.toInt = 0 := rfl
  have h := fun m => edges_ticks m (List.replicate 2147483647 (true, t)) Encoder.new rfl
    (by rw [h0, List.length_replicate]; omega) (by rw [h0, List.length_replicate]; omega)
  simp only [turned_replicate, h0] at h
  generalize List.replicate 2147483647 (true, t) = l at h
  have ht : ∀ m, (Encoder.new.edges m l).ticks = 2147483647 := by
    intro m
    rw [← Int32.toInt_inj, (h m).2]
    rfl
  constructor
  · unfold Encoder.edge
    rw [(h .checked).1, ht]
    rfl
  · have he : ((Encoder.new.edges .wrapping l).edge .wrapping true t).poisoned = false ∧
        ((Encoder.new.edges .wrapping l).edge .wrapping true t).ticks = -2147483648 := by
      unfold Encoder.edge
      rw [(h .wrapping).1, ht]
      exact ⟨rfl, rfl⟩
    unfold Encoder.process
    rw [he.1, he.2]
    exact ⟨_, rfl, rfl⟩

/-- Negation: the documented configuration of the encoder (README.md:16-26) is refused. -/
theorem C69_readme_violated :
    encoderPins (some [("pin_clt", .number (.i64 17)), ("pin_dat", .number (.i64 18))]) = .ok none ∧
    encoderPins (some [("clk_pin", .number (.i64 17)), ("dat_pin", .number (.i64 18))]) = .ok (some (17, 18)) := by
  constructor <;> rfl

/-- Negation: a pin that is on is low, although on is the number 1; a message without a payload panics. -/
theorem C69_gpio_violated (md : MsgMeta) :
    gpioProcess ⟨some true, md⟩ = .ok .low ∧ gpioProcess ⟨some false, md⟩ = .ok .high ∧
    byteOf true = 1 ∧ byteOf false = 0 ∧ gpioProcess ⟨none, md⟩ = .panic := ⟨rfl, rfl, rfl, rfl, rfl⟩

/-- The two levels are different: the output follows the messages. -/
theorem C69_gpio_partial (on : Bool) (md : MsgMeta) :
    gpioProcess ⟨some on, md⟩ = .ok (if on then .low else .high) := rfl

/-- Whatever the bytes of the sensor, the reading is what its registers say, in the scales of its manual:
±16 g, ±2000 degrees per second, ±180 degrees. -/
theorem C69_wt901 (buf : Vector UInt8 spanSize) (out : Msg Reading) :
    ∃ r, wt901Process (some buf) out = .ok (out.setPayload r) ∧
      ∀ i : Fin 3,
        r.acc i = (register buf ⟨i.val, by omega⟩ : Rat) * (16 / 32768) ∧
        r.gyro i = (register buf ⟨3 + i.val, by omega⟩ : Rat) * (2000 / 32768) ∧
        r.angle i = (register buf ⟨9 + i.val, by omega⟩ : Rat) * (180 / 32768) := by
  obtain ⟨r, h, h'⟩ := wt901_read buf out
  exact ⟨r, h, fun i => ⟨(h' i).1, (h' i).2.1, (h' i).2.2.2⟩⟩

/-- The readings are in these ranges. -/
theorem C69_wt901_range (buf : Vector UInt8 spanSize) (i : Fin 12) :
    -32768 ≤ register buf i ∧ register buf i ≤ 32767 := by
  unfold register word
  have h1 := (buf[2 * i.val]'(by have := i.isLt; have : spanSize = 24 := rfl; omega)).toNat_lt
  have h2 := (buf[2 * i.val + 1]'(by have := i.isLt; have : spanSize = 24 := rfl; omega)).toNat_lt
  split <;> omega

/-- Negation: the magnetic field is 32768 times too small for the resolution the driver states, 8.333
nanotesla for each unit of the register. -/
theorem C69_mag_violated (buf : Vector UInt8 spanSize) (out : Msg Reading) :
    ∃ r, wt901Process (some buf) out = .ok (out.setPayload r) ∧
      ∀ i : Fin 3, r.mag i * 32768 = (register buf ⟨6 + i.val, by omega⟩ : Rat) * (8333 / 1000) := by
  obtain ⟨r, h, h'⟩ := wt901_read buf out
  refine ⟨r, h, fun i => ?_⟩
  rw [(h' i).2.2.1]
  ring

/-- Negation: a reading has no time of validity, and an error of the bus is a panic. -/
theorem C69_wt901_violated (bus : Option (Vector UInt8 spanSize)) (out msg : Msg Reading) :
    (wt901Process bus out = .ok msg → msg.md = out.md) ∧ wt901Process none out = .panic := by
  constructor
  · unfold wt901Process
    intro h
    split at h
    · cases h
    · cases h; rfl
  · rfl

/-! Cases. -/
example : turned [(true, ⟨1⟩), (true, ⟨2⟩), (false, ⟨3⟩)] = 1 := rfl
example : word 0x00 0x80 = -32768 ∧ word 0xff 0x7f = 32767 ∧ word 0x34 0x12 = 0x1234 := by decide

end Devices
end Verif
