import Verif.Spec.MspRc
import Verif.Props.MspTasks
/-! C119: the radio channels of a drone, and the settings of its serial ports, are those that were named. -/
namespace Verif
namespace Msp

/-- The channels after some were set. -/
theorem setAll_channels (l : List (RcChannel × UInt16)) :
    (Rc.new.setAll l).channels = aetr.map (lastSet l) ++ List.replicate 8 0 := by
  have h : ∀ l : List (RcChannel × UInt16), (Rc.new.setAll l.reverse).channels =
      aetr.map (lastSet l.reverse) ++ List.replicate 8 0 := by
    intro l
    induction l with
    | nil => decide
    | cons x l ih =>
      obtain ⟨c, v⟩ := x
      have key : ∀ d, lastSet (l.reverse ++ [(c, v)]) d = if c = d then v else lastSet l.reverse d := by
        intro d
        unfold lastSet
        by_cases hcd : c = d
        · simp [hcd]
        · simp [hcd]
      rw [List.reverse_cons]
      unfold Rc.setAll at ih ⊢
      rw [List.foldl_append, List.foldl_cons, List.foldl_nil]
      generalize List.foldl (fun (r : Rc) x => r.set x.1 x.2) Rc.new l.reverse = r at ih
      obtain ⟨ch⟩ := r
      simp only at ih
      subst ih
      cases c <;> simp [Rc.set, aetr, key]
  have := h l.reverse
  rwa [List.reverse_reverse] at this

/-- Whatever channels are set, in whatever order and how often, the sink sends one packet for it, which a parser reads
without error: its data are the values the channels were last set to, in the order of the flight controller, and 0
for those that were not set. -/
theorem C119_channels (l : List (RcChannel × UInt16)) :
    (sinkProcess [.setRawRc (Rc.new.setAll l).channels]).2 = none ∧
    ∃ p' k, Parser.new.feed (sinkProcess [.setRawRc (Rc.new.setAll l).channels]).1 = .ok (p', [.ok k]) ∧
      k.cmd = 200 ∧ k.direction = .toFlightController ∧
      k.data = aetr.flatMap (fun c => bytesLe (lastSet l c)) ++ List.replicate 16 0 := by
  have hl : (Rc.new.setAll l).channels.length = 16 := by rw [setAll_channels]; simp [aetr]
  obtain ⟨h1, p', h2, -⟩ := C56_sends [[.setRawRc (Rc.new.setAll l).channels]] (by
    intro b hb c hc
    rw [List.mem_singleton.1 hb, List.mem_singleton, Request.setRawRc.injEq] at hc
    rw [hc]; exact hl)
  refine ⟨h1 _ (by simp), p', (Request.setRawRc (Rc.new.setAll l).channels).toPacket, ?_, rfl, rfl, ?_⟩
  · simpa using h2
  · show (Rc.new.setAll l).channels.flatMap toLe = _
    rw [setAll_channels]
    have e : ∀ v, toLe v = bytesLe v := by
      intro v
      simp only [toLe, bytesLe, List.cons.injEq, and_true]
      refine ⟨UInt8.toNat_inj.1 ?_, UInt8.toNat_inj.1 ?_⟩
      · simp
      · simp [Nat.shiftRight_eq_div_pow]
    simp only [List.flatMap_append, List.flatMap_map, e]
    rfl

example : (sinkProcess [.setRawRc (Rc.new.setAll [(.throttle, 1000), (.roll, 1500), (.throttle, 1700)]).channels]).1 =
    [36, 77, 60, 32, 200, 220, 5, 0, 0, 164, 6] ++ List.replicate 26 0 ++ [147] := by
  decide +kernel

/-- The numbers `MspRcChannel` gives to throttle and yaw are those of each other in `MspRc`: a value set with
`set_throttle` is in the channel numbered as the yaw. -/
theorem C119_numbers_violated (v : UInt16) :
    (Rc.new.set .throttle v).channels[RcChannel.yaw.number]? = some v ∧
    (Rc.new.set .throttle v).channels[RcChannel.throttle.number]? = some 0 ∧
    (Rc.new.set .yaw v).channels[RcChannel.throttle.number]? = some v ∧
    (Rc.new.set .yaw v).channels[RcChannel.yaw.number]? = some 0 := by
  simp [Rc.new, Rc.set, RcChannel.number]

/-- For the other channels the numbers agree. -/
theorem C119_numbers_partial (l : List (RcChannel × UInt16)) {c : RcChannel} (hc : c ≠ .throttle) (hy : c ≠ .yaw) :
    (Rc.new.setAll l).channels[c.number]? = some (lastSet l c) := by
  rw [setAll_channels]
  cases c <;> first | exact absurd rfl hc | exact absurd rfl hy | simp [aetr, RcChannel.number]

example : (Rc.new.setAll [(.throttle, 1000), (.aux2, 1500)]).channels[RcChannel.aux2.number]? = some 1500 := by decide

/-- The command code a request tells is the one it is sent with. -/
theorem C119_code (r : Request) : r.toPacket.cmd = r.code := by
  cases r <;> rfl

theorem ite_some {α : Type} {c : Prop} [Decidable c] {a b : α} {o : Option α} (h : (if c then some a else o) = some b) :
    (c ∧ a = b) ∨ o = some b := by
  split at h
  · rename_i hc; exact .inl ⟨hc, Option.some.inj h⟩
  · exact .inr h

/-- A text is read as a baud rate exactly if it is the decimal number of that rate (0 for the automatic one), and that
is how the rate is shown. -/
theorem C119_baudrate (s : String) (b : Baudrate) :
    (Baudrate.tryFrom s = some b ↔ s = b.text) ∧
    Decimal b.text (match b with
      | .auto => 0 | .b1200 => 1200 | .b2400 => 2400 | .b4800 => 4800 | .b9600 => 9600 | .b19200 => 19200
      | .b38400 => 38400 | .b57600 => 57600 | .b115200 => 115200 | .b230400 => 230400 | .b250000 => 250000
      | .b460800 => 460800 | .b921600 => 921600 | .b1000000 => 1000000 | .b1500000 => 1500000
      | .b2000000 => 2000000 | .b2470000 => 2470000) := by
  refine ⟨⟨fun h => ?_, fun h => ?_⟩, ?_⟩
  · unfold Baudrate.tryFrom at h
    iterate 17
      rcases ite_some h with ⟨hs, rfl⟩ | h
      · exact hs
    cases h
  · subst h
    cases b <;> decide +kernel
  · unfold Decimal; cases b <;> decide +kernel

/-- A number is taken for a serial port exactly if it is the number of that port. -/
theorem C119_serial (v : UInt8) (p : Serial) : Serial.tryFrom v = some p ↔ v = p.number := by
  refine ⟨fun h => ?_, fun h => ?_⟩
  · unfold Serial.tryFrom at h
    iterate 12
      rcases ite_some h with ⟨hs, rfl⟩ | h
      · exact hs
    cases h
  · subst h
    cases p <;> decide

example : Baudrate.tryFrom "115200" = some .b115200 ∧ Baudrate.tryFrom "14400" = none ∧
    Serial.tryFrom 20 = some .usbVcp ∧ Serial.tryFrom 8 = none := by decide +kernel

end Msp
end Verif
