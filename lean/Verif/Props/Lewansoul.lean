import Verif.Proofs.Lewansoul
/-! C45: servo bus frames are read back and checked. -/
namespace Verif
namespace Servo
deriving instance DecidableEq for Except

/-- A frame with at most 252 bytes of data is read back, leaving what follows it on the line. -/
theorem C45_round_trip (id command : UInt8) {data : Bytes} (hd : data.length ≤ 252) (rest : Bytes) :
    ∃ f, sendPacket id command data = .ok f ∧ f.length = data.length + 6 ∧
      readResponse (f ++ rest) = .ok (.ok (id, command, data), rest) := by
  refine ⟨_, send_eq id command hd, by simp [frame], ?_⟩
  have hl : (UInt8.ofNat data.length + 3).toNat = data.length + 3 := len_toNat hd
  have := read_frame (l := UInt8.ofNat data.length + 3) id command data
    (checksum ([id, UInt8.ofNat data.length + 3, command] ++ data)) rest (by rw [hl])
  rw [if_neg (by simp)] at this
  simpa [frame] using this

/-- A frame in which one byte from the id on, other than the length, was altered is rejected; what follows
it is read normally. -/
theorem C45_altered_partial {id command : UInt8} {data f : Bytes} (hd : data.length ≤ 252)
    (hf : sendPacket id command data = .ok f) {i : Nat} (hi : i < f.length) (h2 : 2 ≤ i) (h3 : i ≠ 3)
    {b : UInt8} (hne : f[i] ≠ b) (rest : Bytes) :
    readResponse (f.set i b ++ rest) = .ok (.error .invalidChecksum, rest) :=
  read_altered hd hf hi h2 h3 hne rest

/-- What arrives on the line makes the driver panic exactly if a frame announces a length of at most 2. -/
theorem C45_panic_iff (line : Bytes) :
    readResponse line = .panic ↔
      ∃ id length command rest, line = [0x55, 0x55, id, length, command] ++ rest ∧ length.toNat ≤ 2 :=
  read_panic_iff line

/-- A servo that answers a ping with a correct frame is found exactly if the first byte of data is its id. -/
theorem C45_ping (id id' command b : UInt8) {data : Bytes} (hd : data.length ≤ 251) (rest : Bytes) :
    ∃ f, sendPacket id' command (b :: data) = .ok f ∧ pingAnswer id (f ++ rest) = .ok (decide (b = id), rest) := by
  obtain ⟨f, h1, _, h2⟩ := C45_round_trip id' command (data := b :: data) (by simp; omega) rest
  refine ⟨f, h1, ?_⟩
  unfold pingAnswer
  rw [h2]
  rfl

example : ∃ f, sendPacket 1 14 [1] = .ok f ∧ pingAnswer 1 f = .ok (true, []) ∧ pingAnswer 2 f = .ok (false, []) :=
  ⟨_, rfl, by decide, by decide⟩

/-- Such lines exist; a valid frame without data makes `ping` panic. -/
theorem C45_violated_panic :
    readResponse [0x55, 0x55, 1, 2, 14] = .panic ∧
    ∃ f, sendPacket 1 14 [] = .ok f ∧ readResponse f = .ok (.ok (1, 14, []), []) ∧ pingAnswer 1 f = .panic :=
  ⟨by decide, _, rfl, by decide, by decide⟩

/-- An altered length can give a frame that was never sent: here a byte of the data is taken for the
checksum. -/
theorem C45_violated_length : ∃ f, sendPacket 1 2 [3, 4, 240] = .ok f ∧
    ∃ l, readResponse (f.set 3 5) = .ok (.ok (1, 2, [3, 4]), l) :=
  ⟨_, rfl, _, by rfl⟩

/-- A wrong start makes the driver read the rest of that frame as the next ones: the frame that follows is
lost too. -/
theorem C45_violated_header : ∃ f, sendPacket 1 28 [1, 2] = .ok f ∧
    ∃ l, readResponse (f.set 0 0 ++ f) = .ok (.error .invalidHeader, l) ∧
      ∃ l', readResponse l = .ok (.error .invalidHeader, l') ∧
        ∃ l'', readResponse l' = .ok (.error .invalidHeader, l'') ∧ readResponse l'' = .ok (.error .timeout, []) :=
  ⟨_, rfl, _, by rfl, _, by rfl, _, by rfl, by rfl⟩

/-- More than 255 bytes of data are announced with a wrong length. -/
theorem C45_limits : ∃ f rest, sendPacket 1 2 (List.replicate 256 0) = .ok f ∧
    readResponse f = .ok (.error .invalidChecksum, rest) := by
  have h : sendPacket 1 2 (List.replicate 256 0) =
      .ok ([0x55, 0x55, 1, 3, 2] ++ List.replicate 256 0 ++ [249]) := by decide +kernel
  exact ⟨_, List.replicate 255 0 ++ [249], h, by decide +kernel⟩

/-- The frame asking servo 1 for its position, as in the documentation of the bus; and one with an altered
byte. -/
example : sendPacket 1 28 [] = .ok [0x55, 0x55, 1, 3, 28, 0xDF] ∧
    ∃ f, sendPacket 1 28 [4, 1] = .ok f ∧ ∃ h : 5 < f.length, f[5] ≠ 9 := ⟨by decide, _, rfl, by decide, by decide⟩

end Servo
end Verif
