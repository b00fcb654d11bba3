import Verif.Proofs.Msp
/-! C43: MSP packets round trip.  C44: corruption is detected and recovered from. -/
namespace Verif
namespace Msp
deriving instance DecidableEq for Except

/-- Whatever happened before, a parser between two packets fed a stream of frames, of any versions, with
anything without a start marker between them, gives exactly the packets in order, and no error. -/
theorem C43_stream {p : Parser} (hp : Reach p) (hb : p.betweenPackets = true) {ks : List Packet} {bs : Bytes}
    (hs : Stream ks bs) :
    ∃ p', p.feed bs = .ok (p', ks.map .ok) ∧ p'.betweenPackets = true := by
  have hst : p.state = .header1 := by simpa [Parser.betweenPackets] using hb
  obtain ⟨w, hw⟩ := feed_stream hs p.version
  rw [← hp.good.idle hst] at hw
  exact ⟨_, hw, rfl⟩

/-- Writing a packet succeeds exactly for a buffer of the advertised size, and fills it. -/
theorem C43_size (k : Packet) (l : Nat) :
    (l = k.size → ∃ f, k.serialize l = .ok f ∧ f.length = l) ∧
    (l ≠ k.size → k.serialize l = .error .outputBufferSizeMismatch) ∧
    (l = k.sizeV2 → ∃ f, k.serializeV2 l = .ok f ∧ f.length = l) ∧
    (l ≠ k.sizeV2 → k.serializeV2 l = .error .outputBufferSizeMismatch) := by
  refine ⟨fun h => ?_, fun h => by simp [Packet.serialize, h], fun h => ?_, fun h => by simp [Packet.serializeV2, h]⟩
  · subst h
    refine ⟨_, if_neg (by simp), ?_⟩
    simp [Packet.size]; omega
  · subst h
    refine ⟨_, if_neg (by simp), ?_⟩
    simp [Packet.sizeV2, toLe]; omega

/-- No stream of bytes makes the parser panic. -/
theorem C43_no_panic {p : Parser} (hp : Reach p) (bs : Bytes) : ∃ r, p.feed bs = .ok r := by
  obtain ⟨p', rs, h, _⟩ := good_feed hp.good bs
  exact ⟨_, h⟩

/-- Two frames, one of each version, with noise, after a broken frame. -/
example : ∃ (p : Parser) (f1 f2 : Bytes), Reach p ∧ p.betweenPackets = true ∧
    written .v1 ⟨101, .fromFlightController, [1, 2, 3]⟩ = .ok f1 ∧
    written .v2 ⟨4242, .toFlightController, []⟩ = .ok f2 ∧
    Stream [⟨101, .fromFlightController, [1, 2, 3]⟩, ⟨4242, .toFlightController, []⟩]
      ([7, 8] ++ f1 ++ ([9] ++ f2 ++ [1])) ∧
    f2.length = 9 := by
  refine ⟨_, _, _, ((Reach.new.parse (b := 36) rfl).parse (b := 5) rfl), rfl, rfl, rfl, ?_, rfl⟩
  exact .cons (by decide) (v := .v1) ⟨by decide, by decide⟩ rfl
    (.cons (by decide) (v := .v2) (by simp [Fits]) rfl (.nil (by decide)))

/-- Outside the limits version 1 silently writes another packet. -/
theorem C43_limits : ∃ f : Bytes, written .v1 ⟨258, .toFlightController, [5]⟩ = .ok f ∧
    ∃ p', Parser.new.feed f = .ok (p', [.ok ⟨2, .toFlightController, [5]⟩]) :=
  ⟨_, rfl, _, by rfl⟩

/-- A stray start marker just before a frame loses the frame. -/
theorem C43_marker : ∃ f : Bytes, written .v1 ⟨2, .toFlightController, []⟩ = .ok f ∧
    ∃ p', Parser.new.feed ([36] ++ f) = .ok (p', [.error .invalidHeader2]) :=
  ⟨_, rfl, _, by rfl⟩

/-- A frame in which one byte of the checksummed part other than the length was altered gives an error
and no packet; the frames that follow are parsed normally. -/
theorem C44_altered_partial {p : Parser} (hp : Reach p) (hb : p.betweenPackets = true) {v : Version}
    {k : Packet} (hk : Fits v k) {f : Bytes} (hf : written v k = .ok f) {i : Nat} (hi : i < f.length)
    (hc : Checksummed v i) (hl : ¬ LengthField v i) {b : UInt8} (hne : f[i] ≠ b)
    {ks : List Packet} {bs : Bytes} (hs : Stream ks bs) :
    ∃ x y p', p.feed (f.set i b ++ bs) = .ok (p', .error (.crcMismatch x y) :: ks.map .ok) ∧
      p'.betweenPackets = true := by
  have hst : p.state = .header1 := by simpa [Parser.betweenPackets] using hb
  obtain ⟨x, y, h⟩ := feed_altered (v := p.version) hk hf hi hc hl hne
  obtain ⟨w, hw⟩ := feed_stream hs v
  have := feed_append h hw
  rw [← hp.good.idle hst] at this
  exact ⟨x, y, _, this, rfl⟩

/-- After any error, in any history, the parser gives for any bytes what a new parser gives. -/
theorem C44_recovers {p p' : Parser} (hp : Reach p) {b : UInt8} {e : Err} (h : p.parse b = .ok (p', .error e))
    (bs : Bytes) :
    p'.betweenPackets = true ∧
    ∃ q q' r, p'.feed bs = .ok (q, r) ∧ Parser.new.feed bs = .ok (q', r) := by
  obtain ⟨p1, r1, h1, hg, hs⟩ := good_parse hp.good b
  rw [h] at h1
  simp only [Rs.ok.injEq, Prod.mk.injEq] at h1
  obtain ⟨rfl, rfl⟩ := h1
  have hs := hs (by simp)
  have hi := hg.idle hs
  refine ⟨by simp [Parser.betweenPackets, hs], ?_⟩
  rw [hi]
  obtain ⟨r, pv, pw, h1, h2, _⟩ := feed_idle p'.version .v1 bs
  exact ⟨pv, pw, r, h1, h2⟩

/-- An altered length can deliver a packet that was never sent, in both versions. -/
theorem C44_violated_length :
    (∃ f : Bytes, written .v1 ⟨1, .toFlightController, [0, 0]⟩ = .ok f ∧
      ∃ p', Parser.new.feed (f.set 3 1) = .ok (p', [.ok ⟨1, .toFlightController, [0]⟩])) ∧
    (∃ f : Bytes, written .v2 ⟨1, .toFlightController, [69]⟩ = .ok f ∧
      ∃ p', Parser.new.feed (f.set 6 0) = .ok (p', [.ok ⟨1, .toFlightController, []⟩])) :=
  ⟨⟨_, rfl, idle .v1, by decide +kernel⟩, ⟨_, rfl, idle .v2, by decide +kernel⟩⟩

/-- The middle byte of the data of a frame altered. -/
example : ∃ f : Bytes, written .v2 ⟨300, .fromFlightController, [1, 2, 3]⟩ = .ok f ∧ f.length = 12 ∧
    (∃ h : 9 < f.length, f[9] ≠ 7) ∧ Checksummed .v2 9 ∧ ¬ LengthField .v2 9 ∧
    (Parser.new.feed (f.set 9 7 ++ f)).map' (·.2) =
      .ok [.error (.crcMismatch 116 83), .ok ⟨300, .fromFlightController, [1, 2, 3]⟩] := by
  refine ⟨_, rfl, rfl, ⟨by decide, by decide⟩, by simp [Checksummed], by simp [LengthField], by decide +kernel⟩

/-- The published check value of this checksum, for the text 123456789. -/
example : digest 0 [49, 50, 51, 52, 53, 54, 55, 56, 57] = 0xBC := by decide +kernel

end Msp
end Verif
