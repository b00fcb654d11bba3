import Verif.Spec.Msp
/-! Lemmas on the MSP parser. -/
namespace Verif
namespace Msp

/-! ### Checksums -/

/-- Inverse of `crcBit`. -/
def crcUnbit (c : BitVec 8) : BitVec 8 := if c.getLsbD 0 then ((c ^^^ 0xD5#8) >>> 1) ||| 0x80#8 else c >>> 1

theorem crcUnbit_crcBit : ∀ c : BitVec 8, crcUnbit (crcBit c) = c := by decide +kernel

theorem crcBit_inj {a b : BitVec 8} (h : crcBit a = crcBit b) : a = b := by
  rw [← crcUnbit_crcBit a, h, crcUnbit_crcBit]

theorem xor_left_inj {a b c : UInt8} (h : c ^^^ a = c ^^^ b) : a = b := by
  have := congrArg (c ^^^ ·) h
  simpa [← UInt8.xor_assoc] using this
theorem xor_right_inj {a b c : UInt8} (h : a ^^^ c = b ^^^ c) : a = b := by
  rw [UInt8.xor_comm a, UInt8.xor_comm b] at h
  exact xor_left_inj h

theorem crcByte_inj {c d a b : UInt8} (h : crcByte c a = crcByte d b) : c ^^^ a = d ^^^ b := by
  unfold crcByte at h
  have h := congrArg UInt8.toBitVec h
  simp only at h
  have := crcBit_inj (crcBit_inj (crcBit_inj (crcBit_inj (crcBit_inj (crcBit_inj (crcBit_inj (crcBit_inj h)))))))
  exact UInt8.toBitVec_inj.mp this

/-- A checksum by bytes, each step one to one in the previous checksum and in the byte. -/
structure Sharp (f : UInt8 → UInt8 → UInt8) : Prop where
  left : ∀ {c d b}, f c b = f d b → c = d
  right : ∀ {c a b}, f c a = f c b → a = b

theorem sharp_xor : Sharp (· ^^^ ·) := ⟨xor_right_inj, xor_left_inj⟩
theorem sharp_crc : Sharp crcByte := ⟨fun h => xor_right_inj (crcByte_inj h), fun h => xor_left_inj (crcByte_inj h)⟩

theorem Sharp.foldl_inj {f : UInt8 → UInt8 → UInt8} (hf : Sharp f) (bs : Bytes) {c d : UInt8}
    (h : bs.foldl f c = bs.foldl f d) : c = d := by
  induction bs generalizing c d with
  | nil => exact h
  | cons b bs ih => exact hf.left (ih h)

/-- One byte changed changes the checksum. -/
theorem Sharp.foldl_set {f : UInt8 → UInt8 → UInt8} (hf : Sharp f) {bs : Bytes} {i : Nat} {b : UInt8} {c : UInt8}
    (hi : i < bs.length) (hb : bs[i] ≠ b) : (bs.set i b).foldl f c ≠ bs.foldl f c := by
  induction bs generalizing i c with
  | nil => simp at hi
  | cons a bs ih =>
    cases i with
    | zero =>
      intro h
      simp only [List.set_cons_zero, List.foldl_cons] at h
      exact hb (hf.right (hf.foldl_inj bs h)).symm
    | succ i =>
      simp only [List.set_cons_succ, List.foldl_cons]
      exact ih (by simpa using hi) (by simpa using hb)

/-! ### Feeding -/

theorem feed_append {p p1 p2 : Parser} {a b : Bytes} {r1 r2 : List (Except Err Packet)}
    (h1 : p.feed a = .ok (p1, r1)) (h2 : p1.feed b = .ok (p2, r2)) : p.feed (a ++ b) = .ok (p2, r1 ++ r2) := by
  induction a generalizing p r1 with
  | nil =>
    simp only [Parser.feed, Rs.ok.injEq, Prod.mk.injEq] at h1
    obtain ⟨rfl, rfl⟩ := h1
    exact h2
  | cons x a ih =>
    simp only [Parser.feed] at h1
    split at h1
    · simp at h1
    · rename_i q r hq
      split at h1
      · simp at h1
      · rename_i q2 rs hq2
        simp only [Rs.ok.injEq, Prod.mk.injEq] at h1
        obtain ⟨rfl, rfl⟩ := h1
        simp only [List.cons_append, Parser.feed, hq]
        rw [ih hq2]
        simp only [Rs.ok.injEq, Prod.mk.injEq, true_and]
        split <;> simp

/-- What holds in each state. -/
def Good (p : Parser) : Prop :=
  match p.state with
  | .header1 => p = { Parser.new with version := p.version }
  | .header2 => p = { Parser.new with version := p.version, state := .header2 }
  | .direction => p = { Parser.new with version := p.version, state := .direction }
  | .commandV2 => p.data.length < 2
  | .dataLengthV2 => p.data.length < 2
  | .data => 0 < p.remaining
  | .dataV2 => 0 < p.remaining
  | _ => True

theorem good_reset (p : Parser) : Good p.reset := rfl

theorem fromLe_ok {d : Bytes} (h : d.length = 2) : ∃ n, fromLe d = .ok n := by
  match d, h with
  | [a, b], _ => exact ⟨_, rfl⟩

/-- Parsing a byte never panics, and keeps the parser good; an error or a packet leaves it reset. -/
theorem good_parse {p : Parser} (hg : Good p) (b : UInt8) :
    ∃ p' r, p.parse b = .ok (p', r) ∧ Good p' ∧ (r ≠ .ok none → p'.state = .header1) := by
  obtain ⟨st, v, dir, cmd, rem, data, crc, crc2⟩ := p
  cases st with
  | header1 =>
    unfold Parser.parse
    simp only
    split
    · refine ⟨_, _, rfl, ?_, by simp⟩
      simp only [Good, Parser.new, Parser.mk.injEq] at hg ⊢
      simp [hg]
    · exact ⟨_, _, rfl, good_reset _, by simp⟩
  | header2 =>
    unfold Parser.parse
    simp only
    split
    · refine ⟨_, _, rfl, ?_, by simp⟩
      simp only [Good, Parser.new, Parser.mk.injEq] at hg ⊢
      simp [hg]
    · split
      · refine ⟨_, _, rfl, ?_, by simp⟩
        simp only [Good, Parser.new, Parser.mk.injEq] at hg ⊢
        simp [hg]
      · exact ⟨_, _, rfl, good_reset _, fun _ => rfl⟩
  | direction =>
    unfold Parser.parse
    simp only
    cases v <;> (simp only; split; · exact ⟨_, _, rfl, trivial, by simp⟩
                 split; · exact ⟨_, _, rfl, trivial, by simp⟩
                 split; · exact ⟨_, _, rfl, trivial, by simp⟩
                 exact ⟨_, _, rfl, good_reset _, fun _ => rfl⟩)
  | flagV2 => exact ⟨_, _, rfl, by simp [Good], by simp⟩
  | dataLength => exact ⟨_, _, rfl, trivial, by simp⟩
  | commandV2 =>
    unfold Parser.parse
    simp only
    split
    · rename_i h
      obtain ⟨n, hn⟩ := fromLe_ok h
      rw [hn]
      exact ⟨_, _, rfl, by simp [Good], by simp⟩
    · rename_i h
      refine ⟨_, _, rfl, ?_, by simp⟩
      simp only [Good] at hg ⊢
      simp at h ⊢
      omega
  | dataLengthV2 =>
    unfold Parser.parse
    simp only
    split
    · rename_i h
      obtain ⟨n, hn⟩ := fromLe_ok h
      rw [hn]
      refine ⟨_, _, rfl, ?_, by simp⟩
      by_cases h0 : n.toNat = 0
      · simp [Good, h0]
      · simp only [Good, if_neg h0]; omega
    · rename_i h
      refine ⟨_, _, rfl, ?_, by simp⟩
      simp only [Good] at hg ⊢
      simp at h ⊢
      omega
  | dataV2 =>
    have hg : 0 < rem := hg
    unfold Parser.parse
    simp only
    rw [if_neg (by omega)]
    refine ⟨_, _, rfl, ?_, by simp⟩
    by_cases h : rem - 1 = 0
    · simp [Good, h]
    · simp only [Good, if_neg h]; omega
  | data =>
    have hg : 0 < rem := hg
    unfold Parser.parse
    simp only
    rw [if_neg (by omega)]
    refine ⟨_, _, rfl, ?_, by simp⟩
    by_cases h : rem - 1 = 0
    · simp [Good, h]
    · simp only [Good, if_neg h]; omega
  | command =>
    refine ⟨_, _, rfl, ?_, by simp⟩
    by_cases h : rem = 0
    · simp [Good, h]
    · simp only [Good, if_neg h]; omega
  | crc =>
    unfold Parser.parse
    simp only
    cases v <;> (simp only; split <;> exact ⟨_, _, rfl, good_reset _, fun _ => rfl⟩)

theorem Reach.good {p : Parser} (h : Reach p) : Good p := by
  induction h with
  | new => rfl
  | @parse p p' b r _ hp ih =>
    obtain ⟨p1, r1, h1, hg, _⟩ := good_parse ih b
    rw [h1] at hp
    simp only [Rs.ok.injEq, Prod.mk.injEq] at hp
    exact hp.1 ▸ hg
  | @reset p _ _ => exact good_reset p

theorem good_feed {p : Parser} (hg : Good p) (bs : Bytes) : ∃ p' rs, p.feed bs = .ok (p', rs) ∧ Good p' := by
  induction bs generalizing p with
  | nil => exact ⟨p, [], rfl, hg⟩
  | cons b bs ih =>
    obtain ⟨p1, r, h1, hg1, _⟩ := good_parse hg b
    obtain ⟨p2, rs, h2, hg2⟩ := ih hg1
    simp only [Parser.feed, h1, h2]
    exact ⟨p2, _, rfl, hg2⟩

/-- The parser between two packets. -/
def idle (v : Version) : Parser := { Parser.new with version := v }

theorem Good.idle {p : Parser} (h : Good p) (hs : p.state = .header1) : p = Msp.idle p.version := by
  unfold Good at h
  rw [hs] at h
  exact h

theorem feed_garbage {v : Version} {g : Bytes} (h : 36 ∉ g) : (idle v).feed g = .ok (idle v, []) := by
  induction g with
  | nil => rfl
  | cons b g ih =>
    simp only [List.mem_cons, not_or] at h
    have : (idle v).parse b = .ok (idle v, .ok none) := by
      unfold Parser.parse
      simp only [idle, Parser.new]
      rw [if_neg (Ne.symm h.1)]
      rfl
    simp only [Parser.feed, this]
    rw [ih h.2]

/-- A parser that waits for the marker behaves as a new one. -/
theorem feed_idle (v w : Version) (bs : Bytes) :
    ∃ r pv pw, (idle v).feed bs = .ok (pv, r) ∧ (idle w).feed bs = .ok (pw, r) ∧ (pv = pw ∨
      { pv with version := w } = { pw with version := w }) := by
  have h2 : ∀ bs : Bytes, ∃ r pv pw, ({ idle v with state := .header2 } : Parser).feed bs = .ok (pv, r) ∧
      ({ idle w with state := .header2 } : Parser).feed bs = .ok (pw, r) ∧ (pv = pw ∨
      { pv with version := w } = { pw with version := w }) ∨ (∃ b c, bs = b :: c ∧ b ≠ 77 ∧ b ≠ 88) := by
    intro bs
    cases bs with
    | nil => exact ⟨[], _, _, .inl ⟨rfl, rfl, .inr rfl⟩⟩
    | cons b bs =>
      by_cases h1 : b = 77
      · subst h1
        obtain ⟨p', rs, h, _⟩ := good_feed (p := { idle v with state := .direction, version := .v1 }) rfl bs
        refine ⟨rs, p', p', .inl ⟨?_, ?_, .inl rfl⟩⟩
        · simp only [Parser.feed, Parser.parse, idle, Parser.new] at h ⊢
          simp only [if_true, h]
        · simp only [Parser.feed, Parser.parse, idle, Parser.new] at h ⊢
          simp only [if_true, h]
      · by_cases h2 : b = 88
        · subst h2
          obtain ⟨p', rs, h, _⟩ := good_feed (p := { idle v with state := .direction, version := .v2 }) rfl bs
          refine ⟨rs, p', p', .inl ⟨?_, ?_, .inl rfl⟩⟩
          · simp only [Parser.feed, Parser.parse, idle, Parser.new] at h ⊢
            simp only [if_true, if_neg h1, h]
          · simp only [Parser.feed, Parser.parse, idle, Parser.new] at h ⊢
            simp only [if_true, if_neg h1, h]
        · exact ⟨[], idle v, idle v, .inr ⟨b, bs, rfl, h1, h2⟩⟩
  suffices h : ∀ n, ∀ bs : Bytes, bs.length < n → ∃ r pv pw, (idle v).feed bs = .ok (pv, r) ∧
      (idle w).feed bs = .ok (pw, r) ∧ (pv = pw ∨ { pv with version := w } = { pw with version := w }) from
    h _ bs (Nat.lt_succ_self _)
  intro n
  induction n with
  | zero => intro bs h; omega
  | succ n ih =>
    intro bs hlen
    cases bs with
    | nil => exact ⟨[], _, _, rfl, rfl, .inr rfl⟩
    | cons b bs =>
      by_cases hb : b = 36
      · subst hb
        have step : ∀ u : Version, (idle u).parse 36 = .ok ({ idle u with state := .header2 }, .ok none) :=
          fun u => rfl
        obtain ⟨r, pv, pw, ⟨h1, h2', h3⟩ | ⟨c, cs, rfl, hc1, hc2⟩⟩ := h2 bs
        · refine ⟨r, pv, pw, ?_, ?_, h3⟩
          · simp only [Parser.feed, step, h1]
          · simp only [Parser.feed, step, h2']
        · have step2 : ∀ u : Version, ({ idle u with state := .header2 } : Parser).parse c =
              .ok (idle u, .error .invalidHeader2) := by
            intro u
            unfold Parser.parse
            simp only [idle, Parser.new]
            rw [if_neg hc1, if_neg hc2]
            rfl
          obtain ⟨r, pv, pw, h1, h2', h3⟩ := ih cs (by simp at hlen; omega)
          refine ⟨.error .invalidHeader2 :: r, pv, pw, ?_, ?_, h3⟩
          · simp only [Parser.feed, step, step2, h1]
          · simp only [Parser.feed, step, step2, h2']
      · have step : ∀ u : Version, (idle u).parse b = .ok (idle u, .ok none) := by
          intro u
          unfold Parser.parse
          simp only [idle, Parser.new]
          rw [if_neg hb]
          rfl
        obtain ⟨r, pv, pw, h1, h2', h3⟩ := ih bs (by simp at hlen; omega)
        refine ⟨r, pv, pw, ?_, ?_, h3⟩
        · simp only [Parser.feed, step, h1]
        · simp only [Parser.feed, step, h2']

/-! ### Frames -/

theorem feed_data (p : Parser) (d : Bytes) (hs : p.state = .data) (hr : p.remaining = d.length) (hd : d ≠ []) :
    p.feed d = .ok ({ p with state := .crc, remaining := 0, data := p.data ++ d, crc := xorAll p.crc d }, []) := by
  induction d generalizing p with
  | nil => exact absurd rfl hd
  | cons b d ih =>
    obtain ⟨st, v, dir, cmd, rem, data, crc, crc2⟩ := p
    simp only at hs hr
    subst hs
    subst hr
    simp only [Parser.feed, Parser.parse, List.length_cons]
    rw [if_neg (by omega)]
    simp only [Nat.add_sub_cancel]
    cases d with
    | nil => simp [Parser.feed, xorAll]
    | cons c d =>
      simp only [List.length_cons, Nat.add_eq_zero_iff, Nat.one_ne_zero, and_false, if_false]
      rw [ih _ rfl rfl (by simp)]
      simp [xorAll]

theorem feed_dataV2 (p : Parser) (d : Bytes) (hs : p.state = .dataV2) (hr : p.remaining = d.length) (hd : d ≠ []) :
    p.feed d = .ok ({ p with state := .crc, remaining := 0, data := p.data ++ d }, []) := by
  induction d generalizing p with
  | nil => exact absurd rfl hd
  | cons b d ih =>
    obtain ⟨st, v, dir, cmd, rem, data, crc, crc2⟩ := p
    simp only at hs hr
    subst hs
    subst hr
    simp only [Parser.feed, Parser.parse, List.length_cons]
    rw [if_neg (by omega)]
    simp only [Nat.add_sub_cancel]
    cases d with
    | nil => simp [Parser.feed]
    | cons c d =>
      simp only [List.length_cons, Nat.add_eq_zero_iff, Nat.one_ne_zero, and_false, if_false]
      rw [ih _ rfl rfl (by simp)]
      simp

/-- The header of a frame of version 1. -/
theorem feed_head1 (v : Version) (dir : Direction) (n c : UInt8) (d : Bytes) (hn : n.toNat = d.length) :
    (idle v).feed ([36, 77, dir.toByte, n, c] ++ d) =
      .ok (⟨.crc, .v1, dir, c.toUInt16, 0, d, xorAll (n ^^^ c) d, 0⟩, []) := by
  have h1 : (idle v).feed [36, 77, dir.toByte, n, c] =
      .ok (⟨if d.length = 0 then .crc else .data, .v1, dir, c.toUInt16, d.length, [], n ^^^ c, 0⟩, []) := by
    cases dir <;> simp [Parser.feed, Parser.parse, idle, Parser.new, Direction.toByte, hn]
  cases d with
  | nil => simpa [xorAll] using h1
  | cons b d =>
    have h2 := feed_data ⟨.data, .v1, dir, c.toUInt16, (b :: d).length, [], n ^^^ c, 0⟩ (b :: d) rfl rfl (by simp)
    have := feed_append (p1 := ⟨.data, .v1, dir, c.toUInt16, (b :: d).length, [], n ^^^ c, 0⟩)
      (r1 := []) (by rw [h1, if_neg (by simp)]) h2
    simpa using this

/-- The header of a frame of version 2. -/
theorem feed_head2 (v : Version) (dir : Direction) (f c0 c1 n0 n1 : UInt8) (d : Bytes)
    (hn : n0.toNat + 256 * n1.toNat = d.length) :
    (idle v).feed ([36, 88, dir.toByte, f, c0, c1, n0, n1] ++ d) =
      .ok (⟨.crc, .v2, dir, UInt16.ofNat (c0.toNat + 256 * c1.toNat), 0, d, 0,
        digest 0 [f, c0, c1, n0, n1]⟩, []) := by
  have hlt : n0.toNat + 256 * n1.toNat < 65536 := by
    have := n0.toNat_lt
    have := n1.toNat_lt
    omega
  have h1 : (idle v).feed [36, 88, dir.toByte, f, c0, c1, n0, n1] =
      .ok (⟨if d.length = 0 then .crc else .dataV2, .v2, dir, UInt16.ofNat (c0.toNat + 256 * c1.toNat), d.length, [], 0,
        digest 0 [f, c0, c1, n0, n1]⟩, []) := by
    cases dir <;> simp [Parser.feed, Parser.parse, idle, Parser.new, Direction.toByte, fromLe, digest] <;>
      rw [Nat.mod_eq_of_lt hlt, hn] <;> simp
  cases d with
  | nil => simpa using h1
  | cons b d =>
    have h2 := feed_dataV2 ⟨.dataV2, .v2, dir, UInt16.ofNat (c0.toNat + 256 * c1.toNat), (b :: d).length, [], 0,
        digest 0 [f, c0, c1, n0, n1]⟩ (b :: d) rfl rfl (by simp)
    have := feed_append (p1 := ⟨.dataV2, .v2, dir, UInt16.ofNat (c0.toNat + 256 * c1.toNat), (b :: d).length, [], 0,
        digest 0 [f, c0, c1, n0, n1]⟩)
      (r1 := []) (by rw [h1, if_neg (by simp)]) h2
    simpa using this

/-- The end of a frame of version 1. -/
theorem feed_frame1 (v : Version) (dir : Direction) (n c x : UInt8) (d : Bytes) (hn : n.toNat = d.length) :
    (idle v).feed ([36, 77, dir.toByte, n, c] ++ d ++ [x]) =
      .ok (idle .v1, [if x = xorAll (n ^^^ c) d then .ok ⟨c.toUInt16, dir, d⟩
        else .error (.crcMismatch x (xorAll (n ^^^ c) d))]) := by
  refine feed_append (feed_head1 v dir n c d hn) (r1 := []) ?_
  simp only [Parser.feed, Parser.parse]
  by_cases h : x = xorAll (n ^^^ c) d
  · simp only [h, ne_eq, not_true_eq_false, if_false]; rfl
  · simp only [h, ne_eq, not_false_eq_true, if_true]; rfl

/-- The end of a frame of version 2. -/
theorem feed_frame2 (v : Version) (dir : Direction) (f c0 c1 n0 n1 x : UInt8) (d : Bytes)
    (hn : n0.toNat + 256 * n1.toNat = d.length) :
    (idle v).feed ([36, 88, dir.toByte, f, c0, c1, n0, n1] ++ d ++ [x]) =
      .ok (idle .v2, [if x = digest 0 ([f, c0, c1, n0, n1] ++ d) then
          .ok ⟨UInt16.ofNat (c0.toNat + 256 * c1.toNat), dir, d⟩
        else .error (.crcMismatch x (digest 0 ([f, c0, c1, n0, n1] ++ d)))]) := by
  refine feed_append (feed_head2 v dir f c0 c1 n0 n1 d hn) (r1 := []) ?_
  have hd : digest (digest 0 [f, c0, c1, n0, n1]) d = digest 0 ([f, c0, c1, n0, n1] ++ d) := by
    simp [digest]
  simp only [Parser.feed, Parser.parse, hd]
  by_cases h : x = digest 0 ([f, c0, c1, n0, n1] ++ d)
  · simp only [h, ne_eq, not_true_eq_false, if_false]; rfl
  · simp only [h, ne_eq, not_false_eq_true, if_true]; rfl

theorem toUInt8_toUInt16 {c : UInt16} (h : c.toNat < 256) : c.toUInt8.toUInt16 = c := by
  apply UInt16.toNat_inj.mp
  simp
  omega

theorem le_toNat (n : UInt16) : n.toUInt8.toNat + 256 * (n >>> 8).toUInt8.toNat = n.toNat := by
  have := n.toNat_lt
  simp [Nat.shiftRight_eq_div_pow]
  omega

/-- Every frame a program writes is read back. -/
theorem feed_written {v w : Version} {k : Packet} {f : Bytes} (hf : Fits w k) (hw : written w k = .ok f) :
    (idle v).feed f = .ok (idle w, [.ok k]) := by
  obtain ⟨cmd, dir, d⟩ := k
  cases w with
  | v1 =>
    obtain ⟨hc, hl⟩ := hf
    simp only at hc hl
    simp only [written, Packet.serialize, Packet.size, ne_eq, not_true_eq_false, if_false, Except.ok.injEq] at hw
    subst hw
    have hn : (UInt8.ofNat d.length).toNat = d.length := by simp; omega
    have h := feed_frame1 v dir (UInt8.ofNat d.length) cmd.toUInt8
      (xorAll (UInt8.ofNat d.length ^^^ cmd.toUInt8) d) d hn
    rw [if_pos rfl, toUInt8_toUInt16 hc] at h
    exact h
  | v2 =>
    have hl : d.length < 65536 := hf
    simp only [written, Packet.serializeV2, Packet.sizeV2, ne_eq, not_true_eq_false, if_false, Except.ok.injEq] at hw
    subst hw
    have hn : (UInt16.ofNat d.length).toUInt8.toNat + 256 * (UInt16.ofNat d.length >>> 8).toUInt8.toNat = d.length := by
      rw [le_toNat]
      simp; omega
    have h := feed_frame2 v dir 0 cmd.toUInt8 (cmd >>> 8).toUInt8 (UInt16.ofNat d.length).toUInt8
      (UInt16.ofNat d.length >>> 8).toUInt8 (digest 0 ([0, cmd.toUInt8, (cmd >>> 8).toUInt8,
        (UInt16.ofNat d.length).toUInt8, (UInt16.ofNat d.length >>> 8).toUInt8] ++ d)) d hn
    rw [if_pos rfl, le_toNat] at h
    simpa [toLe] using h

theorem feed_stream {ks : List Packet} {bs : Bytes} (h : Stream ks bs) (v : Version) :
    ∃ w, (idle v).feed bs = .ok (idle w, ks.map .ok) := by
  induction h generalizing v with
  | nil hg => exact ⟨v, feed_garbage hg⟩
  | @cons g f bs w k ks hg hf hw _ ih =>
    obtain ⟨u, hu⟩ := ih w
    exact ⟨u, feed_append (feed_append (feed_garbage hg) (feed_written hf hw)) hu⟩

theorem set_last {l : Bytes} {x b : UInt8} {i : Nat} (h : i = l.length) : (l ++ [x]).set i b = l ++ [b] := by
  subst h
  simp
theorem get_last {l : Bytes} {x : UInt8} {i : Nat} (h : i = l.length) (hi : i < (l ++ [x]).length) :
    (l ++ [x])[i] = x := by
  subst h
  simp
/-- A byte altered outside the length. -/
theorem feed_altered {v w : Version} {k : Packet} {f : Bytes} (hf : Fits w k) (hw : written w k = .ok f)
    {i : Nat} (hi : i < f.length) (h3 : Checksummed w i) (hl : ¬ LengthField w i) {b : UInt8} (hb : f[i] ≠ b) :
    ∃ x y, (idle v).feed (f.set i b) = .ok (idle w, [.error (.crcMismatch x y)]) := by
  obtain ⟨cmd, dir, d⟩ := k
  cases w with
  | v1 =>
    obtain ⟨hc, hlen⟩ := hf
    simp only at hc hlen
    have h3 : 3 ≤ i := h3
    have hl : i ≠ 3 := hl
    simp only [written, Packet.serialize, Packet.size, ne_eq, not_true_eq_false, if_false, Except.ok.injEq] at hw
    subst hw
    have hn : (UInt8.ofNat d.length).toNat = d.length := by simp; omega
    generalize UInt8.ofNat d.length = n at *
    generalize cmd.toUInt8 = c at *
    simp at hi
    by_cases h4 : i = 4
    · subst h4
      have hb' : c ≠ b := by simpa using hb
      have e : ([36, 77, dir.toByte, n, c] ++ d ++ [xorAll (n ^^^ c) d]).set 4 b =
          [36, 77, dir.toByte, n, b] ++ d ++ [xorAll (n ^^^ c) d] := by simp
      rw [e, feed_frame1 v dir n b _ d hn, if_neg]
      · exact ⟨_, _, rfl⟩
      · intro h
        exact hb' (xor_left_inj (sharp_xor.foldl_inj d h))
    · by_cases h5 : i = 5 + d.length
      · have e : ([36, 77, dir.toByte, n, c] ++ d ++ [xorAll (n ^^^ c) d]).set i b =
            [36, 77, dir.toByte, n, c] ++ d ++ [b] := by
          exact set_last (by simp; omega)
        have hb' : xorAll (n ^^^ c) d ≠ b := by
          rw [get_last (by simp; omega)] at hb
          exact hb
        rw [e, feed_frame1 v dir n c _ d hn, if_neg (Ne.symm hb')]
        exact ⟨_, _, rfl⟩
      · obtain ⟨j, rfl⟩ : ∃ j, i = 5 + j := ⟨i - 5, by omega⟩
        have hj : j < d.length := by omega
        have e : ([36, 77, dir.toByte, n, c] ++ d ++ [xorAll (n ^^^ c) d]).set (5 + j) b =
            [36, 77, dir.toByte, n, c] ++ d.set j b ++ [xorAll (n ^^^ c) d] := by
          rw [List.set_append_left _ _ (by simp; omega), List.set_append_right _ _ (by simp)]
          simp
        have hb' : d[j] ≠ b := by
          rw [List.getElem_append_left (by simp; omega), List.getElem_append_right (by simp)] at hb
          simpa using hb
        rw [e, feed_frame1 v dir n c _ _ (by simpa using hn), if_neg]
        · exact ⟨_, _, rfl⟩
        · exact fun h => sharp_xor.foldl_set hj hb' h.symm
  | v2 =>
    have hlen : d.length < 65536 := hf
    have h3 : 3 ≤ i := h3
    have hl : ¬ (i = 6 ∨ i = 7) := hl
    simp only [written, Packet.serializeV2, Packet.sizeV2, ne_eq, not_true_eq_false, if_false, Except.ok.injEq] at hw
    have hn : (UInt16.ofNat d.length).toUInt8.toNat + 256 * (UInt16.ofNat d.length >>> 8).toUInt8.toNat = d.length := by
      rw [le_toNat]
      simp; omega
    simp only [toLe] at hw
    generalize (UInt16.ofNat d.length).toUInt8 = n0 at *
    generalize (UInt16.ofNat d.length >>> 8).toUInt8 = n1 at *
    generalize cmd.toUInt8 = c0 at *
    generalize (cmd >>> 8).toUInt8 = c1 at *
    have hw : [36, 88, dir.toByte] ++ ([0, c0, c1, n0, n1] ++ d) ++ [digest 0 ([0, c0, c1, n0, n1] ++ d)] = f := by
      simpa using hw
    subst hw
    simp at hi
    have sharp : ∀ j (_ : j < ([0, c0, c1, n0, n1] ++ d).length),
        ([0, c0, c1, n0, n1] ++ d)[j] ≠ b →
        digest 0 ([0, c0, c1, n0, n1] ++ d) ≠ digest 0 (([0, c0, c1, n0, n1] ++ d).set j b) :=
      fun j hj h e => sharp_crc.foldl_set hj h e.symm
    by_cases h5 : i = 8 + d.length
    · have e : ([36, 88, dir.toByte] ++ ([0, c0, c1, n0, n1] ++ d) ++ [digest 0 ([0, c0, c1, n0, n1] ++ d)]).set i b =
          [36, 88, dir.toByte, 0, c0, c1, n0, n1] ++ d ++ [b] := by
        rw [set_last (by simp; omega)]
        simp
      have hb' : digest 0 ([0, c0, c1, n0, n1] ++ d) ≠ b := by
        rw [get_last (by simp; omega)] at hb
        exact hb
      rw [e, feed_frame2 v dir 0 c0 c1 n0 n1 b d hn, if_neg (Ne.symm hb')]
      exact ⟨_, _, rfl⟩
    · obtain ⟨j, rfl⟩ : ∃ j, i = 3 + j := ⟨i - 3, by omega⟩
      have hj : j < ([0, c0, c1, n0, n1] ++ d).length := by simp; omega
      have hb' : ([0, c0, c1, n0, n1] ++ d)[j] ≠ b := by
        rw [List.getElem_append_left (by simp; omega), List.getElem_append_right (by simp)] at hb
        simpa using hb
      have hs := sharp j hj hb'
      have e : ([36, 88, dir.toByte] ++ ([0, c0, c1, n0, n1] ++ d) ++ [digest 0 ([0, c0, c1, n0, n1] ++ d)]).set (3 + j) b =
          [36, 88, dir.toByte] ++ ([0, c0, c1, n0, n1] ++ d).set j b ++ [digest 0 ([0, c0, c1, n0, n1] ++ d)] := by
        rw [List.set_append_left _ _ (by simp; omega), List.set_append_right _ _ (by simp)]
        simp
      rw [e]
      generalize digest 0 ([0, c0, c1, n0, n1] ++ d) = x at *
      match j, hl, hs, hj with
      | 0, _, hs, _ =>
        have := feed_frame2 v dir b c0 c1 n0 n1 x d hn
        rw [if_neg (by simpa using hs)] at this
        exact ⟨_, _, by simpa using this⟩
      | 1, _, hs, _ =>
        have := feed_frame2 v dir 0 b c1 n0 n1 x d hn
        rw [if_neg (by simpa using hs)] at this
        exact ⟨_, _, by simpa using this⟩
      | 2, _, hs, _ =>
        have := feed_frame2 v dir 0 c0 b n0 n1 x d hn
        rw [if_neg (by simpa using hs)] at this
        exact ⟨_, _, by simpa using this⟩
      | 3, hl, _, _ => simp at hl
      | 4, hl, _, _ => simp at hl
      | j + 5, _, hs, _ =>
        have := feed_frame2 v dir 0 c0 c1 n0 n1 x (d.set j b) (by simpa using hn)
        rw [if_neg (by simpa using hs)] at this
        exact ⟨_, _, by simpa using this⟩

end Msp
end Verif
