import Verif.Proofs.MspResponses
/-!
C66: responses of a flight controller are what their command says.
-/
namespace Verif
namespace Msp
variable {S : RespKind → Type}

/-- A packet whose command answers a structure, with at least the bytes of the structure, is decoded to
that structure; the response reports the command of the packet. -/
theorem C66_decodes (P : Packing S) (hP : P.Proper) (k : RespKind) (hk : ¬ Shadowed k) (s : S k)
    (dir : Direction) (b extra : Bytes) (hb : P.pack k s = some b) :
    ofPacket P ⟨UInt16.ofNat k.code, dir, b ++ extra⟩ = .ok (.struct k s) ∧
    (MspResponse.struct k s).code = (UInt16.ofNat k.code).toNat := by
  obtain ⟨b', hb', hl, _, hu⟩ := hP k s
  rw [hb] at hb'
  cases hb'
  have h1 : (UInt16.ofNat k.code).toNat = k.code := by
    rw [UInt16.toNat_ofNat']
    exact Nat.mod_eq_of_lt (code_known k).2
  refine ⟨?_, h1.symm⟩
  unfold ofPacket
  simp only [h1, (code_known k).1, if_true, (code_kindOf k).2 hk]
  unfold decodeAs
  rw [if_neg (by simp; omega), ← hl, List.take_left, hu]
  rfl

/-- Whatever the packet, a structure that is decoded from it is of the kind of its command, and no two
commands give the same kind. -/
theorem C66_command (P : Packing S) (p : Packet) (k : RespKind) (s : S k) (h : ofPacket P p = .ok (.struct k s)) :
    (MspResponse.struct k s).code = p.cmd.toNat ∧ P.unpack k (p.data.take (P.size k)) = some s ∧
    P.size k ≤ p.data.length := by
  unfold ofPacket at h
  by_cases hc : codes.contains p.cmd.toNat
  · simp only [hc, if_true] at h
    cases hk : kindOf p.cmd.toNat with
    | none => simp [hk] at h
    | some k' =>
      simp only [hk] at h
      unfold decodeAs at h
      by_cases hl : p.data.length < P.size k'
      · simp [hl, Rs.map'] at h
      · simp only [hl, if_false] at h
        cases hu : P.unpack k' (p.data.take (P.size k')) with
        | none => simp [hu, Rs.map'] at h
        | some s' =>
          simp only [hu, Rs.ofOption_some, Rs.map', Rs.ok.injEq, MspResponse.struct.injEq] at h
          obtain ⟨rfl, hs⟩ := h
          cases hs
          exact ⟨kindOf_code hk, hu, by omega⟩
  · have : codes.contains p.cmd.toNat = false := by simpa using hc
    have hm : p.cmd.toNat ∉ codes := by simpa using this
    simp [hm] at h

/-- The conversion of a packet panics exactly on a command that is not in the list, on too few bytes for
its structure, and on bytes that are no such structure: any packet of a working flight controller that
this list does not have stops the task. -/
theorem C66_panics_partial (P : Packing S) (p : Packet) :
    ofPacket P p = .panic ↔
      p.cmd.toNat ∉ codes ∨ ∃ k, kindOf p.cmd.toNat = some k ∧
        (p.data.length < P.size k ∨ P.unpack k (p.data.take (P.size k)) = none) := by
  unfold ofPacket decodeAs
  by_cases hc : p.cmd.toNat ∈ codes
  · have : codes.contains p.cmd.toNat = true := by simpa using hc
    simp only [this, if_true, hc, not_true, false_or]
    cases hk : kindOf p.cmd.toNat with
    | none => simp
    | some k =>
      by_cases hl : p.data.length < P.size k
      · simp [hl, Rs.map']
      · cases hu : P.unpack k (p.data.take (P.size k)) <;> simp [hl, hu, Rs.map']
  · have : codes.contains p.cmd.toNat = false := by simpa using hc
    simp only [this, hc, not_false_eq_true, true_or, iff_true]
    rfl

/-- Negation: no response at all can be made into a packet: `From<MspResponse> for MspPacket` always
panics, as the structure is packed into an empty buffer. -/
theorem C66_to_packet_violated (P : Packing S) (hP : P.Proper) (r : MspResponse S) : r.toPacket P = .panic := by
  unfold MspResponse.toPacket
  cases r with
  | unknown => rfl
  | struct k s =>
    obtain ⟨b, hb, hl, h0, _⟩ := hP k s
    simp only [MspResponse.toBytes, packToSlice, hb, List.length_nil]
    rw [if_neg (by omega)]

/-- Negation: two kinds of responses report commands whose packets are decoded as another kind. -/
theorem C66_shadowed_violated :
    kindOf RespKind.dataFlashRead.code = some .dataFlashReply ∧
    kindOf RespKind.setGetOsdConfig.code = some .osdConfig := by decide

/-- Structures that are their own bytes, of length 3. -/
def demoPacking : Packing fun _ => UInt8 × UInt8 × UInt8 where
  size _ := 3
  unpack _ b := match b with
    | [x, y, z] => some (x, y, z)
    | _ => none
  pack _ s := some [s.1, s.2.1, s.2.2]

example : demoPacking.Proper := fun _ _ => ⟨_, rfl, rfl, Nat.succ_pos 2, rfl⟩
example : ∃ s, ofPacket demoPacking ⟨108, .fromFlightController, [1, 2, 3, 4]⟩ = .ok (.struct .attitude s) := ⟨_, rfl⟩
example : ¬ Shadowed .attitude := by simp [Shadowed]

/-- The table of the task that reads responses (C55), from these structures. -/
def tableOf (P : Packing S) (c : UInt16) : Kind :=
  if codes.contains c.toNat then
    match kindOf c.toNat with
    | none => .other
    | some k => .sized (P.size k)
  else .invalid

/-- The task that reads responses (C55) converts packets as this model does, up to the fields of the
structures. -/
theorem C66_task (P : Packing S) (hu : ∀ k b, b.length = P.size k → (P.unpack k b).isSome) (p : Packet) :
    respond (tableOf P) p = match ofPacket P p with
      | .panic => .panic
      | .ok .unknown => .ok .unknown
      | .ok (.struct k _) => .ok (.sized p.cmd (p.data.take (P.size k))) := by
  unfold respond tableOf ofPacket decodeAs
  by_cases hc : codes.contains p.cmd.toNat
  · simp only [hc, if_true]
    cases hk : kindOf p.cmd.toNat with
    | none => rfl
    | some k =>
      simp only
      by_cases hl : p.data.length < P.size k
      · simp [hl, Rs.map']
      · have := hu k (p.data.take (P.size k)) (by simp; omega)
        obtain ⟨s, hs⟩ := Option.isSome_iff_exists.1 this
        simp [hl, hs, Rs.map']
  · have : codes.contains p.cmd.toNat = false := by simpa using hc
    have hm : p.cmd.toNat ∉ codes := by simpa using this
    simp [hm]

end Msp
end Verif
