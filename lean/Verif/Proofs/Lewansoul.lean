import Verif.Model.Lewansoul
/-! Lemmas on the frames of the servo bus. -/
namespace Verif
namespace Servo

def frame (id l command : UInt8) (data : Bytes) (c : UInt8) : Bytes := [0x55, 0x55, id, l, command] ++ data ++ [c]

theorem len_toNat {n : Nat} (h : n ≤ 252) : (UInt8.ofNat n + 3).toNat = n + 3 := by
  simp [UInt8.toNat_add]
  omega

theorem send_eq (id command : UInt8) {data : Bytes} (hd : data.length ≤ 252) :
    sendPacket id command data =
      .ok (frame id (UInt8.ofNat data.length + 3) command data
        (checksum ([id, UInt8.ofNat data.length + 3, command] ++ data))) := by
  unfold sendPacket
  rw [if_neg (by simp; omega)]
  simp [frame]

theorem read_frame {l : UInt8} (id command : UInt8) (data : Bytes) (c : UInt8) (rest : Bytes)
    (hl : l.toNat = data.length + 3) :
    readResponse (frame id l command data c ++ rest) =
      if checksum ([id, l, command] ++ data) ≠ c then .ok (.error .invalidChecksum, rest)
      else .ok (.ok (id, command, data), rest) := by
  have h1 : readExact 5 (frame id l command data c ++ rest) =
      some ([0x55, 0x55, id, l, command], data ++ [c] ++ rest) := by
    unfold readExact
    rw [if_neg (by simp [frame])]
    simp [frame]
  have h2 : readExact (l.toNat - 2) (data ++ [c] ++ rest) = some (data ++ [c], rest) := by
    unfold readExact
    rw [if_neg (by simp; omega)]
    have e : l.toNat - 2 = (data ++ [c]).length := by simp; omega
    rw [e, List.take_left, List.drop_left]
  unfold readResponse
  simp only [h1, h2]
  rw [if_neg (by simp), if_neg (by omega)]
  simp

theorem sum_append (a b : Bytes) (x : UInt8) : (a ++ b).foldl (· + ·) x = b.foldl (· + ·) (a.foldl (· + ·) x) := by
  simp

theorem sum_start (a : Bytes) (x : UInt8) : a.foldl (· + ·) x = x + a.foldl (· + ·) 0 := by
  induction a generalizing x with
  | nil => simp
  | cons y a ih => simp only [List.foldl_cons]; rw [ih (x + y), ih (0 + y)]; simp [UInt8.add_assoc]

theorem sum_set {a : Bytes} {i : Nat} (hi : i < a.length) {b : UInt8} (hne : a[i] ≠ b) :
    (a.set i b).foldl (· + ·) 0 ≠ a.foldl (· + ·) 0 := by
  induction a generalizing i with
  | nil => simp at hi
  | cons x a ih =>
    cases i with
    | zero =>
      simp only [List.set_cons_zero, List.foldl_cons, List.getElem_cons_zero] at *
      rw [sum_start a (0 + b), sum_start a (0 + x)]
      intro h
      have := (UInt8.add_left_inj _).mp h
      simp at this
      exact hne this.symm
    | succ i =>
      simp only [List.set_cons_succ, List.foldl_cons, List.getElem_cons_succ] at *
      rw [sum_start (a.set i b) (0 + x), sum_start a (0 + x)]
      intro h
      exact ih (by simpa using hi) hne ((UInt8.add_right_inj _).mp h)

theorem checksum_set {a : Bytes} {i : Nat} (hi : i < a.length) {b : UInt8} (hne : a[i] ≠ b) :
    checksum (a.set i b) ≠ checksum a := by
  intro h
  exact sum_set hi hne (UInt8.not_inj.mp h)

theorem read_altered {id command : UInt8} {data f : Bytes} (hd : data.length ≤ 252)
    (hf : sendPacket id command data = .ok f) {i : Nat} (hi : i < f.length) (h2 : 2 ≤ i) (h3 : i ≠ 3)
    {b : UInt8} (hne : f[i] ≠ b) (rest : Bytes) :
    readResponse (f.set i b ++ rest) = .ok (.error .invalidChecksum, rest) := by
  rw [send_eq id command hd] at hf
  simp only [Rs.ok.injEq] at hf
  have hl : (UInt8.ofNat data.length + 3).toNat = data.length + 3 := len_toNat hd
  generalize UInt8.ofNat data.length + 3 = l at *
  subst hf
  have hcs := @checksum_set ([id, l, command] ++ data) (i - 2)
  match i, h2, h3 with
  | 2, _, _ =>
    have := hcs (by simp) (b := b) (by simpa [frame] using hne)
    have e : (frame id l command data (checksum ([id, l, command] ++ data))).set 2 b =
        frame b l command data (checksum ([id, l, command] ++ data)) := rfl
    rw [e, read_frame _ _ _ _ _ hl, if_pos (by simpa using this)]
  | 4, _, _ =>
    have := hcs (by simp) (b := b) (by simpa [frame] using hne)
    have e : (frame id l command data (checksum ([id, l, command] ++ data))).set 4 b =
        frame id l b data (checksum ([id, l, command] ++ data)) := rfl
    rw [e, read_frame _ _ _ _ _ hl, if_pos (by simpa using this)]
  | j + 5, _, _ =>
    by_cases hj : j < data.length
    · have hg : data[j] ≠ b := by
        simpa [frame, List.getElem_append, hj] using hne
      have := hcs (by simp; omega) (b := b) (by simpa using hg)
      have e : (frame id l command data (checksum ([id, l, command] ++ data))).set (j + 5) b =
          frame id l command (data.set j b) (checksum ([id, l, command] ++ data)) := by
        simp [frame, hj]
      rw [e, read_frame _ _ _ _ _ (by simpa using hl), if_pos (by simpa using this)]
    · have hj' : j = data.length := by simp [frame] at hi; omega
      subst hj'
      have e : (frame id l command data (checksum ([id, l, command] ++ data))).set (data.length + 5) b =
          frame id l command data b := by
        simp [frame]
      rw [e, read_frame _ _ _ _ _ hl, if_pos]
      simpa [frame] using hne

theorem read_panic_iff (line : Bytes) :
    readResponse line = .panic ↔
      ∃ id length command rest, line = [0x55, 0x55, id, length, command] ++ rest ∧ length.toNat ≤ 2 := by
  match line with
  | [] | [_] | [_, _] | [_, _, _] | [_, _, _, _] => simp [readResponse, readExact]
  | h0 :: h1 :: id :: l :: command :: rest =>
    have h5 : readExact 5 (h0 :: h1 :: id :: l :: command :: rest) = some ([h0, h1, id, l, command], rest) := by
      simp [readExact]
    have hR : (∃ id' length command' rest', h0 :: h1 :: id :: l :: command :: rest =
        [0x55, 0x55, id', length, command'] ++ rest' ∧ length.toNat ≤ 2) ↔ h0 = 0x55 ∧ h1 = 0x55 ∧ l.toNat ≤ 2 := by
      constructor
      · rintro ⟨id', l', c', r', h, hl⟩
        simp at h
        obtain ⟨rfl, rfl, rfl, rfl, rfl, rfl⟩ := h
        exact ⟨rfl, rfl, hl⟩
      · rintro ⟨rfl, rfl, hl⟩
        exact ⟨id, l, command, rest, rfl, hl⟩
    rw [hR]
    unfold readResponse
    simp only [h5]
    by_cases hh : h0 ≠ 0x55 ∨ h1 ≠ 0x55
    · rw [if_pos hh]
      simp only [reduceCtorEq, false_iff]
      rintro ⟨a, b, _⟩
      rcases hh with hh | hh
      · exact absurd a hh
      · exact absurd b hh
    · rw [if_neg hh]
      have hh0 : h0 = 0x55 := Classical.byContradiction fun h => hh (.inl h)
      have hh1 : h1 = 0x55 := Classical.byContradiction fun h => hh (.inr h)
      subst hh0 hh1
      by_cases hl : l.toNat < 2
      · rw [if_pos hl]
        have : l.toNat ≤ 2 := by omega
        simp [this]
      · rw [if_neg hl]
        by_cases h2 : l.toNat = 2
        · simp [h2, readExact]
        · have : ¬ l.toNat ≤ 2 := by omega
          simp only [this, and_false, iff_false]
          unfold readExact
          split
          · simp
          · rename_i r rest' he
            split at he
            · simp at he
            · simp only [Option.some.injEq, Prod.mk.injEq] at he
              obtain ⟨rfl, rfl⟩ := he
              cases hr : (List.take (l.toNat - 2) rest).getLast? with
              | none =>
                rw [List.getLast?_eq_none_iff] at hr
                have := congrArg List.length hr
                rw [List.length_take] at this
                simp only [List.length_nil] at this
                omega
              | some c => simp only; split <;> simp

end Servo
end Verif
