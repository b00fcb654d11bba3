import Verif.Spec.TextDumpMem
import Verif.Proofs.LogLine
/-! The decoder of log entries with the memory it asks for. -/
namespace Verif
open Bincode

theorem entry_dec_split (bs : Bytes) : (dec : Dec LogEntry) bs =
    ((do let time ← (dec : Dec UInt64); let msg ← (dec : Dec UInt32); let n ← decVar 8; pure (time, msg, n) :
      Dec (UInt64 × UInt32 × Nat)) >>= fun x =>
        (do let names ← decN (dec : Dec UInt32) x.2.2; let m ← decVar 8; pure (names, m) :
          Dec (List UInt32 × Nat)) >>= fun y =>
            (decN (dec : Dec Value) y.2 >>= fun params => pure (⟨x.1, x.2.1, y.1, params⟩ : LogEntry))) bs := by
  show LogEntry.decode bs = _
  unfold LogEntry.decode
  have hp : ∀ {α : Type} (a : α) (bs : Bytes), (pure a : Dec α) bs = .ok (a, bs) := fun _ _ => rfl
  rcases h1 : (dec : Dec UInt64) bs with e | ⟨time, bs1⟩
  · simp only [Dec.bind_apply, h1]
  rcases h2 : (dec : Dec UInt32) bs1 with e | ⟨msg, bs2⟩
  · simp only [Dec.bind_apply, h1, h2]
  rcases h3 : decVar 8 bs2 with e | ⟨n, bs3⟩
  · simp only [Dec.bind_apply, h1, h2, h3]
  rcases h4 : decN (dec : Dec UInt32) n bs3 with e | ⟨names, bs4⟩
  · simp only [Dec.bind_apply, h1, h2, h3, h4, hp]
  rcases h5 : decVar 8 bs4 with e | ⟨m, bs5⟩
  · simp only [Dec.bind_apply, h1, h2, h3, h4, h5, hp]
  simp only [Dec.bind_apply, h1, h2, h3, h4, h5, hp]

theorem decodeMem_same {size : Nat} {bs : Bytes} {r : Except DecodeError (LogEntry × Bytes)} {mem : Nat}
    (h : LogEntry.decodeMem size bs = .ok (r, mem)) : (dec : Dec LogEntry) bs = r := by
  rw [entry_dec_split, Dec.bind_apply]
  unfold LogEntry.decodeMem at h
  split at h
  · rename_i e he
    rw [he]
    simp only [Rs.ok.injEq, Prod.mk.injEq] at h
    exact h.1
  · rename_i time msg n bs1 he
    rw [he]
    simp only
    rw [Dec.bind_apply]
    split at h
    · cases h
    · split at h
      · rename_i e he
        rw [he]
        simp only [Rs.ok.injEq, Prod.mk.injEq] at h
        exact h.1
      · rename_i names m bs2 he2
        rw [he2]
        simp only
        rw [Dec.bind_apply]
        split at h
        · cases h
        · split at h
          · rename_i e he
            rw [he]
            simp only [Rs.ok.injEq, Prod.mk.injEq] at h
            exact h.1
          · rename_i params bs3 he3
            rw [he3]
            simp only [Rs.ok.injEq, Prod.mk.injEq] at h
            exact h.1

/-- An entry that was written. -/
theorem decodeMem_written {size : Nat} {e : LogEntry} (hl : e.Legal) (hs : (4 + size) * (enc e).length < 9223372036854775808)
    (rest : Bytes) : ∃ mem, LogEntry.decodeMem size (enc e ++ rest) = .ok (.ok (e, rest), mem) ∧
      mem ≤ (4 + size) * (enc e).length := by
  have hp : ∀ {α : Type} (a : α) (bs : Bytes), (pure a : Dec α) bs = .ok (a, bs) := fun _ _ => rfl
  have hn : e.names.length ≤ (encAll e.names).length := encAll_length_ge fun a _ => encVar_length_pos _
  have hm : e.params.length ≤ (encAll e.params).length := encAll_length_ge fun a _ => Value.encode_pos a
  have hlen : (enc e).length = (enc e.time).length + ((enc e.msgIndex).length + (((encVar e.names.length).length +
      (encAll e.names).length) + ((encVar e.params.length).length + (encAll e.params).length))) := by
    show (LogEntry.encode e).length = _
    unfold LogEntry.encode
    simp only [List.length_append]
  have hnl : e.names.length ≤ (enc e).length := by omega
  have hml : e.params.length ≤ (enc e).length := by omega
  have h1 : 4 * e.names.length ≤ 4 * (enc e).length := Nat.mul_le_mul_left _ hnl
  have h2 : size * e.params.length ≤ size * (enc e).length := Nat.mul_le_mul_left _ hml
  rw [Nat.add_mul] at hs ⊢
  have cap : ∀ k n, k * n < 9223372036854775808 → ∃ m, withCapacity 10 k n = .ok m ∧ m ≤ k * n := by
    intro k n h
    unfold withCapacity
    by_cases hk : n ≤ 10
    · exact ⟨0, by rw [if_pos hk], Nat.zero_le _⟩
    · exact ⟨k * n, by rw [if_neg hk, if_pos (by omega)], Nat.le_refl _⟩
  obtain ⟨m1, hm1, hb1⟩ := cap 4 e.names.length (by omega)
  obtain ⟨m2, hm2, hb2⟩ := cap size e.params.length (by omega)
  refine ⟨m1 + m2, ?_, by omega⟩
  show LogEntry.decodeMem size (LogEntry.encode e ++ rest) = _
  unfold LogEntry.decodeMem LogEntry.encode
  simp only [List.append_assoc]
  rw [Dec.bind_ok (rt_u64 _ _), Dec.bind_ok (rt_u32 _ _), Dec.bind_ok (decVar_encVar8 _ hl.names _), hp]
  simp only [hm1]
  rw [Dec.bind_ok (decN_encAll _ (fun a _ => rt_u32 a) _), Dec.bind_ok (decVar_encVar8 _ hl.params _), hp]
  simp only [hm2]
  rw [decN_encAll _ (fun v hv => Value.rt_value (hl.values v hv)) _]

theorem splitParams_indexed {shw : Value → Text} {strings : List Text} {is : List UInt32} {vs : List Value}
    (hi : ∀ i ∈ is, i.toNat < strings.length) (hl : vs.length ≤ is.length) (anon : List Text) (named : Bindings) :
    splitParams shw strings is vs anon named ≠ .panic := by
  induction is generalizing vs anon named with
  | nil =>
    cases vs with
    | nil => simp [splitParams]
    | cons v vs => simp at hl
  | cons i is ih =>
    cases vs with
    | nil => simp [splitParams]
    | cons v vs =>
      have h1 := ih (vs := vs) (fun j hj => hi j (by simp [hj])) (by simpa using hl)
      unfold splitParams
      split
      · exact h1 _ _
      · rw [List.getElem?_eq_getElem (hi i (by simp))]
        exact h1 _ _

theorem rebuild_indexed {shw : Value → Text} {showTime : UInt64 → Text} {strings : List Text} {e : LogEntry}
    (h : e.Indexed strings) : ∃ o, rebuildLogline shw showTime strings e = .ok o := by
  unfold rebuildLogline
  rw [List.getElem?_eq_getElem h.msg]
  simp only
  split
  · rename_i hp
    exact absurd hp (splitParams_indexed h.names h.params _ _)
  · exact ⟨_, rfl⟩

theorem lines_cons (l : Text) (d : TextDump) : (d.cons l).lines = l :: d.lines ∧ (d.cons l).ended = d.ended := by
  cases d <;> exact ⟨rfl, rfl⟩

variable {shw : Value → Text} {showTime : UInt64 → Text} {strings : List Text} {size : Nat}

theorem textLoop_written {l : List LogEntry} (hl : ∀ e ∈ l, e.Legal ∧ e.msgIndex ≠ 0 ∧ e.Indexed strings ∧
      (4 + size) * (enc e).length < 9223372036854775808) (tail : Bytes) (fuel : Nat) :
    (textLoop shw showTime strings size (l.length + fuel) (encAll l ++ tail)).lines =
        linesOf shw showTime strings l ++ (textLoop shw showTime strings size fuel tail).lines ∧
      (textLoop shw showTime strings size (l.length + fuel) (encAll l ++ tail)).ended =
        (textLoop shw showTime strings size fuel tail).ended := by
  induction l with
  | nil => simp [linesOf, encAll]
  | cons e l ih =>
    obtain ⟨h1, h2, h3, h4⟩ := hl e (by simp)
    obtain ⟨i1, i2⟩ := ih fun e he => hl e (by simp [he])
    obtain ⟨mem, hm, _⟩ := decodeMem_written h1 h4 (encAll l ++ tail)
    obtain ⟨o, ho⟩ := rebuild_indexed (shw := shw) (showTime := showTime) h3
    have hf : (e :: l).length + fuel = (l.length + fuel) + 1 := by simp; omega
    rw [hf, encAll, List.append_assoc]
    rw [show textLoop shw showTime strings size (l.length + fuel + 1) (enc e ++ (encAll l ++ tail)) =
      (match (.ok o : Rs (Option Text)) with
        | .panic => .panicked []
        | .ok none => textLoop shw showTime strings size (l.length + fuel) (encAll l ++ tail)
        | .ok (some x) => .cons (showTime e.time ++ [':', ' '] ++ x)
          (textLoop shw showTime strings size (l.length + fuel) (encAll l ++ tail))) by
        conv => lhs; unfold textLoop
        simp only [hm, if_neg h2, ho]
        rfl]
    cases o with
    | none =>
      refine ⟨?_, i2⟩
      simp only [linesOf, List.flatMap_cons, ho]
      simpa [linesOf] using i1
    | some x =>
      simp only [(lines_cons _ _).1, (lines_cons _ _).2]
      refine ⟨?_, i2⟩
      simp only [linesOf, List.flatMap_cons, ho]
      simpa [linesOf] using i1

theorem textLoop_cause {fuel : Nat} {bs : Bytes} (h : (textLoop shw showTime strings size fuel bs).ended = false) :
    ∃ es rest, Entries bs es rest ∧ (textLoop shw showTime strings size fuel bs).lines = linesOf shw showTime strings es ∧
      (LogEntry.decodeMem size rest = .panic ∨
        ∃ e rest', (dec : Dec LogEntry) rest = .ok (e, rest') ∧ ¬ e.Indexed strings) := by
  induction fuel generalizing bs with
  | zero => simp [textLoop, TextDump.ended] at h
  | succ fuel ih =>
    unfold textLoop at h ⊢
    rcases hd : LogEntry.decodeMem size bs with ⟨(e | ⟨e, rest⟩), mem⟩ | _
    · simp [hd, TextDump.ended] at h
    · simp only [hd] at h ⊢
      have hs := decodeMem_same hd
      by_cases h0 : e.msgIndex = 0
      · simp [h0, TextDump.ended] at h
      · simp only [if_neg h0] at h ⊢
        rcases hr : rebuildLogline shw showTime strings e with (_ | x) | _
        · simp only [hr] at h ⊢
          obtain ⟨es, r, a, b, c⟩ := ih h
          exact ⟨e :: es, r, .cons hs a, by simpa [linesOf, hr] using b, c⟩
        · simp only [hr, (lines_cons _ _).1, (lines_cons _ _).2] at h ⊢
          obtain ⟨es, r, a, b, c⟩ := ih h
          exact ⟨e :: es, r, .cons hs a, by simpa [linesOf, hr] using b, c⟩
        · refine ⟨[], bs, .nil, by simp [TextDump.lines, linesOf], .inr ⟨e, rest, hs, fun hi => ?_⟩⟩
          obtain ⟨o, ho⟩ := rebuild_indexed (shw := shw) (showTime := showTime) hi
          rw [hr] at ho
          cases ho
    · exact ⟨[], bs, .nil, by simp [TextDump.lines, linesOf], .inl hd⟩

theorem textLoop_same {fuel : Nat} {bs : Bytes} (h : (textLoop shw showTime strings size fuel bs).ended = true) :
    textLoop shw showTime strings size fuel bs =
      textLines shw showTime strings ((decodeStream (dec : Dec LogEntry) fuel bs).2 == .unexpectedEnd)
        (decodeStream (dec : Dec LogEntry) fuel bs).1 := by
  induction fuel generalizing bs with
  | zero => rfl
  | succ fuel ih =>
    unfold textLoop at h ⊢
    rcases hd : LogEntry.decodeMem size bs with ⟨(e | ⟨e, rest⟩), mem⟩ | _
    · simp [decodeStream, decodeMem_same hd, textLines]
    · simp only [hd] at h ⊢
      simp only [decodeStream, decodeMem_same hd, textLines]
      by_cases h0 : e.msgIndex = 0
      · simp [h0]
      · simp only [if_neg h0] at h ⊢
        rcases hr : rebuildLogline shw showTime strings e with (_ | x) | _
        · simp only [hr] at h ⊢
          exact ih h
        · simp only [hr, (lines_cons _ _).2] at h ⊢
          rw [ih h]
        · simp
    · simp [hd, TextDump.ended] at h

/-- The decoder panics because of a count it has read. -/
theorem decodeMem_panic {bs : Bytes} : LogEntry.decodeMem size bs = .panic ↔
    (∃ n r, NamesSaid bs n r ∧ 10 < n ∧ 9223372036854775807 < 4 * n) ∨
      ∃ m, ParamsSaid bs m ∧ 10 < m ∧ 9223372036854775807 < size * m := by
  have hp : ∀ {α : Type} (a : α) (bs : Bytes), (pure a : Dec α) bs = .ok (a, bs) := fun _ _ => rfl
  have cap : ∀ k n, withCapacity 10 k n = .panic ↔ 10 < n ∧ 9223372036854775807 < k * n := by
    intro k n
    unfold withCapacity
    split
    · simp; omega
    · split <;> simp <;> omega
  rcases h1 : (dec : Dec UInt64) bs with e | ⟨time, bs1⟩
  · simp [LogEntry.decodeMem, Dec.bind_apply, h1, NamesSaid, ParamsSaid]
  rcases h2 : (dec : Dec UInt32) bs1 with e | ⟨msg, bs2⟩
  · simp [LogEntry.decodeMem, Dec.bind_apply, h1, h2, NamesSaid, ParamsSaid]
  rcases h3 : decVar 8 bs2 with e | ⟨n, bs3⟩
  · simp only [LogEntry.decodeMem, Dec.bind_apply, h1, h2, h3]
    simp [NamesSaid, ParamsSaid, h1, h2, h3]
  have hN : ∀ n' r', NamesSaid bs n' r' ↔ n' = n ∧ r' = bs3 := by
    intro n' r'
    constructor
    · rintro ⟨t, i, r1, r2, a, b, c⟩
      rw [h1] at a
      simp only [Except.ok.injEq, Prod.mk.injEq] at a
      rw [← a.2, h2] at b
      simp only [Except.ok.injEq, Prod.mk.injEq] at b
      rw [← b.2, h3] at c
      simp only [Except.ok.injEq, Prod.mk.injEq] at c
      exact ⟨c.1.symm, c.2.symm⟩
    · rintro ⟨rfl, rfl⟩
      exact ⟨_, _, _, _, h1, h2, h3⟩
  have hN' : (∃ n r, NamesSaid bs n r ∧ 10 < n ∧ 9223372036854775807 < 4 * n) ↔ 10 < n ∧ 9223372036854775807 < 4 * n := by
    constructor
    · rintro ⟨n', r', hn, h⟩
      rw [((hN n' r').1 hn).1] at h
      exact h
    · exact fun h => ⟨n, bs3, (hN _ _).2 ⟨rfl, rfl⟩, h⟩
  have hP : ∀ m, ParamsSaid bs m ↔ ∃ names r1 r2, decN (dec : Dec UInt32) n bs3 = .ok (names, r1) ∧
      decVar 8 r1 = .ok (m, r2) := by
    intro m
    constructor
    · rintro ⟨n', r', names, r1, r2, hn, h⟩
      obtain ⟨rfl, rfl⟩ := (hN n' r').1 hn
      exact ⟨names, r1, r2, h⟩
    · rintro ⟨names, r1, r2, h⟩
      exact ⟨n, bs3, names, r1, r2, (hN _ _).2 ⟨rfl, rfl⟩, h⟩
  rw [hN', ← cap]
  simp only [hP]
  simp only [LogEntry.decodeMem, Dec.bind_apply, h1, h2, h3, hp]
  rcases hc : withCapacity 10 4 n with mem | _
  · simp only [reduceCtorEq, false_or]
    rcases h4 : decN (dec : Dec UInt32) n bs3 with e | ⟨names, bs4⟩
    · simp
    rcases h5 : decVar 8 bs4 with e | ⟨m, bs5⟩
    · simp only [h5]
      refine iff_of_false (by simp) ?_
      rintro ⟨m, ⟨names', r1, r2, ha, hb⟩, _⟩
      simp only [Except.ok.injEq, Prod.mk.injEq] at ha
      rw [← ha.2, h5] at hb
      cases hb
    have hm : ∀ m', (∃ names' r1 r2, (Except.ok (names, bs4) : Except DecodeError (List UInt32 × Bytes)) = .ok (names', r1) ∧
        decVar 8 r1 = .ok (m', r2)) ↔ m' = m := by
      intro m'
      constructor
      · rintro ⟨names', r1, r2, ha, hb⟩
        simp only [Except.ok.injEq, Prod.mk.injEq] at ha
        rw [← ha.2, h5] at hb
        simp only [Except.ok.injEq, Prod.mk.injEq] at hb
        exact hb.1.symm
      · rintro rfl
        exact ⟨names, bs4, bs5, rfl, h5⟩
    simp only [hm, exists_eq_left, h5]
    rw [← cap]
    rcases hc : withCapacity 10 size m with mem | _
    · refine iff_of_false ?_ (by simp)
      simp only
      split <;> simp
    · simp
  · simp

end Verif
