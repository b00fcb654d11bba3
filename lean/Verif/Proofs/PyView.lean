import Verif.Spec.PyView
import Verif.Proofs.LogLine
/-! Lemmas for `Props/PyView`. -/
namespace Verif
namespace PyView
open Bincode

theorem insert_new (f : Floats) (k v : Py) (d : List (Py × Py)) (h : ∀ e ∈ d, e.1.keyEq f k = false) :
    insertPy f k v d = d ++ [(k, v)] := by
  induction d with
  | nil => rfl
  | cons e d ih =>
    obtain ⟨k', v'⟩ := e
    simp only [insertPy, h (k', v') (by simp), Bool.false_eq_true, if_false, List.cons_append]
    rw [ih fun e he => h e (by simp [he])]

theorem setItems_distinct (f : Floats) (l d : List (Py × Py)) (h : distinct f l = true)
    (hd : ∀ e ∈ d, ∀ e' ∈ l, e.1.keyEq f e'.1 = false) : setItems f d l = .ok (d ++ l) := by
  induction l generalizing d with
  | nil => simp [setItems]
  | cons e l ih =>
    obtain ⟨k, v⟩ := e
    simp only [distinct, Bool.and_eq_true, List.all_eq_true, Bool.not_eq_true'] at h
    simp only [setItems, h.1.1, if_true]
    rw [insert_new f k v d fun e he => hd e he (k, v) (by simp), ih]
    · simp
    · exact h.2
    · intro e he e' he'
      rcases List.mem_append.1 he with he | he
      · exact hd e he e' (by simp [he'])
      · simp only [List.mem_singleton] at he
        subst he
        exact h.1.2 e' he'

mutual
/-- The panics are keys that are lists or dictionaries. -/
theorem plain_ok (f : Floats) (nan : F32 → Bool) : ∀ v : Value, plain f nan v = true → ∃ p, toPy f v = .ok p
  | .str _, _ | .u64 _, _ | .i64 _, _ | .f64 _, _ | .bool _, _ | .time _, _
  | .bytes _, _ | .char _, _ | .i8 _, _ | .u8 _, _ | .i16 _, _ | .u16 _, _
  | .i32 _, _ | .u32 _, _ | .f32 _, _ | .unit, _ | .opt none, _ => ⟨_, by rw [toPy]⟩
  | .opt (some v), h => by
    rw [plain, Bool.and_eq_true] at h
    rw [toPy]
    exact plain_ok f nan v h.2
  | .newtype v, h => by
    rw [plain] at h
    rw [toPy]
    exact plain_ok f nan v h
  | .seq l, h => by
    rw [plain] at h
    obtain ⟨ps, hp⟩ := plainSeq_ok f nan l h
    exact ⟨.list ps, by rw [toPy, hp]; rfl⟩
  | .map m, h => by
    rw [plain, Bool.and_eq_true] at h
    obtain ⟨ps, hp⟩ := plainMap_ok f nan m h.1
    rw [hp] at h
    exact ⟨.dict ps, by rw [toPy, hp]; simp only []; rw [setItems_distinct f ps [] h.2 (by simp)]; rfl⟩
theorem plainSeq_ok (f : Floats) (nan : F32 → Bool) :
    ∀ l : List Value, plainSeq f nan l = true → ∃ p, toPyList f l = .ok p
  | [], _ => ⟨[], by rw [toPyList]⟩
  | v :: l, h => by
    rw [plainSeq, Bool.and_eq_true] at h
    obtain ⟨p, hp⟩ := plain_ok f nan v h.1
    obtain ⟨ps, hps⟩ := plainSeq_ok f nan l h.2
    exact ⟨p :: ps, by rw [toPyList, hp, hps]⟩
theorem plainMap_ok (f : Floats) (nan : F32 → Bool) :
    ∀ l : List (Value × Value), plainMap f nan l = true → ∃ p, toPyEntries f l = .ok p
  | [], _ => ⟨[], by rw [toPyEntries]⟩
  | (k, v) :: l, h => by
    rw [plainMap, Bool.and_eq_true, Bool.and_eq_true] at h
    obtain ⟨p, hp⟩ := plain_ok f nan k h.1
    obtain ⟨q, hq⟩ := plain_ok f nan v h.2.1
    obtain ⟨ps, hps⟩ := plainMap_ok f nan l h.2.2
    exact ⟨(p, q) :: ps, by rw [toPyEntries, hp, hq, hps]⟩
end

/-- A value is shown as `None` only when it is nothing. -/
theorem none_nothing (f : Floats) : ∀ v : Value, toPy f v = .ok .none → nothing v = true
  | .str _, h | .u64 _, h | .i64 _, h | .f64 _, h | .bool _, h | .time _, h
  | .bytes _, h | .char _, h | .i8 _, h | .u8 _, h | .i16 _, h | .u16 _, h
  | .i32 _, h | .u32 _, h | .f32 _, h => by rw [toPy] at h; cases h
  | .unit, _ | .opt none, _ => by rw [nothing]
  | .opt (some v), h => by rw [toPy] at h; rw [nothing]; exact none_nothing f v h
  | .newtype v, h => by rw [toPy] at h; rw [nothing]; exact none_nothing f v h
  | .seq l, h => by
    rw [toPy] at h
    cases hl : toPyList f l <;> simp [hl, Rs.map'] at h
  | .map m, h => by
    rw [toPy] at h
    cases hl : toPyEntries f m with
    | panic => simp [hl] at h
    | ok l =>
      simp only [hl] at h
      cases hs : setItems f [] l <;> simp [hs, Rs.map'] at h

theorem plain_dict (f : Floats) (nan : F32 → Bool) (m : List (Value × Value)) (h : plain f nan (.map m) = true) :
    plainMap f nan m = true ∧ ∃ ps, toPyEntries f m = .ok ps ∧ toPy f (.map m) = .ok (.dict ps) := by
  rw [plain, Bool.and_eq_true] at h
  obtain ⟨ps, hp⟩ := plainMap_ok f nan m h.1
  rw [hp] at h
  exact ⟨h.1, ps, hp, by rw [toPy, hp]; simp only []; rw [setItems_distinct f ps [] h.2 (by simp)]; rfl⟩

mutual
theorem toPy_inj (f : Floats) (nan : F32 → Bool)
    (hw : ∀ a b, nan a = false → nan b = false → f.widen a = f.widen b → a = b) :
    ∀ v w : Value, alike v w = true → plain f nan v = true → plain f nan w = true → toPy f v = toPy f w → v = w
  | .str a, w, ha, _, _, h => by
    cases w with
    | str b =>
      simp only [toPy] at h
      simpa using h
    | _ => simp [alike] at ha
  | .u64 a, w, ha, _, _, h => by
    cases w with
    | u64 b =>
      simp only [toPy, Rs.ok.injEq, Py.int.injEq, Int.natCast_inj, UInt64.toNat_inj] at h
      rw [h]
    | _ => simp [alike] at ha
  | .i64 a, w, ha, _, _, h => by
    cases w with
    | i64 b =>
      simp only [toPy, Rs.ok.injEq, Py.int.injEq, Int64.toInt_inj] at h
      rw [h]
    | _ => simp [alike] at ha
  | .f64 a, w, ha, _, _, h => by
    cases w with
    | f64 b =>
      simp only [toPy] at h
      simpa using h
    | _ => simp [alike] at ha
  | .bool a, w, ha, _, _, h => by
    cases w with
    | bool b =>
      simp only [toPy] at h
      simpa using h
    | _ => simp [alike] at ha
  | .time a, w, ha, _, _, h => by
    cases w with
    | time b =>
      simp only [toPy, Rs.ok.injEq, Py.int.injEq, Int.natCast_inj, UInt64.toNat_inj] at h
      rw [h]
    | _ => simp [alike] at ha
  | .bytes a, w, ha, _, _, h => by
    cases w with
    | bytes b =>
      simp only [toPy] at h
      simpa using h
    | _ => simp [alike] at ha
  | .char a, w, ha, _, _, h => by
    cases w with
    | char b =>
      simp only [toPy, Rs.ok.injEq, Py.str.injEq] at h
      have := congrArg String.toList h
      simpa using this
    | _ => simp [alike] at ha
  | .i8 a, w, ha, _, _, h => by
    cases w with
    | i8 b =>
      simp only [toPy, Rs.ok.injEq, Py.int.injEq, Int8.toInt_inj] at h
      rw [h]
    | _ => simp [alike] at ha
  | .u8 a, w, ha, _, _, h => by
    cases w with
    | u8 b =>
      simp only [toPy, Rs.ok.injEq, Py.int.injEq, Int.natCast_inj, UInt8.toNat_inj] at h
      rw [h]
    | _ => simp [alike] at ha
  | .i16 a, w, ha, _, _, h => by
    cases w with
    | i16 b =>
      simp only [toPy, Rs.ok.injEq, Py.int.injEq, Int16.toInt_inj] at h
      rw [h]
    | _ => simp [alike] at ha
  | .u16 a, w, ha, _, _, h => by
    cases w with
    | u16 b =>
      simp only [toPy, Rs.ok.injEq, Py.int.injEq, Int.natCast_inj, UInt16.toNat_inj] at h
      rw [h]
    | _ => simp [alike] at ha
  | .i32 a, w, ha, _, _, h => by
    cases w with
    | i32 b =>
      simp only [toPy, Rs.ok.injEq, Py.int.injEq, Int32.toInt_inj] at h
      rw [h]
    | _ => simp [alike] at ha
  | .u32 a, w, ha, _, _, h => by
    cases w with
    | u32 b =>
      simp only [toPy, Rs.ok.injEq, Py.int.injEq, Int.natCast_inj, UInt32.toNat_inj] at h
      rw [h]
    | _ => simp [alike] at ha
  | .f32 a, w, ha, h1, h2, h => by
    cases w with
    | f32 b =>
      simp only [toPy, Rs.ok.injEq, Py.float.injEq] at h
      rw [plain, Bool.not_eq_true'] at h1 h2
      rw [hw _ _ h1 h2 h]
    | _ => simp [alike] at ha
  | .unit, w, ha, _, _, _ => by
    cases w with
    | unit => rfl
    | _ => simp [alike] at ha
  | .opt none, w, ha, h1, h2, h => by
    cases w with
    | opt w =>
      cases w with
      | none => rfl
      | some w =>
        rw [plain, Bool.and_eq_true] at h2
        rw [toPy, toPy] at h
        simp [none_nothing f w h.symm] at h2
    | _ => simp [alike] at ha
  | .opt (some v), w, ha, h1, h2, h => by
    cases w with
    | opt w =>
      cases w with
      | none =>
        rw [plain, Bool.and_eq_true] at h1
        rw [toPy, toPy] at h
        simp [none_nothing f v h] at h1
      | some w =>
        rw [plain, Bool.and_eq_true] at h1 h2
        rw [toPy, toPy] at h
        rw [alike, alikeOpt] at ha
        rw [toPy_inj f nan hw v w ha h1.2 h2.2 h]
    | _ => simp [alike] at ha
  | .newtype v, w, ha, h1, h2, h => by
    cases w with
    | newtype w =>
      rw [plain] at h1 h2
      rw [toPy, toPy] at h
      rw [alike] at ha
      rw [toPy_inj f nan hw v w ha h1 h2 h]
    | _ => simp [alike] at ha
  | .seq v, w, ha, h1, h2, h => by
    cases w with
    | seq w =>
      rw [plain] at h1 h2
      rw [toPy, toPy] at h
      rw [alike] at ha
      obtain ⟨p, hp⟩ := plainSeq_ok f nan v h1
      obtain ⟨q, hq⟩ := plainSeq_ok f nan w h2
      rw [hp, hq] at h
      simp only [Rs.map', Rs.ok.injEq, Py.list.injEq] at h
      rw [toPyList_inj f nan hw v w ha h1 h2 (by rw [hp, hq, h])]
    | _ => simp [alike] at ha
  | .map v, w, ha, h1, h2, h => by
    cases w with
    | map w =>
      rw [alike] at ha
      obtain ⟨h1', p, hp, hp'⟩ := plain_dict f nan v h1
      obtain ⟨h2', q, hq, hq'⟩ := plain_dict f nan w h2
      rw [hp', hq'] at h
      simp only [Rs.ok.injEq, Py.dict.injEq] at h
      rw [toPyEntries_inj f nan hw v w ha h1' h2' (by rw [hp, hq, h])]
    | _ => simp [alike] at ha
theorem toPyList_inj (f : Floats) (nan : F32 → Bool)
    (hw : ∀ a b, nan a = false → nan b = false → f.widen a = f.widen b → a = b) :
    ∀ v w : List Value, alikeSeq v w = true → plainSeq f nan v = true → plainSeq f nan w = true →
      toPyList f v = toPyList f w → v = w
  | [], [], _, _, _, _ => rfl
  | [], w :: r, _, _, h2, h => by
    obtain ⟨q, hq⟩ := plainSeq_ok f nan _ h2
    rw [toPyList, toPyList] at h
    rw [toPyList] at hq
    rw [hq] at h
    split at hq <;> simp_all
  | v :: l, [], _, h1, _, h => by
    obtain ⟨q, hq⟩ := plainSeq_ok f nan _ h1
    rw [toPyList, toPyList] at h
    rw [toPyList] at hq
    rw [hq] at h
    split at hq <;> simp_all
  | v :: l, w :: r, ha, h1, h2, h => by
    rw [alikeSeq, Bool.and_eq_true] at ha
    rw [plainSeq, Bool.and_eq_true] at h1 h2
    obtain ⟨p, hp⟩ := plain_ok f nan v h1.1
    obtain ⟨q, hq⟩ := plain_ok f nan w h2.1
    obtain ⟨ps, hps⟩ := plainSeq_ok f nan l h1.2
    obtain ⟨qs, hqs⟩ := plainSeq_ok f nan r h2.2
    rw [toPyList, toPyList, hp, hq, hps, hqs] at h
    simp only [Rs.ok.injEq, List.cons.injEq] at h
    rw [toPy_inj f nan hw v w ha.1 h1.1 h2.1 (by rw [hp, hq, h.1]),
      toPyList_inj f nan hw l r ha.2 h1.2 h2.2 (by rw [hps, hqs, h.2])]
theorem toPyEntries_inj (f : Floats) (nan : F32 → Bool)
    (hw : ∀ a b, nan a = false → nan b = false → f.widen a = f.widen b → a = b) :
    ∀ v w : List (Value × Value), alikeMap v w = true → plainMap f nan v = true → plainMap f nan w = true →
      toPyEntries f v = toPyEntries f w → v = w
  | [], [], _, _, _, _ => rfl
  | [], (k, w) :: r, _, _, h2, h => by
    obtain ⟨q, hq⟩ := plainMap_ok f nan _ h2
    rw [toPyEntries, toPyEntries] at h
    rw [toPyEntries] at hq
    rw [hq] at h
    split at hq <;> simp_all
  | (k, v) :: l, [], _, h1, _, h => by
    obtain ⟨q, hq⟩ := plainMap_ok f nan _ h1
    rw [toPyEntries, toPyEntries] at h
    rw [toPyEntries] at hq
    rw [hq] at h
    split at hq <;> simp_all
  | (k, v) :: l, (k', w) :: r, ha, h1, h2, h => by
    rw [alikeMap, Bool.and_eq_true, Bool.and_eq_true] at ha
    rw [plainMap, Bool.and_eq_true, Bool.and_eq_true] at h1 h2
    obtain ⟨a, ha'⟩ := plain_ok f nan k h1.1
    obtain ⟨b, hb'⟩ := plain_ok f nan k' h2.1
    obtain ⟨p, hp⟩ := plain_ok f nan v h1.2.1
    obtain ⟨q, hq⟩ := plain_ok f nan w h2.2.1
    obtain ⟨ps, hps⟩ := plainMap_ok f nan l h1.2.2
    obtain ⟨qs, hqs⟩ := plainMap_ok f nan r h2.2.2
    rw [toPyEntries, toPyEntries, ha', hb', hp, hq, hps, hqs] at h
    simp only [Rs.ok.injEq, List.cons.injEq, Prod.mk.injEq] at h
    rw [toPy_inj f nan hw k k' ha.1 h1.1 h2.1 (by rw [ha', hb', h.1.1]),
      toPy_inj f nan hw v w ha.2.1 h1.2.1 h2.2.1 (by rw [hp, hq, h.1.2]),
      toPyEntries_inj f nan hw l r ha.2.2 h1.2.2 h2.2.2 (by rw [hps, hqs, h.2])]
end

theorem forLoop_stream (fuel : Nat) (bs : Bytes) :
    forLoop fuel bs =
      (((decodeStream (dec : Dec LogEntry) fuel bs).1.takeWhile fun e => e.msgIndex != 0),
        ((decodeStream (dec : Dec LogEntry) fuel bs).1.any fun e => e.msgIndex == 0) ||
          (decodeStream (dec : Dec LogEntry) fuel bs).2 == .unexpectedEnd) := by
  induction fuel generalizing bs with
  | zero => rfl
  | succ fuel ih =>
    simp only [forLoop, decodeStream, next]
    cases hd : (dec : Dec LogEntry) bs with
    | error e => cases e <;> rfl
    | ok r =>
      obtain ⟨e, rest⟩ := r
      by_cases h : e.msgIndex = 0
      · simp [h]
      · have h' : (e.msgIndex == 0) = false := by simpa using h
        simp [h, ih rest, h']

theorem ts_fields (ns : UInt64) (h : ns.toNat < 2 ^ 31 * 1000000000) :
    (ts ns).days.toInt = (ns.toNat / 86400000000000 : Nat) ∧ (ts ns).seconds.toInt = (ns.toNat / 1000000000 : Nat) ∧
    (ts ns).micros.toInt = (ns.toNat % 1000000000 / 1000 : Nat) := by
  have key : ∀ x : UInt64, x.toNat < 2 ^ 31 → x.toUInt32.toInt32.toInt = x.toNat := by
    intro x hx
    have h0 : x.toUInt32.toNat = x.toNat := by
      rw [UInt64.toNat_toUInt32]; omega
    have h1 : x.toUInt32.toInt32.toInt = (x.toUInt32.toInt32.toBitVec.toInt) := rfl
    rw [h1]
    have h2 : x.toUInt32.toInt32.toBitVec = x.toUInt32.toBitVec := rfl
    rw [h2, BitVec.toInt_eq_toNat_cond]
    have h3 : x.toUInt32.toBitVec.toNat = x.toNat := h0
    rw [h3]
    split <;> omega
  refine ⟨?_, ?_, ?_⟩
  · show (ns / 86400000000000).toUInt32.toInt32.toInt = _
    have hd : (ns / 86400000000000 : UInt64).toNat = ns.toNat / 86400000000000 := UInt64.toNat_div ..
    rw [key _ (by rw [hd]; omega), hd]
  · show (ns / 1000000000).toUInt32.toInt32.toInt = _
    have hd : (ns / 1000000000 : UInt64).toNat = ns.toNat / 1000000000 := UInt64.toNat_div ..
    rw [key _ (by rw [hd]; omega), hd]
  · show ((ns % 1000000000) / 1000).toUInt32.toInt32.toInt = _
    have hd : ((ns % 1000000000) / 1000 : UInt64).toNat = ns.toNat % 1000000000 / 1000 := by
      rw [UInt64.toNat_div, UInt64.toNat_mod]; rfl
    rw [key _ (by rw [hd]; omega), hd]

theorem takeWhile_all {α : Type} (p : α → Bool) (l : List α) (h : ∀ a ∈ l, p a = true) : l.takeWhile p = l := by
  induction l with
  | nil => rfl
  | cons a l ih => rw [List.takeWhile_cons, h a (by simp), if_pos rfl, ih fun b hb => h b (by simp [hb])]

end PyView
end Verif
