import Verif.Proofs.ValueOrd
import Verif.Spec.Value
/-! Round trip of dynamic values. -/
namespace Verif
open Bincode
namespace Value

theorem encode_pos (v : Value) : 0 < (encode v).length := by
  cases v <;> first
    | (simp [encode]; done)
    | (rename_i o; cases o <;> simp [encode])

theorem insertKey_last {k v : Value} {m : List (Value × Value)}
    (h : ∀ p ∈ m, cmp p.1 k = .lt) : insertKey k v m = m ++ [(k, v)] := by
  induction m with
  | nil => rfl
  | cons p m ih =>
    obtain ⟨k', v'⟩ := p
    have h1 : cmp k k' = .gt := by
      rw [cmp_swap k' k, h (k', v') (by simp)]; rfl
    simp only [insertKey, h1, List.cons_append]
    rw [ih (fun p hp => h p (by simp [hp]))]

set_option maxRecDepth 4000 in
mutual
theorem decode_encode : ∀ (v : Value), Legal v → ∀ (fuel : Nat), (encode v).length ≤ fuel →
    ∀ rest, decodeFuel fuel (encode v ++ rest) = .ok (v, rest)
  | v, _, 0, hf => by have := encode_pos v; omega
  | .bool a, _, f + 1, hf => fun rest => by
    show (do let v ← dec; pure (.bool v) : Dec Value) (enc a ++ rest) = _
    rw [Dec.bind_ok (rt_bool a rest)]; rfl
  | .u8 a, _, f + 1, hf => fun rest => by
    show (do let v ← dec; pure (.u8 v) : Dec Value) (enc a ++ rest) = _
    rw [Dec.bind_ok (rt_u8 a rest)]; rfl
  | .u16 a, _, f + 1, hf => fun rest => by
    show (do let v ← dec; pure (.u16 v) : Dec Value) (enc a ++ rest) = _
    rw [Dec.bind_ok (rt_u16 a rest)]; rfl
  | .u32 a, _, f + 1, hf => fun rest => by
    show (do let v ← dec; pure (.u32 v) : Dec Value) (enc a ++ rest) = _
    rw [Dec.bind_ok (rt_u32 a rest)]; rfl
  | .u64 a, _, f + 1, hf => fun rest => by
    show (do let v ← dec; pure (.u64 v) : Dec Value) (enc a ++ rest) = _
    rw [Dec.bind_ok (rt_u64 a rest)]; rfl
  | .i8 a, _, f + 1, hf => fun rest => by
    show (do let v ← dec; pure (.i8 v) : Dec Value) (enc a ++ rest) = _
    rw [Dec.bind_ok (rt_i8 a rest)]; rfl
  | .i16 a, _, f + 1, hf => fun rest => by
    show (do let v ← dec; pure (.i16 v) : Dec Value) (enc a ++ rest) = _
    rw [Dec.bind_ok (rt_i16 a rest)]; rfl
  | .i32 a, _, f + 1, hf => fun rest => by
    show (do let v ← dec; pure (.i32 v) : Dec Value) (enc a ++ rest) = _
    rw [Dec.bind_ok (rt_i32 a rest)]; rfl
  | .i64 a, _, f + 1, hf => fun rest => by
    show (do let v ← dec; pure (.i64 v) : Dec Value) (enc a ++ rest) = _
    rw [Dec.bind_ok (rt_i64 a rest)]; rfl
  | .f32 a, _, f + 1, hf => fun rest => by
    show (do let v ← dec; pure (.f32 v) : Dec Value) (enc a ++ rest) = _
    rw [Dec.bind_ok (rt_f32 a rest)]; rfl
  | .f64 a, _, f + 1, hf => fun rest => by
    show (do let v ← dec; pure (.f64 v) : Dec Value) (enc a ++ rest) = _
    rw [Dec.bind_ok (rt_f64 a rest)]; rfl
  | .char a, _, f + 1, hf => fun rest => by
    show (do let v ← dec; pure (.char v) : Dec Value) (enc a ++ rest) = _
    rw [Dec.bind_ok (rt_char a rest)]; rfl
  | .str a, h, f + 1, hf => fun rest => by
    simp only [Legal] at h
    show (do let v ← dec; pure (.str v) : Dec Value) (enc a ++ rest) = _
    rw [Dec.bind_ok (rt_string h rest)]; rfl
  | .unit, _, f + 1, hf => fun rest => rfl
  | .opt none, _, f + 1, hf => fun rest => rfl
  | .opt (some a), h, f + 1, hf => fun rest => by
    simp only [Legal, LegalOpt] at h
    simp only [encode, List.length_cons] at hf
    simp only [encode, List.cons_append]
    show (do let v ← (do let a ← decodeFuel f; pure (some a) : Dec (Option Value)); pure (.opt v)
      : Dec Value) (encode a ++ rest) = _
    have := decode_encode a h f (by omega) rest
    rw [Dec.bind_ok (d := (do let a ← decodeFuel f; pure (some a) : Dec (Option Value)))
      (a := some a) (r := rest) (by rw [Dec.bind_ok this]; rfl)]
    rfl
  | .newtype a, h, f + 1, hf => fun rest => by
    simp only [Legal] at h
    simp only [encode, List.length_cons] at hf
    simp only [encode, List.cons_append]
    show (do let v ← decodeFuel f; pure (.newtype v) : Dec Value) (encode a ++ rest) = _
    rw [Dec.bind_ok (decode_encode a h f (by omega) rest)]; rfl
  | .seq l, h, f + 1, hf => fun rest => by
    simp only [Legal] at h
    simp only [encode, List.length_cons, List.length_append] at hf
    simp only [encode, List.cons_append, List.append_assoc]
    show (do let v ← decodeSeq (decodeFuel f); pure (.seq v) : Dec Value)
      (encVar l.length ++ (encodeSeq l ++ rest)) = _
    have := decode_encodeSeq l h.2 f (by omega) rest
    rw [Dec.bind_ok (d := decodeSeq (decodeFuel f)) (a := l) (r := rest)
      (by unfold decodeSeq; rw [Dec.bind_ok (decVar_encVar8 _ h.1 _)]; exact this)]
    rfl
  | .map l, h, f + 1, hf => fun rest => by
    simp only [Legal] at h
    simp only [encode, List.length_cons, List.length_append] at hf
    simp only [encode, List.cons_append, List.append_assoc]
    show (do let n ← decVar 8
             let v ← decodeMap (decodeFuel f) n []
             pure (.map v) : Dec Value) (encVar l.length ++ (encodeMap l ++ rest)) = _
    have := decode_encodeMap l [] h.2.2 (by simpa using h.2.1) f (by omega) rest
    rw [Dec.bind_ok (decVar_encVar8 _ h.1 _), Dec.bind_ok this]
    rfl
  | .bytes l, h, f + 1, hf => fun rest => by
    simp only [Legal] at h
    show (do let v ← dec; pure (.bytes v) : Dec Value) (enc l ++ rest) = _
    rw [Dec.bind_ok (rt_list h (fun a _ => rt_u8 a) rest)]; rfl
  | .time a, _, f + 1, hf => fun rest => by
    show (do let v ← dec; pure (.time v) : Dec Value) (enc a ++ rest) = _
    rw [Dec.bind_ok (rt_u64 a rest)]; rfl

theorem decode_encodeSeq : ∀ (l : List Value), LegalSeq l → ∀ (fuel : Nat),
    (encodeSeq l).length ≤ fuel →
    ∀ rest, decN (decodeFuel fuel) l.length (encodeSeq l ++ rest) = .ok (l, rest)
  | [], _, f, hf => fun rest => rfl
  | v :: l, h, f, hf => fun rest => by
    simp only [LegalSeq] at h
    simp only [encodeSeq, List.length_append] at hf
    simp only [encodeSeq, List.append_assoc, List.length_cons, decN]
    rw [Dec.bind_ok (decode_encode v h.1 f (by omega) _),
      Dec.bind_ok (decode_encodeSeq l h.2 f (by omega) rest)]
    rfl

theorem decode_encodeMap : ∀ (l m : List (Value × Value)), LegalMap l →
    (m ++ l).Pairwise (fun p q => cmp p.1 q.1 = .lt) → ∀ (fuel : Nat),
    (encodeMap l).length ≤ fuel →
    ∀ rest, decodeMap (decodeFuel fuel) l.length m (encodeMap l ++ rest) = .ok (m ++ l, rest)
  | [], m, _, _, f, hf => fun rest => by simp [encodeMap, decodeMap]
  | (k, v) :: l, m, h, hs, f, hf => fun rest => by
    simp only [LegalMap] at h
    simp only [encodeMap, List.length_append] at hf
    simp only [encodeMap, List.append_assoc, List.length_cons, decodeMap]
    have hs' : ((m ++ [(k, v)]) ++ l).Pairwise (fun p q => cmp p.1 q.1 = .lt) := by simpa using hs
    have hk : ∀ p ∈ m, cmp p.1 k = .lt := fun p hp =>
      (List.pairwise_append.1 hs).2.2 p hp (k, v) (by simp)
    rw [Dec.bind_ok (decode_encode k h.1 f (by omega) _),
      Dec.bind_ok (decode_encode v h.2.1 f (by omega) _), insertKey_last hk,
      decode_encodeMap l (m ++ [(k, v)]) h.2.2 hs' f (by omega) rest]
    simp
end

theorem rt_value {v : Value} (h : Legal v) : RoundTrips v := by
  intro rest
  exact decode_encode v h _ (by simp [enc]; omega) rest

end Value
end Verif
