import Verif.Proofs.ValueOrd
import Verif.Spec.Value
/-! Equality agrees with the order, and equal values feed the hasher alike. -/
namespace Verif
open Bincode
namespace Value

theorem isEq_then (o p : Ordering) : (o.then p).isEq = (o.isEq && p.isEq) := by
  cases o <;> rfl

theorem beq_nat (a b : Nat) : (a == b) = (compare a b).isEq := by
  rw [Bool.eq_iff_iff, beq_iff_eq, Ordering.isEq_iff_eq_eq, Nat.compare_eq_eq]

theorem beq_int (a b : Int) : (a == b) = (compare a b).isEq := by
  rw [Bool.eq_iff_iff, beq_iff_eq, Ordering.isEq_iff_eq_eq, Int.compare_eq_eq]

theorem cmpBytes_isEq (a b : Bytes) : (a == b) = (cmpBytes a b).isEq := by
  induction a generalizing b with
  | nil => cases b <;> rfl
  | cons a l ih =>
    cases b with
    | nil => rfl
    | cons b m =>
      simp only [cmpBytes, isEq_then, ← ih, ← beq_nat]
      rw [Bool.eq_iff_iff]
      simp [UInt8.toNat_inj]

theorem str_beq (a b : String) : (a == b) = (strBytes a == strBytes b) := by
  rw [Bool.eq_iff_iff, beq_iff_eq, beq_iff_eq]
  exact ⟨fun h => by rw [h], strBytes_inj⟩

set_option maxRecDepth 4000 in
mutual
theorem eqv_eq : ∀ a b : Value, eqv a b = (cmp a b).isEq
  | .bool a, b => by
    cases b <;> first
      | (simp only [eqv, cmp, discriminant]; rfl)
      | (simp only [eqv, cmp, cmpBool, ← beq_nat]
         rename_i x; cases a <;> cases x <;> rfl)
  | .u8 a, b => by
    cases b <;> first
      | (simp only [eqv, cmp, discriminant]; rfl)
      | (simp only [eqv, cmp, ← beq_nat]
         rw [Bool.eq_iff_iff, beq_iff_eq, beq_iff_eq, UInt8.toNat_inj])
  | .u16 a, b => by
    cases b <;> first
      | (simp only [eqv, cmp, discriminant]; rfl)
      | (simp only [eqv, cmp, ← beq_nat]
         rw [Bool.eq_iff_iff, beq_iff_eq, beq_iff_eq, UInt16.toNat_inj])
  | .u32 a, b => by
    cases b <;> first
      | (simp only [eqv, cmp, discriminant]; rfl)
      | (simp only [eqv, cmp, ← beq_nat]
         rw [Bool.eq_iff_iff, beq_iff_eq, beq_iff_eq, UInt32.toNat_inj])
  | .u64 a, b => by
    cases b <;> first
      | (simp only [eqv, cmp, discriminant]; rfl)
      | (simp only [eqv, cmp, ← beq_nat]
         rw [Bool.eq_iff_iff, beq_iff_eq, beq_iff_eq, UInt64.toNat_inj])
  | .i8 a, b => by
    cases b <;> first
      | (simp only [eqv, cmp, discriminant]; rfl)
      | (simp only [eqv, cmp, ← beq_int]
         rw [Bool.eq_iff_iff, beq_iff_eq, beq_iff_eq, Int8.toInt_inj])
  | .i16 a, b => by
    cases b <;> first
      | (simp only [eqv, cmp, discriminant]; rfl)
      | (simp only [eqv, cmp, ← beq_int]
         rw [Bool.eq_iff_iff, beq_iff_eq, beq_iff_eq, Int16.toInt_inj])
  | .i32 a, b => by
    cases b <;> first
      | (simp only [eqv, cmp, discriminant]; rfl)
      | (simp only [eqv, cmp, ← beq_int]
         rw [Bool.eq_iff_iff, beq_iff_eq, beq_iff_eq, Int32.toInt_inj])
  | .i64 a, b => by
    cases b <;> first
      | (simp only [eqv, cmp, discriminant]; rfl)
      | (simp only [eqv, cmp, ← beq_int]
         rw [Bool.eq_iff_iff, beq_iff_eq, beq_iff_eq, Int64.toInt_inj])
  | .f32 a, b => by
    cases b <;> first
      | (simp only [eqv, cmp, discriminant]; rfl)
      | (simp only [eqv, cmp]; exact beq_int _ _)
  | .f64 a, b => by
    cases b <;> first
      | (simp only [eqv, cmp, discriminant]; rfl)
      | (simp only [eqv, cmp]; exact beq_int _ _)
  | .char a, b => by
    cases b <;> first
      | (simp only [eqv, cmp, discriminant]; rfl)
      | (simp only [eqv, cmp, ← beq_nat]
         rw [Bool.eq_iff_iff, beq_iff_eq, beq_iff_eq]
         rw [Char.toNat_inj])
  | .str a, b => by
    cases b <;> first
      | (simp only [eqv, cmp]; rw [str_beq]; exact cmpBytes_isEq _ _)
      | (simp only [eqv, cmp, discriminant]; rfl)
  | .unit, b => by
    cases b <;> first
      | (simp only [eqv, cmp, discriminant]; rfl)
      | (simp only [eqv, cmp]; rfl)
  | .opt a, b => by
    cases b <;> first
      | (simp only [eqv, cmp]; exact eqvOpt_eq _ _)
      | (simp only [eqv, cmp, discriminant]; rfl)
  | .newtype a, b => by
    cases b <;> first
      | (simp only [eqv, cmp]; exact eqv_eq _ _)
      | (simp only [eqv, cmp, discriminant]; rfl)
  | .seq a, b => by
    cases b <;> first
      | (simp only [eqv, cmp]; exact eqvSeq_eq _ _)
      | (simp only [eqv, cmp, discriminant]; rfl)
  | .map a, b => by
    cases b <;> first
      | (simp only [eqv, cmp]; exact eqvMap_eq _ _)
      | (simp only [eqv, cmp, discriminant]; rfl)
  | .bytes a, b => by
    cases b <;> first
      | (simp only [eqv, cmp]; exact cmpBytes_isEq _ _)
      | (simp only [eqv, cmp, discriminant]; rfl)
  | .time a, b => by
    cases b <;> first
      | (simp only [eqv, cmp, discriminant]; rfl)
      | (simp only [eqv, cmp, ← beq_nat]
         rw [Bool.eq_iff_iff, beq_iff_eq, beq_iff_eq, UInt64.toNat_inj])

theorem eqvOpt_eq : ∀ a b : Option Value, eqvOpt a b = (cmpOpt a b).isEq
  | none, b => by cases b <;> (simp only [eqvOpt, cmpOpt]; rfl)
  | some a, b => by
    cases b with
    | none => simp only [eqvOpt, cmpOpt]; rfl
    | some b => simp only [eqvOpt, cmpOpt]; exact eqv_eq a b

theorem eqvSeq_eq : ∀ a b : List Value, eqvSeq a b = (cmpSeq a b).isEq
  | [], b => by cases b <;> (simp only [eqvSeq, cmpSeq]; rfl)
  | a :: l, b => by
    cases b with
    | nil => simp only [eqvSeq, cmpSeq]; rfl
    | cons b m => simp only [eqvSeq, cmpSeq, isEq_then]; rw [eqv_eq a b, eqvSeq_eq l m]

theorem eqvMap_eq : ∀ a b : List (Value × Value), eqvMap a b = (cmpMap a b).isEq
  | [], b => by
    cases b with
    | nil => simp only [eqvMap, cmpMap]; rfl
    | cons b l => obtain ⟨k, v⟩ := b; simp only [eqvMap, cmpMap]; rfl
  | (k, v) :: l, b => by
    cases b with
    | nil => simp only [eqvMap, cmpMap]; rfl
    | cons b m =>
      obtain ⟨k', v'⟩ := b
      simp only [eqvMap, cmpMap, isEq_then]
      rw [eqv_eq k k', eqv_eq v v', eqvMap_eq l m, Bool.and_assoc]
end

theorem eqvSeq_length : ∀ {a b : List Value}, eqvSeq a b = true → a.length = b.length
  | [], [], _ => rfl
  | [], _ :: _, h => by simp [eqvSeq] at h
  | _ :: _, [], h => by simp [eqvSeq] at h
  | a :: l, b :: m, h => by
    simp only [eqvSeq, Bool.and_eq_true] at h
    simp [eqvSeq_length h.2]

theorem eqvMap_length : ∀ {a b : List (Value × Value)}, eqvMap a b = true → a.length = b.length
  | [], [], _ => rfl
  | [], _ :: _, h => by simp [eqvMap] at h
  | _ :: _, [], h => by simp [eqvMap] at h
  | (k, v) :: l, (k', v') :: m, h => by
    simp only [eqvMap, Bool.and_eq_true] at h
    simp [eqvMap_length h.2]

set_option maxRecDepth 4000 in
mutual
theorem hashed_eq : ∀ a b : Value, eqv a b = true → hashed a = hashed b
  | .bool a, b, h => by cases b <;> first | (simp only [eqv, beq_iff_eq] at h; rw [h]; done) | (simp [eqv] at h; done)
  | .u8 a, b, h => by cases b <;> first | (simp only [eqv, beq_iff_eq] at h; rw [h]; done) | (simp [eqv] at h; done)
  | .u16 a, b, h => by cases b <;> first | (simp only [eqv, beq_iff_eq] at h; rw [h]; done) | (simp [eqv] at h; done)
  | .u32 a, b, h => by cases b <;> first | (simp only [eqv, beq_iff_eq] at h; rw [h]; done) | (simp [eqv] at h; done)
  | .u64 a, b, h => by cases b <;> first | (simp only [eqv, beq_iff_eq] at h; rw [h]; done) | (simp [eqv] at h; done)
  | .i8 a, b, h => by cases b <;> first | (simp only [eqv, beq_iff_eq] at h; rw [h]; done) | (simp [eqv] at h; done)
  | .i16 a, b, h => by cases b <;> first | (simp only [eqv, beq_iff_eq] at h; rw [h]; done) | (simp [eqv] at h; done)
  | .i32 a, b, h => by cases b <;> first | (simp only [eqv, beq_iff_eq] at h; rw [h]; done) | (simp [eqv] at h; done)
  | .i64 a, b, h => by cases b <;> first | (simp only [eqv, beq_iff_eq] at h; rw [h]; done) | (simp [eqv] at h; done)
  | .f32 a, b, h => by cases b <;> first | (simp only [eqv, beq_iff_eq] at h; simp only [hashed, h]; done) | (simp [eqv] at h; done)
  | .f64 a, b, h => by cases b <;> first | (simp only [eqv, beq_iff_eq] at h; simp only [hashed, h]; done) | (simp [eqv] at h; done)
  | .char a, b, h => by cases b <;> first | (simp only [eqv, beq_iff_eq] at h; rw [h]; done) | (simp [eqv] at h; done)
  | .str a, b, h => by cases b <;> first | (simp only [eqv, beq_iff_eq] at h; rw [h]; done) | (simp [eqv] at h; done)
  | .unit, b, h => by cases b <;> first | rfl | (simp [eqv] at h; done)
  | .opt none, b, h => by
    cases b <;> first
      | (rename_i o; cases o <;> first | rfl | (simp [eqv, eqvOpt] at h; done))
      | (simp [eqv] at h; done)
  | .opt (some a), b, h => by
    cases b <;> first
      | (rename_i o
         cases o <;> first
          | (simp only [eqv, eqvOpt] at h; simp only [hashed]; rw [hashed_eq a _ h]; done)
          | (simp [eqv, eqvOpt] at h; done))
      | (simp [eqv] at h; done)
  | .newtype a, b, h => by
    cases b <;> first
      | (simp only [eqv] at h; simp only [hashed]; rw [hashed_eq a _ h]; done)
      | (simp [eqv] at h; done)
  | .seq a, b, h => by
    cases b <;> first
      | (simp only [eqv] at h; simp only [hashed]
         rw [hashedSeq_eq a _ h, eqvSeq_length h]; done)
      | (simp [eqv] at h; done)
  | .map a, b, h => by
    cases b <;> first
      | (simp only [eqv] at h; simp only [hashed]
         rw [hashedMap_eq a _ h, eqvMap_length h]; done)
      | (simp [eqv] at h; done)
  | .bytes a, b, h => by cases b <;> first | (simp only [eqv, beq_iff_eq] at h; rw [h]; done) | (simp [eqv] at h; done)
  | .time a, b, h => by cases b <;> first | (simp only [eqv, beq_iff_eq] at h; rw [h]; done) | (simp [eqv] at h; done)

theorem hashedSeq_eq : ∀ a b : List Value, eqvSeq a b = true → hashedSeq a = hashedSeq b
  | [], b, h => by
    cases b with
    | nil => rfl
    | cons b m => simp [eqvSeq] at h
  | a :: l, b, h => by
    cases b with
    | nil => simp [eqvSeq] at h
    | cons b m =>
      simp only [eqvSeq, Bool.and_eq_true] at h
      simp only [hashedSeq]
      rw [hashed_eq a b h.1, hashedSeq_eq l m h.2]

theorem hashedMap_eq : ∀ a b : List (Value × Value), eqvMap a b = true → hashedMap a = hashedMap b
  | [], b, h => by
    cases b with
    | nil => rfl
    | cons b m => simp [eqvMap] at h
  | (k, v) :: l, b, h => by
    cases b with
    | nil => simp [eqvMap] at h
    | cons b m =>
      obtain ⟨k', v'⟩ := b
      simp only [eqvMap, Bool.and_eq_true] at h
      simp only [hashedMap]
      rw [hashed_eq k k' h.1.1, hashed_eq v v' h.1.2, hashedMap_eq l m h.2]
end

/-! ### Floats -/

theorem floatMag_succ (p m : Nat) : floatMag p m < floatMag p (m + 1) := by
  have hp : 0 < 2 ^ p := Nat.two_pow_pos p
  have h1 := Nat.div_add_mod m (2 ^ p)
  have h2 := Nat.div_add_mod (m + 1) (2 ^ p)
  have h3 := Nat.mod_lt m hp
  have h4 := Nat.mod_lt (m + 1) hp
  unfold floatMag
  by_cases hl : m % 2 ^ p + 1 < 2 ^ p
  · have e1 : (m + 1) / 2 ^ p = m / 2 ^ p := by
      have : m + 1 = (m % 2 ^ p + 1) + 2 ^ p * (m / 2 ^ p) := by omega
      rw [this, Nat.add_mul_div_left _ _ hp, Nat.div_eq_of_lt hl]; omega
    have e2 : (m + 1) % 2 ^ p = m % 2 ^ p + 1 := by
      have : m + 1 = (m % 2 ^ p + 1) + 2 ^ p * (m / 2 ^ p) := by omega
      rw [this, Nat.add_mul_mod_self_left, Nat.mod_eq_of_lt hl]
    rw [e1, e2]
    split
    · omega
    · apply Nat.mul_lt_mul_of_pos_right (by omega) (Nat.two_pow_pos _)
  · have hm : m % 2 ^ p = 2 ^ p - 1 := by omega
    have e1 : (m + 1) / 2 ^ p = m / 2 ^ p + 1 := by
      have : m + 1 = 2 ^ p * (m / 2 ^ p + 1) := by rw [Nat.mul_add]; omega
      rw [this, Nat.mul_div_cancel_left _ hp]
    have e2 : (m + 1) % 2 ^ p = 0 := by
      have : m + 1 = 2 ^ p * (m / 2 ^ p + 1) := by rw [Nat.mul_add]; omega
      rw [this, Nat.mul_mod_right]
    rw [e1, e2, hm]
    simp only [Nat.add_one_ne_zero, if_false, Nat.add_sub_cancel, Nat.add_zero]
    split
    · rename_i h
      rw [h]
      simp only [Nat.pow_zero, Nat.mul_one]
      omega
    · rename_i h
      obtain ⟨q, hq⟩ : ∃ q, m / 2 ^ p = q + 1 := Nat.exists_eq_succ_of_ne_zero h
      rw [hq]
      simp only [Nat.add_sub_cancel]
      rw [Nat.pow_succ 2 q, Nat.mul_comm (2 ^ q) 2, ← Nat.mul_assoc]
      apply Nat.mul_lt_mul_of_pos_right (by omega) (Nat.two_pow_pos _)

theorem floatMag_lt {p m n : Nat} (h : m < n) : floatMag p m < floatMag p n := by
  induction n with
  | zero => omega
  | succ n ih =>
    rcases Nat.lt_or_ge m n with h' | h'
    · exact Nat.lt_trans (ih h') (floatMag_succ p n)
    · have : m = n := by omega
      subst this; exact floatMag_succ p m

theorem floatMag_compare (p m n : Nat) : compare (floatMag p m) (floatMag p n) = compare m n := by
  rcases Nat.lt_trichotomy m n with h | h | h
  · rw [Nat.compare_eq_lt.2 h, Nat.compare_eq_lt.2 (floatMag_lt h)]
  · subst h; simp
  · rw [Nat.compare_eq_gt.2 h, Nat.compare_eq_gt.2 (floatMag_lt h)]

theorem floatMag_zero (p : Nat) : floatMag p 0 = 0 := by simp [floatMag]

theorem floatMag_signed (p : Nat) (s t : Bool) (m n : Nat) :
    compare (signMag s (floatMag p m)) (signMag t (floatMag p n))
      = compare (signMag s m) (signMag t n) := by
  have l1 := @floatMag_lt p m n
  have l2 := @floatMag_lt p n m
  have z1 : m = 0 → floatMag p m = 0 := fun h => by rw [h, floatMag_zero]
  have z2 : n = 0 → floatMag p n = 0 := fun h => by rw [h, floatMag_zero]
  have p1 : 0 < m → 0 < floatMag p m := fun h => by have := @floatMag_lt p 0 m h; omega
  have p2 : 0 < n → 0 < floatMag p n := fun h => by have := @floatMag_lt p 0 n h; omega
  have e : m = n → floatMag p m = floatMag p n := fun h => by rw [h]
  have lt : ∀ {a b : Int}, a < b → compare a b = .lt := fun h => Int.compare_eq_lt.2 h
  have gt : ∀ {a b : Int}, b < a → compare a b = .gt := fun h => Int.compare_eq_gt.2 h
  have eq : ∀ {a b : Int}, a = b → compare a b = .eq := fun h => Int.compare_eq_eq.2 h
  rcases Int.lt_trichotomy (signMag s m) (signMag t n) with h | h | h
  · rw [lt h]; apply lt
    cases s <;> cases t <;> simp only [signMag] at h ⊢ <;> simp at h ⊢ <;> omega
  · rw [eq h]; apply eq
    cases s <;> cases t <;> simp only [signMag] at h ⊢ <;> simp at h ⊢ <;> omega
  · rw [gt h]; apply gt
    cases s <;> cases t <;> simp only [signMag] at h ⊢ <;> simp at h ⊢ <;> omega

theorem F32num_some {x : F32} (h : ¬ 2139095040 < x.bits.toNat % 2147483648) :
    F32num x = some (signMag (2147483648 ≤ x.bits.toNat) (floatMag 23 (x.bits.toNat % 2147483648)))
    := by
  simp only [F32num, signMag, decide_eq_true_eq]
  rw [if_neg (by omega)]
  congr 1
  split <;> split <;> first | rfl | omega

theorem F32num_none {x : F32} (h : 2139095040 < x.bits.toNat % 2147483648) : F32num x = none := by
  simp only [F32num]
  rw [if_pos (by omega)]

theorem F64num_some {x : F64} (h : ¬ 9218868437227405312 < x.bits.toNat % 9223372036854775808) :
    F64num x = some (signMag (9223372036854775808 ≤ x.bits.toNat)
      (floatMag 52 (x.bits.toNat % 9223372036854775808))) := by
  simp only [F64num, signMag, decide_eq_true_eq]
  rw [if_neg (by omega)]
  congr 1
  split <;> split <;> first | rfl | omega

theorem F64num_none {x : F64} (h : 9218868437227405312 < x.bits.toNat % 9223372036854775808) :
    F64num x = none := by
  simp only [F64num]
  rw [if_pos (by omega)]

theorem signMag_lt (s : Bool) (m k : Nat) (h : m < k) : signMag s m < (k : Int) := by
  cases s <;> simp [signMag] <;> omega

theorem f32_order (a b : F32) :
    compare (f32Key a) (f32Key b) = floatOrder (F32num a) (F32num b) := by
  simp only [f32Key]
  by_cases ha : 2139095040 < a.bits.toNat % 2147483648 <;>
    by_cases hb : 2139095040 < b.bits.toNat % 2147483648
  · rw [if_pos ha, if_pos hb, F32num_none ha, F32num_none hb]; rfl
  · rw [if_pos ha, if_neg hb, F32num_none ha, F32num_some hb]
    exact Int.compare_eq_gt.2 (signMag_lt _ _ 2147483648 (by omega))
  · rw [if_neg ha, if_pos hb, F32num_some ha, F32num_none hb]
    exact Int.compare_eq_lt.2 (signMag_lt _ _ 2147483648 (by omega))
  · rw [if_neg ha, if_neg hb, F32num_some ha, F32num_some hb]
    exact (floatMag_signed 23 _ _ _ _).symm

theorem f64_order (a b : F64) :
    compare (f64Key a) (f64Key b) = floatOrder (F64num a) (F64num b) := by
  simp only [f64Key]
  by_cases ha : 9218868437227405312 < a.bits.toNat % 9223372036854775808 <;>
    by_cases hb : 9218868437227405312 < b.bits.toNat % 9223372036854775808
  · rw [if_pos ha, if_pos hb, F64num_none ha, F64num_none hb]; rfl
  · rw [if_pos ha, if_neg hb, F64num_none ha, F64num_some hb]
    exact Int.compare_eq_gt.2 (signMag_lt _ _ 9223372036854775808 (by omega))
  · rw [if_neg ha, if_pos hb, F64num_some ha, F64num_none hb]
    exact Int.compare_eq_lt.2 (signMag_lt _ _ 9223372036854775808 (by omega))
  · rw [if_neg ha, if_neg hb, F64num_some ha, F64num_some hb]
    exact (floatMag_signed 52 _ _ _ _).symm

end Value
end Verif
