import Verif.Model.Value
import Verif.Proofs.BincodeText
/-!
The order of values is the lexicographic order of a list of integers attached to each value.
-/
namespace Verif
open Bincode
namespace Value

/-- Lexicographic order. -/
def lex : List Int → List Int → Ordering
  | [], [] => .eq
  | [], _ :: _ => .lt
  | _ :: _, [] => .gt
  | a :: l, b :: m => (compare a b).then (lex l m)

theorem lex_self (l : List Int) : lex l l = .eq := by
  induction l with
  | nil => rfl
  | cons a l ih => simp [lex, ih, Ordering.then]

theorem eq_of_lex : ∀ {l m : List Int}, lex l m = .eq → l = m
  | [], [], _ => rfl
  | [], _ :: _, h => by simp [lex] at h
  | _ :: _, [], h => by simp [lex] at h
  | a :: l, b :: m, h => by
    simp only [lex] at h
    rcases hc : compare a b with _ | _ | _ <;> rw [hc] at h <;> simp [Ordering.then] at h
    rw [eq_of_lex h, Std.LawfulEqCmp.eq_of_compare hc]

theorem lex_swap : ∀ l m : List Int, lex m l = (lex l m).swap
  | [], [] => rfl
  | [], _ :: _ => rfl
  | _ :: _, [] => rfl
  | a :: l, b :: m => by
    simp only [lex]
    rw [lex_swap l m, Std.OrientedCmp.eq_swap (cmp := compare) (a := b) (b := a)]
    rcases compare a b with _ | _ | _ <;> simp [Ordering.then, Ordering.swap]

theorem lex_trans : ∀ {l m n : List Int}, lex l m ≠ .gt → lex m n ≠ .gt → lex l n ≠ .gt
  | [], _, [], _, _ => by simp [lex]
  | [], _, _ :: _, _, _ => by simp [lex]
  | _ :: _, [], _, h, _ => by simp [lex] at h
  | _ :: _, _ :: _, [], _, h => by simp [lex] at h
  | a :: l, b :: m, c :: n, h1, h2 => by
    have hlt : ∀ x y : Int, compare x y = .lt ↔ x < y := fun _ _ => Int.compare_eq_lt
    have hgt : ∀ x y : Int, compare x y = .gt ↔ y < x := fun _ _ => Int.compare_eq_gt
    have heq : ∀ x y : Int, compare x y = .eq ↔ x = y := fun _ _ => Int.compare_eq_eq
    simp only [lex] at h1 h2 ⊢
    rcases hab : compare a b with _ | _ | _ <;> rw [hab] at h1 <;>
      simp only [Ordering.then] at h1
    · rcases hbc : compare b c with _ | _ | _ <;> rw [hbc] at h2 <;>
        simp only [Ordering.then] at h2
      · have : compare a c = .lt := (hlt _ _).2 (by have := (hlt _ _).1 hab; have := (hlt _ _).1 hbc; omega)
        rw [this]; simp [Ordering.then]
      · have : compare a c = .lt := (hlt _ _).2 (by have := (hlt _ _).1 hab; have := (heq _ _).1 hbc; omega)
        rw [this]; simp [Ordering.then]
      · exact absurd rfl h2
    · have e := (heq _ _).1 hab
      subst e
      rcases hbc : compare a c with _ | _ | _ <;> rw [hbc] at h2 <;>
        simp only [Ordering.then] at h2 ⊢
      · simp
      · exact lex_trans h1 h2
      · exact h2
    · exact absurd rfl h1

/-- Bytes as a list in which no proper prefix of one list is another. -/
def keyBytes : Bytes → List Int
  | [] => [0]
  | b :: l => 1 :: (b.toNat : Int) :: keyBytes l

mutual
/-- The list of integers attached to a value. -/
def key : Value → List Int
  | .bool a => [0, a.toNat]
  | .u8 a => [1, a.toNat]
  | .u16 a => [2, a.toNat]
  | .u32 a => [3, a.toNat]
  | .u64 a => [4, a.toNat]
  | .i8 a => [5, a.toInt]
  | .i16 a => [6, a.toInt]
  | .i32 a => [7, a.toInt]
  | .i64 a => [8, a.toInt]
  | .f32 a => [9, f32Key a]
  | .f64 a => [10, f64Key a]
  | .char a => [11, a.toNat]
  | .str a => 12 :: keyBytes (strBytes a)
  | .unit => [13]
  | .opt a => 14 :: keyOpt a
  | .newtype v => 15 :: key v
  | .seq l => 16 :: keySeq l
  | .map l => 17 :: keyMap l
  | .bytes l => 18 :: keyBytes l
  | .time a => [32, a.toNat]

def keyOpt : Option Value → List Int
  | none => [0]
  | some v => 1 :: key v

def keySeq : List Value → List Int
  | [] => [0]
  | v :: l => 1 :: (key v ++ keySeq l)

def keyMap : List (Value × Value) → List Int
  | [] => [0]
  | (k, v) :: l => 1 :: (key k ++ (key v ++ keyMap l))
end

theorem lex_cons_self (a : Int) (l m : List Int) : lex (a :: l) (a :: m) = lex l m := by
  simp [lex, Ordering.then]

theorem compare_natCast (a b : Nat) : compare a b = compare (a : Int) (b : Int) := by
  simp only [compare, compareOfLessAndEq]
  simp only [Int.ofNat_lt, Int.ofNat_inj]

theorem lex_natCast (a b : Nat) (r s : List Int) :
    (compare a b).then (lex r s) = lex ((a : Int) :: r) ((b : Int) :: s) := by
  rw [compare_natCast]; rfl

theorem lex_bytes (a b : Bytes) (r s : List Int) :
    (cmpBytes a b).then (lex r s) = lex (keyBytes a ++ r) (keyBytes b ++ s) := by
  induction a generalizing b with
  | nil =>
    cases b with
    | nil => simp [cmpBytes, keyBytes, lex_cons_self, Ordering.then]
    | cons b l => rfl
  | cons a l ih =>
    cases b with
    | nil => rfl
    | cons b m =>
      simp only [cmpBytes, keyBytes, List.cons_append, lex_cons_self]
      rw [Ordering.then_assoc, ih, lex_natCast]

set_option maxRecDepth 4000 in
mutual
theorem lex_key : ∀ (a b : Value) (r s : List Int),
    (cmp a b).then (lex r s) = lex (key a ++ r) (key b ++ s)
  | .bool a, b, r, s => by
    cases b <;> first
      | rfl
      | (simp only [cmp, cmpBool, key, List.cons_append, lex_cons_self, List.nil_append]
         exact lex_natCast _ _ _ _)
  | .u8 a, b, r, s => by
    cases b <;> first
      | rfl
      | (simp only [cmp, key, List.cons_append, lex_cons_self, List.nil_append]
         exact lex_natCast _ _ _ _)
  | .u16 a, b, r, s => by
    cases b <;> first
      | rfl
      | (simp only [cmp, key, List.cons_append, lex_cons_self, List.nil_append]
         exact lex_natCast _ _ _ _)
  | .u32 a, b, r, s => by
    cases b <;> first
      | rfl
      | (simp only [cmp, key, List.cons_append, lex_cons_self, List.nil_append]
         exact lex_natCast _ _ _ _)
  | .u64 a, b, r, s => by
    cases b <;> first
      | rfl
      | (simp only [cmp, key, List.cons_append, lex_cons_self, List.nil_append]
         exact lex_natCast _ _ _ _)
  | .i8 a, b, r, s => by
    cases b <;> first
      | rfl
      | (simp only [cmp, key, List.cons_append, lex_cons_self, List.nil_append]; rfl)
  | .i16 a, b, r, s => by
    cases b <;> first
      | rfl
      | (simp only [cmp, key, List.cons_append, lex_cons_self, List.nil_append]; rfl)
  | .i32 a, b, r, s => by
    cases b <;> first
      | rfl
      | (simp only [cmp, key, List.cons_append, lex_cons_self, List.nil_append]; rfl)
  | .i64 a, b, r, s => by
    cases b <;> first
      | rfl
      | (simp only [cmp, key, List.cons_append, lex_cons_self, List.nil_append]; rfl)
  | .f32 a, b, r, s => by
    cases b <;> first
      | rfl
      | (simp only [cmp, key, List.cons_append, lex_cons_self, List.nil_append]; rfl)
  | .f64 a, b, r, s => by
    cases b <;> first
      | rfl
      | (simp only [cmp, key, List.cons_append, lex_cons_self, List.nil_append]; rfl)
  | .char a, b, r, s => by
    cases b <;> first
      | rfl
      | (simp only [cmp, key, List.cons_append, lex_cons_self, List.nil_append]
         exact lex_natCast _ _ _ _)
  | .str a, b, r, s => by
    cases b <;> first
      | rfl
      | (simp only [cmp, key, List.cons_append, lex_cons_self, List.nil_append]
         exact lex_bytes _ _ _ _)
      | (simp only [cmp, key, List.cons_append, discriminant]; rfl)
  | .unit, b, r, s => by
    cases b <;> first
      | rfl
      | (simp only [cmp, key, List.cons_append, lex_cons_self, List.nil_append]; rfl)
  | .opt a, b, r, s => by
    cases b <;> first
      | rfl
      | (simp only [cmp, key, List.cons_append, lex_cons_self, List.nil_append]
         exact lex_keyOpt _ _ _ _)
      | (simp only [cmp, key, List.cons_append, discriminant]; rfl)
  | .newtype a, b, r, s => by
    cases b <;> first
      | rfl
      | (simp only [cmp, key, List.cons_append, lex_cons_self, List.nil_append]
         exact lex_key _ _ _ _)
      | (simp only [cmp, key, List.cons_append, discriminant]; rfl)
  | .seq a, b, r, s => by
    cases b <;> first
      | rfl
      | (simp only [cmp, key, List.cons_append, lex_cons_self, List.nil_append]
         exact lex_keySeq _ _ _ _)
      | (simp only [cmp, key, List.cons_append, discriminant]; rfl)
  | .map a, b, r, s => by
    cases b <;> first
      | rfl
      | (simp only [cmp, key, List.cons_append, lex_cons_self, List.nil_append]
         exact lex_keyMap _ _ _ _)
      | (simp only [cmp, key, List.cons_append, discriminant]; rfl)
  | .bytes a, b, r, s => by
    cases b <;> first
      | rfl
      | (simp only [cmp, key, List.cons_append, lex_cons_self, List.nil_append]
         exact lex_bytes _ _ _ _)
      | (simp only [cmp, key, List.cons_append, discriminant]; rfl)
  | .time a, b, r, s => by
    cases b <;> first
      | rfl
      | (simp only [cmp, key, List.cons_append, lex_cons_self, List.nil_append]
         exact lex_natCast _ _ _ _)

theorem lex_keyOpt : ∀ (a b : Option Value) (r s : List Int),
    (cmpOpt a b).then (lex r s) = lex (keyOpt a ++ r) (keyOpt b ++ s)
  | none, b, r, s => by
    cases b with
    | none => simp only [cmpOpt, keyOpt, List.cons_append, lex_cons_self, List.nil_append]; rfl
    | some b => simp only [cmpOpt, keyOpt, List.cons_append]; rfl
  | some a, b, r, s => by
    cases b with
    | none => simp only [cmpOpt, keyOpt, List.cons_append]; rfl
    | some b =>
      simp only [cmpOpt, keyOpt, List.cons_append, lex_cons_self]
      exact lex_key a b r s

theorem lex_keySeq : ∀ (a b : List Value) (r s : List Int),
    (cmpSeq a b).then (lex r s) = lex (keySeq a ++ r) (keySeq b ++ s)
  | [], b, r, s => by
    cases b with
    | nil => simp only [cmpSeq, keySeq, List.cons_append, lex_cons_self, List.nil_append]; rfl
    | cons b l => simp only [cmpSeq, keySeq, List.cons_append]; rfl
  | a :: l, b, r, s => by
    cases b with
    | nil => simp only [cmpSeq, keySeq, List.cons_append]; rfl
    | cons b m =>
      simp only [cmpSeq, keySeq, List.cons_append, lex_cons_self, List.append_assoc]
      rw [Ordering.then_assoc, lex_keySeq l m r s, lex_key a b]

theorem lex_keyMap : ∀ (a b : List (Value × Value)) (r s : List Int),
    (cmpMap a b).then (lex r s) = lex (keyMap a ++ r) (keyMap b ++ s)
  | [], b, r, s => by
    cases b with
    | nil => simp only [cmpMap, keyMap, List.cons_append, lex_cons_self, List.nil_append]; rfl
    | cons b l => obtain ⟨k', v'⟩ := b; simp only [cmpMap, keyMap, List.cons_append]; rfl
  | (k, v) :: l, b, r, s => by
    cases b with
    | nil => simp only [cmpMap, keyMap, List.cons_append]; rfl
    | cons b m =>
      obtain ⟨k', v'⟩ := b
      simp only [cmpMap, keyMap, List.cons_append, lex_cons_self, List.append_assoc]
      rw [Ordering.then_assoc, Ordering.then_assoc, lex_keyMap l m r s, lex_key v v', lex_key k k']
end

theorem then_eq (o : Ordering) : o.then .eq = o := by cases o <;> rfl

theorem cmp_eq_lex (a b : Value) : cmp a b = lex (key a) (key b) := by
  have := lex_key a b [] []
  simpa [lex, then_eq] using this

theorem cmpOpt_eq_lex (a b : Option Value) : cmpOpt a b = lex (keyOpt a) (keyOpt b) := by
  have := lex_keyOpt a b [] []
  simpa [lex, then_eq] using this

theorem cmpSeq_eq_lex (a b : List Value) : cmpSeq a b = lex (keySeq a) (keySeq b) := by
  have := lex_keySeq a b [] []
  simpa [lex, then_eq] using this

theorem cmpMap_eq_lex (a b : List (Value × Value)) : cmpMap a b = lex (keyMap a) (keyMap b) := by
  have := lex_keyMap a b [] []
  simpa [lex, then_eq] using this

theorem cmp_swap (a b : Value) : cmp b a = (cmp a b).swap := by
  rw [cmp_eq_lex, cmp_eq_lex, lex_swap]

theorem cmp_trans {a b c : Value} (h1 : cmp a b ≠ .gt) (h2 : cmp b c ≠ .gt) : cmp a c ≠ .gt := by
  rw [cmp_eq_lex] at *
  exact lex_trans h1 h2

theorem cmp_self (a : Value) : cmp a a = .eq := by rw [cmp_eq_lex, lex_self]

end Value
end Verif
