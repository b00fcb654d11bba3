import Verif.Spec.ComponentNew
import Verif.Proofs.Params
/-! Lemmas for C125. -/
namespace Verif
namespace ComponentNew
open Params Fp

theorem get_int {c : ComponentConfig} {t : IntTy} {key : String} {o : Option Nat} (h : IntAt c t key o) :
    ComponentConfig.get c (asInt t) key = .ok (o.map Int.ofNat) := by
  cases o with
  | none =>
    simp only [IntAt] at h
    simp [ComponentConfig.get, h]
  | some n =>
    obtain ⟨v, h1, h2, h3⟩ := h
    simp [ComponentConfig.get, h1, asInt_eq, h2, cast_of_has h3, Rs.map']

theorem get_text {c : ComponentConfig} {key : String} {o : Option String} (h : TextAt c key o) :
    ComponentConfig.get c asString key = .ok o := by
  cases o <;> simp only [TextAt] at h <;> simp [ComponentConfig.get, h, asString, Rs.map']

theorem get_bool {c : ComponentConfig} {key : String} {o : Option Bool} (h : BoolAt c key o) :
    ComponentConfig.get c asBool key = .ok o := by
  cases o <;> simp only [BoolAt] at h <;> simp [ComponentConfig.get, h, asBool, Rs.map']

theorem asNum_int {v : RonValue} {i : Int} (h : v.integer? = some i) : asNum v = .ok (round f64 i) := by
  cases v with
  | number n => cases n <;> simp only [RonValue.integer?, Number.integer?] at h <;> cases h <;> rfl
  | _ => cases h

theorem get_num {c : ComponentConfig} {key : String} {o : Option Num} (h : NumAt c key o) :
    ComponentConfig.get c asNum key = .ok o := by
  cases o with
  | none =>
    simp only [NumAt] at h
    simp [ComponentConfig.get, h]
  | some x =>
    rcases h with ⟨v, i, h1, h2, rfl⟩ | ⟨b, h1, rfl⟩
    · simp [ComponentConfig.get, h1, asNum_int h2, Rs.map']
    · simp [ComponentConfig.get, h1, asNum, Rs.map']

theorem get_single {c : ComponentConfig} {key : String} {o : Option Num} (h : NumAt c key o) :
    single c key = .ok (o.map (Num.convert f32)) := by
  rw [single, get_num h]
  rfl

theorem get_millis (m : Overflow) {c : ComponentConfig} {key : String} {o : Option Nat} (h : IntAt c .u32 key o) :
    ∃ d : Option UInt64, getMillis m c key = .ok d ∧ d.map UInt64.toNat = o.map (· * 1000000) := by
  cases o with
  | none =>
    refine ⟨none, ?_, rfl⟩
    unfold getMillis
    rw [get_int h]
    rfl
  | some n =>
    have hn : n < 2 ^ 32 := by
      obtain ⟨v, -, -, h3⟩ := h
      simp only [IntTy.Has] at h3
      omega
    have hd : (UInt64.ofNat n * 1000000).toNat = n * 1000000 := by
      rw [UInt64.toNat_mul, UInt64.toNat_ofNat']
      have : (1000000 : UInt64).toNat = 1000000 := rfl
      rw [this, Nat.mod_eq_of_lt (a := n) (by omega), Nat.mod_eq_of_lt (by omega)]
    refine ⟨some (UInt64.ofNat n * 1000000), ?_, by simp [hd]⟩
    unfold getMillis
    rw [get_int h]
    cases m
    · simp only [Option.map_some, Int.ofNat_eq_natCast, Int.toNat_natCast]
      rw [if_pos (by omega)]
    · simp only [Option.map_some, Int.ofNat_eq_natCast, Int.toNat_natCast]

theorem get_agree {α : Type} {c c' : ComponentConfig} {key : String} (h : c.lookup key = c'.lookup key)
    (f : RonValue → Rs α) : ComponentConfig.get c f key = ComponentConfig.get c' f key := by
  simp only [ComponentConfig.get, h]

theorem servoIds_agree {c c' : ComponentConfig} (n : Nat) : ∀ i, (∀ k, i ≤ k → k < i + n →
    c.lookup (servoKey k) = c'.lookup (servoKey k)) → servoIds c i n = servoIds c' i n := by
  induction n with
  | zero => intro i _; rfl
  | succ n ih =>
    intro i h
    simp only [servoIds]
    rw [h i (Nat.le_refl _) (by omega), ih (i + 1) (fun k h1 h2 => h k (by omega) (by omega))]

theorem servoIds_given {c : ComponentConfig} (f : Nat → Nat) (k : Nat) : ∀ (n i : Nat), 0 < i ∨ 0 < k →
    (∀ j, i ≤ j → j < i + k → IntAt c .u8 (servoKey j) (some (f j))) → k ≤ n →
    (k < n → c.lookup (servoKey (i + k)) = none) →
    servoIds c i n = .ok (some ((List.range k).map (fun j => f (i + j)) ++ List.replicate (n - k) 0)) := by
  induction k with
  | zero =>
    intro n i hi _ _ hend
    cases n with
    | zero => rfl
    | succ n =>
      have := hend (by omega)
      simp only [Nat.add_zero] at this
      have hi : ¬ i = 0 := by omega
      simp [servoIds, this, hi]
  | succ k ih =>
    intro n i hi hgiven hk hend
    cases n with
    | zero => omega
    | succ n =>
      obtain ⟨v, h1, h2, h3⟩ := hgiven i (Nat.le_refl _) (by omega)
      have := ih n (i + 1) (.inl (by omega)) (fun j a b => hgiven j (by omega) (by omega)) (by omega)
        (fun h => by rw [← hend (by omega)]; congr 2; omega)
      have hs : (fun j => f (i + 1 + j)) = (fun j => f (i + j)) ∘ Nat.succ := by
        funext j; simp only [Function.comp]; congr 1; omega
      rw [servoIds, h1]
      simp only [asInt_eq, h2, cast_of_has h3, Rs.ok_bind, this, Option.map_some, Int.toNat_natCast]
      rw [List.range_succ_eq_map, hs]
      simp

end ComponentNew
end Verif
