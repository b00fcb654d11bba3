import Verif.Spec.Params
/-!
Lemmas on the parameters.
-/
namespace Verif
namespace Params

theorem cast_of_has {t : IntTy} {n : Int} (h : t.Has n) : t.cast n = n := by
  cases t <;> simp only [IntTy.Has] at h <;> simp only [IntTy.cast]
  · rw [UInt8.ofInt, UInt8.toNat_ofNat', Nat.mod_eq_of_lt (by omega)]; omega
  · exact Int8.toInt_ofInt_of_le (by omega) (by omega)
  · rw [UInt16.ofInt, UInt16.toNat_ofNat', Nat.mod_eq_of_lt (by omega)]; omega
  · exact Int16.toInt_ofInt_of_le (by omega) (by omega)
  · rw [UInt32.ofInt, UInt32.toNat_ofNat', Nat.mod_eq_of_lt (by omega)]; omega
  · exact Int32.toInt_ofInt_of_le (by omega) (by omega)
  · rw [UInt64.ofInt, UInt64.toNat_ofNat', Nat.mod_eq_of_lt (by omega)]; omega
  · exact Int64.toInt_ofInt_of_le (by omega) (by omega)

theorem has_cast (t : IntTy) (n : Int) : t.Has (t.cast n) := by
  cases t <;> simp only [IntTy.Has, IntTy.cast]
  · have := (UInt8.ofInt n).toNat_lt; omega
  · have h1 := (Int8.ofInt n).toInt_lt; have h2 := (Int8.ofInt n).le_toInt; omega
  · have := (UInt16.ofInt n).toNat_lt; omega
  · have h1 := (Int16.ofInt n).toInt_lt; have h2 := (Int16.ofInt n).le_toInt; omega
  · have := (UInt32.ofInt n).toNat_lt; omega
  · have h1 := (Int32.ofInt n).toInt_lt; have h2 := (Int32.ofInt n).le_toInt; omega
  · have := (UInt64.ofInt n).toNat_lt; omega
  · have h1 := (Int64.ofInt n).toInt_lt; have h2 := (Int64.ofInt n).le_toInt; omega

theorem asInt_eq (t : IntTy) (v : RonValue) :
    asInt t v = match v.integer? with | some i => .ok (t.cast i) | none => .panic := by
  cases v with
  | number n => cases n <;> rfl
  | _ => rfl

theorem asF64_int (fc : Fpu) {v : RonValue} {i : Int} (h : v.integer? = some i) :
    asF64 fc v = .ok (fc.ofInt i) := by
  cases v with
  | number n =>
    cases n <;> simp only [RonValue.integer?, Number.integer?, Option.some.injEq, reduceCtorEq] at h <;>
      subst h <;> rfl
  | _ => simp [RonValue.integer?] at h

theorem integer_toValue (v : Settable) : v.toValue.integer? = v.integer? := by
  cases v <;> simp [Settable.toValue, RonValue.integer?, Number.integer?, Settable.integer?]

theorem lookup_filter_ne {k key : String} (c : ComponentConfig) (h : k ≠ key) :
    (c.filter (fun e => e.1 != k)).lookup key = c.lookup key := by
  induction c with
  | nil => rfl
  | cons e c ih =>
    obtain ⟨a, v⟩ := e
    by_cases ha : a = k
    · subst ha
      have : (key == a) = false := by simpa using fun hh => h hh.symm
      simp [List.lookup_cons, this]
      simpa using ih
    · have h1 : (a != k) = true := by simpa using ha
      simp only [List.filter_cons, h1, if_true, List.lookup_cons]
      rw [ih]

theorem lookup_set (c : ComponentConfig) (k key : String) (v : Settable) :
    (ComponentConfig.set c k v).lookup key = if k = key then some v.toValue else c.lookup key := by
  unfold ComponentConfig.set
  by_cases h : k = key
  · subst h; simp
  · have h' : (key == k) = false := by simpa using fun hh => h hh.symm
    rw [if_neg h, List.lookup_cons, h']
    exact lookup_filter_ne c h

/-- The value of a parameter of a task, of any type. -/
def raw (n : Config.Node ComponentConfig) (key : String) : Option RonValue :=
  match n.config with
  | none => none
  | some c => c.lookup key

theorem getParam_raw {α : Type} (n : Config.Node ComponentConfig) (f : RonValue → Rs α) (key : String) :
    getParam n f key = match raw n key with | none => .ok none | some v => (f v).map' some := by
  unfold getParam raw ComponentConfig.get
  cases n.config <;> rfl

theorem raw_set (n : Config.Node ComponentConfig) (k key : String) (v : Settable) :
    raw (setParam n k v) key = if k = key then some v.toValue else raw n key := by
  unfold raw setParam
  cases h : n.config with
  | none => simp only [lookup_set]; rfl
  | some c => simp only [lookup_set]

theorem raw_setAll (l : List (String × Settable)) (n : Config.Node ComponentConfig) (key : String) :
    raw (setAll n l) key = match lastSet key l with | some v => some v.toValue | none => raw n key := by
  induction l generalizing n with
  | nil => rfl
  | cons e l ih =>
    obtain ⟨k, v⟩ := e
    show raw (setAll (setParam n k v) l) key = _
    rw [ih, lastSet]
    cases lastSet key l with
    | some w => rfl
    | none =>
      simp only [raw_set]
      by_cases h : k = key <;> simp [h]

end Params
end Verif
