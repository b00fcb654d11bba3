import Verif.Spec.ValueSerde
import Verif.Proofs.ValueOrd
import Verif.Proofs.ValueEq
namespace Verif
namespace Serde
open Bincode Value

/-! ### Insertion of entries -/

theorem insertKey_perm {k v : Value} {m : List (Value × Value)} (h : ∀ e ∈ m, cmp k e.1 ≠ .eq) :
    (insertKey k v m).Perm ((k, v) :: m) := by
  induction m with
  | nil => exact List.Perm.refl _
  | cons e m ih =>
    obtain ⟨k', v'⟩ := e
    simp only [insertKey]
    split
    · exact List.Perm.refl _
    · rename_i hc
      exact absurd hc (h (k', v') (by simp))
    · exact ((ih fun e he => h e (by simp [he])).cons (k', v')).trans (List.Perm.swap ..)

theorem insertAll_perm {m l : List (Value × Value)}
    (h : l.Pairwise (fun a b => cmp b.1 a.1 ≠ .eq)) (hm : ∀ a ∈ m, ∀ b ∈ l, cmp b.1 a.1 ≠ .eq) :
    (insertAll m l).Perm (m ++ l) := by
  induction l generalizing m with
  | nil => simp [insertAll]
  | cons e l ih =>
    rw [List.pairwise_cons] at h
    have hp := insertKey_perm (k := e.1) (v := e.2) (m := m) (fun a ha => hm a ha e (by simp))
    have := ih (m := insertKey e.1 e.2 m) h.2 (fun a ha b hb => by
      rcases List.mem_cons.1 (hp.mem_iff.1 ha) with rfl | ha
      · exact h.1 b hb
      · exact hm a ha b (by simp [hb]))
    refine this.trans ?_
    exact (hp.append_right l).trans (List.perm_middle.symm)

theorem cmp_lt_trans {a b c : Value} (h1 : cmp a b = .lt) (h2 : cmp b c = .lt) : cmp a c = .lt := by
  have h3 : cmp a c ≠ .gt := cmp_trans (by rw [h1]; simp) (by rw [h2]; simp)
  rcases hac : cmp a c with _ | _ | _
  · rfl
  · exfalso
    have h4 : cmp c b = .lt := by
      rw [cmp_eq_lex] at hac
      rw [cmp_eq_lex, ← eq_of_lex hac, ← cmp_eq_lex]
      exact h1
    rw [cmp_swap b c, h2] at h4
    exact absurd h4 (by simp [Ordering.swap])
  · exact absurd hac h3

theorem insertKey_sorted {k v : Value} {m : List (Value × Value)}
    (h : m.Pairwise (fun p q => cmp p.1 q.1 = .lt)) (hk : ∀ e ∈ m, cmp k e.1 ≠ .eq) :
    (insertKey k v m).Pairwise (fun p q => cmp p.1 q.1 = .lt) := by
  induction m with
  | nil => simp [insertKey]
  | cons e m ih =>
    obtain ⟨k', v'⟩ := e
    rw [List.pairwise_cons] at h
    have hk' : ∀ e ∈ m, cmp k e.1 ≠ .eq := fun e he => hk e (by simp [he])
    simp only [insertKey]
    split
    · rename_i hc
      rw [List.pairwise_cons, List.pairwise_cons]
      refine ⟨?_, h.1, h.2⟩
      intro p hp
      rcases List.mem_cons.1 hp with rfl | hp
      · exact hc
      · exact cmp_lt_trans hc (h.1 p hp)
    · rename_i hc
      exact absurd hc (hk (k', v') (by simp))
    · rename_i hc
      rw [List.pairwise_cons]
      refine ⟨?_, ih h.2 hk'⟩
      intro p hp
      rcases List.mem_cons.1 ((insertKey_perm hk').mem_iff.1 hp) with rfl | hp
      · show cmp k' k = .lt
        rw [cmp_swap k k', hc]; rfl
      · exact h.1 p hp

theorem insertAll_sorted {m l : List (Value × Value)}
    (h : l.Pairwise (fun a b => cmp b.1 a.1 ≠ .eq)) (hm : ∀ a ∈ m, ∀ b ∈ l, cmp b.1 a.1 ≠ .eq)
    (hs : m.Pairwise (fun p q => cmp p.1 q.1 = .lt)) :
    (insertAll m l).Pairwise (fun p q => cmp p.1 q.1 = .lt) := by
  induction l generalizing m with
  | nil => simpa [insertAll] using hs
  | cons e l ih =>
    rw [List.pairwise_cons] at h
    have hp := insertKey_perm (k := e.1) (v := e.2) (m := m) (fun a ha => hm a ha e (by simp))
    exact ih (m := insertKey e.1 e.2 m) h.2 (fun a ha b hb => by
      rcases List.mem_cons.1 (hp.mem_iff.1 ha) with rfl | ha
      · exact h.1 b hb
      · exact hm a ha b (by simp [hb]))
      (insertKey_sorted hs fun a ha => hm a ha e (by simp))

/-- Entries that are sorted already stay as they are. -/
theorem insertAll_of_sorted {m l : List (Value × Value)}
    (h : (m ++ l).Pairwise (fun p q => cmp p.1 q.1 = .lt)) : insertAll m l = m ++ l := by
  have hlast : ∀ (m : List (Value × Value)) (k v : Value), (∀ e ∈ m, cmp e.1 k = .lt) →
      insertKey k v m = m ++ [(k, v)] := by
    intro m k v hm
    induction m with
    | nil => rfl
    | cons e m ih =>
      obtain ⟨k', v'⟩ := e
      have : cmp k k' = .gt := by rw [cmp_swap k' k, hm (k', v') (by simp)]; rfl
      simp only [insertKey, this, List.cons_append]
      rw [ih fun e he => hm e (by simp [he])]
  induction l generalizing m with
  | nil => simp [insertAll]
  | cons e l ih =>
    have h1 := List.pairwise_append.1 h
    show insertAll (insertKey e.1 e.2 m) l = _
    rw [hlast m e.1 e.2 (fun a ha => h1.2.2 a ha e (by simp))]
    rw [ih (by simpa using h)]
    simp

/-! ### Values without floating point numbers -/

mutual
def NoFloat : Value → Prop
  | .f32 _ => False
  | .f64 _ => False
  | .opt none => True
  | .opt (some v) => NoFloat v
  | .newtype v => NoFloat v
  | .seq l => NoFloats l
  | .map l => NoFloatEntries l
  | _ => True

def NoFloats : List Value → Prop
  | [] => True
  | v :: l => NoFloat v ∧ NoFloats l

def NoFloatEntries : List (Value × Value) → Prop
  | [] => True
  | (k, v) :: l => NoFloat k ∧ NoFloat v ∧ NoFloatEntries l
end

mutual
theorem eq_of_eqv : ∀ a b : Value, NoFloat a → eqv a b = true → a = b
  | .f32 _, _, h, _ => h.elim
  | .f64 _, _, h, _ => h.elim
  | .opt none, b, _, h => by
    cases b <;> simp [eqv] at h
    rename_i o
    cases o <;> simp_all [eqvOpt]
  | .opt (some v), b, hn, h => by
    cases b <;> simp [eqv] at h
    rename_i o
    cases o with
    | none => simp [eqvOpt] at h
    | some w =>
      simp only [eqvOpt] at h
      rw [eq_of_eqv v w (by simpa [NoFloat] using hn) h]
  | .newtype v, b, hn, h => by
    cases b <;> simp [eqv] at h
    rename_i w
    rw [eq_of_eqv v w (by simpa [NoFloat] using hn) h]
  | .seq l, b, hn, h => by
    cases b <;> simp [eqv] at h
    rename_i m
    rw [eqs_of_eqv l m (by simpa [NoFloat] using hn) h]
  | .map l, b, hn, h => by
    cases b <;> simp [eqv] at h
    rename_i m
    rw [entries_of_eqv l m (by simpa [NoFloat] using hn) h]
  | .bool _, b, _, h | .u8 _, b, _, h | .u16 _, b, _, h | .u32 _, b, _, h | .u64 _, b, _, h
  | .i8 _, b, _, h | .i16 _, b, _, h | .i32 _, b, _, h | .i64 _, b, _, h | .char _, b, _, h
  | .str _, b, _, h | .unit, b, _, h | .bytes _, b, _, h | .time _, b, _, h => by
    cases b <;> simp [eqv] at h <;> simp [h]

theorem eqs_of_eqv : ∀ a b : List Value, NoFloats a → eqvSeq a b = true → a = b
  | [], [], _, _ => rfl
  | [], _ :: _, _, h => by simp [eqvSeq] at h
  | _ :: _, [], _, h => by simp [eqvSeq] at h
  | a :: l, b :: m, hn, h => by
    simp only [eqvSeq, Bool.and_eq_true] at h
    rw [eq_of_eqv a b hn.1 h.1, eqs_of_eqv l m hn.2 h.2]

theorem entries_of_eqv : ∀ a b : List (Value × Value), NoFloatEntries a → eqvMap a b = true → a = b
  | [], [], _, _ => rfl
  | [], _ :: _, _, h => by simp [eqvMap] at h
  | _ :: _, [], _, h => by simp [eqvMap] at h
  | (a, c) :: l, (b, d) :: m, hn, h => by
    simp only [eqvMap, Bool.and_eq_true] at h
    rw [eq_of_eqv a b hn.1 h.1.1, eq_of_eqv c d hn.2.1 h.1.2, entries_of_eqv l m hn.2.2 h.2]
end

theorem eq_of_cmp {a b : Value} (hn : NoFloat a) (h : cmp a b = .eq) : a = b :=
  eq_of_eqv a b hn (by rw [eqv_eq, h]; rfl)

theorem str_cmp_ne {a b : String} (h : a ≠ b) : cmp (.str a) (.str b) ≠ .eq := by
  intro hc
  have := eq_of_cmp (a := .str a) (by simp [NoFloat]) hc
  exact h (by simpa using this)

theorem noFloats_iff (l : List Value) : NoFloats l ↔ ∀ v ∈ l, NoFloat v := by
  induction l with
  | nil => simp [NoFloats]
  | cons v l ih => simp [NoFloats, ih]

theorem noFloatEntries_iff (l : List (Value × Value)) :
    NoFloatEntries l ↔ ∀ e ∈ l, NoFloat e.1 ∧ NoFloat e.2 := by
  induction l with
  | nil => simp [NoFloatEntries]
  | cons e l ih => obtain ⟨k, v⟩ := e; simp [NoFloatEntries, ih, and_assoc]

theorem noFloat_newtypeValue {n : String} {v : Value} (h : NoFloat v) : NoFloat (newtypeValue n v) := by
  unfold newtypeValue
  split
  · cases v <;> simp_all [NoFloat]
  · simpa [NoFloat] using h

theorem toEntries_map (l : List (Data × Data)) :
    toEntries l = l.map fun e => (e.1.toValue, e.2.toValue) := by
  induction l with
  | nil => rfl
  | cons e l ih => obtain ⟨k, v⟩ := e; simp [toEntries, ih]

theorem toFields_map (l : List (String × Data)) :
    toFields l = l.map fun e => (.str e.1, e.2.toValue) := by
  induction l with
  | nil => rfl
  | cons e l ih => obtain ⟨k, v⟩ := e; simp [toFields, ih]

theorem toValues_map (l : List Data) : toValues l = l.map Data.toValue := by
  induction l with
  | nil => rfl
  | cons e l ih => simp [toValues, ih]

theorem hasFields_names : ∀ {fs : List (String × Ty)} {l : List (String × Data)}, HasFields fs l →
    l.map (·.1) = fs.map (·.1)
  | [], [], _ => rfl
  | [], _ :: _, h => by simp [HasFields] at h
  | _ :: _, [], h => by simp [HasFields] at h
  | (n, t) :: fs, (m, d) :: l, h => by
    simp only [HasFields] at h
    simp [h.1, hasFields_names h.2.2]

/-- The entries of a struct are those of its fields. -/
theorem fields_differ {l : List (String × Data)} (h : (l.map (·.1)).Nodup) :
    (toFields l).Pairwise (fun a b => cmp b.1 a.1 ≠ .eq) := by
  rw [toFields_map, List.pairwise_map]
  have h' : l.Pairwise (fun a b => a.1 ≠ b.1) := by
    rw [List.Nodup, List.pairwise_map] at h; exact h
  exact h'.imp fun hab => str_cmp_ne (Ne.symm hab)

theorem fields_perm {l : List (String × Data)} (h : (l.map (·.1)).Nodup) :
    (insertAll [] (toFields l)).Perm (toFields l) := by
  simpa using insertAll_perm (m := []) (fields_differ h) (by simp)

mutual
theorem noFloat_toValue : ∀ (t : Ty), t.Plain → t.Ok → ∀ d : Data, HasTy t d → NoFloat d.toValue
  | .prim p, hp, _, d, h => by
    cases d <;> simp [HasTy] at h
    rename_i x
    simp only [Data.toValue]
    cases x <;> simp_all [Prim.toValue, NoFloat, Prim.ty, Ty.Plain]
  | .opt t, hp, ho, d, h => by
    cases d <;> simp [HasTy] at h
    · simp [Data.toValue, NoFloat]
    · simp only [Data.toValue, NoFloat]
      exact noFloat_toValue t (by simpa [Ty.Plain] using hp) (by simpa [Ty.Ok] using ho) _ h
  | .newtype n t, hp, ho, d, h => by
    cases d <;> simp [HasTy] at h
    simp only [Data.toValue]
    exact noFloat_newtypeValue
      (noFloat_toValue t (by simpa [Ty.Plain] using hp) (by simpa [Ty.Ok] using ho) _ h.2)
  | .seq t, hp, ho, d, h => by
    cases d <;> simp [HasTy] at h
    simp only [Data.toValue, NoFloat, noFloats_iff, toValues_map]
    intro v hv
    obtain ⟨d, hd, rfl⟩ := List.mem_map.1 hv
    exact noFloat_toValue t (by simpa [Ty.Plain] using hp) (by simpa [Ty.Ok] using ho) d (h d hd)
  | .tuple ts, hp, ho, d, h => by
    cases d <;> simp [HasTy] at h
    simp only [Data.toValue, NoFloat]
    exact noFloat_toValues ts (by simpa [Ty.Plain] using hp) (by simpa [Ty.Ok] using ho) _ h
  | .map _ _, hp, _, _, _ => by simp [Ty.Plain] at hp
  | .struct fs, hp, ho, d, h => by
    cases d <;> simp [HasTy] at h
    rename_i l
    simp only [Ty.Ok] at ho
    simp only [Data.toValue, NoFloat, noFloatEntries_iff]
    have := noFloat_toFields fs (by simpa [Ty.Plain] using hp) ho.2 _ h
    rw [noFloatEntries_iff] at this
    intro e he
    exact this e ((fields_perm (by rw [hasFields_names h]; exact ho.1)).mem_iff.1 he)
  | .enum vs, hp, ho, d, h => by
    cases d <;> simp [HasTy] at h
    rename_i n form d
    simp only [Ty.Ok] at ho
    simp only [Data.toValue, variantValue]
    have := noFloat_variant vs (by simpa [Ty.Plain] using hp) ho.2 _ _ _ h
    split
    · simp [NoFloat]
    · simp [NoFloat, NoFloatEntries, this]

theorem noFloat_toValues : ∀ (ts : List Ty), PlainAll ts → OkAll ts → ∀ l : List Data, HasTys ts l →
    NoFloats (toValues l)
  | [], _, _, [], _ => by simp [toValues, NoFloats]
  | [], _, _, _ :: _, h => by simp [HasTys] at h
  | _ :: _, _, _, [], h => by simp [HasTys] at h
  | t :: ts, hp, ho, d :: l, h => by
    simp only [HasTys, PlainAll, OkAll] at h hp ho
    simp only [toValues, NoFloats]
    exact ⟨noFloat_toValue t hp.1 ho.1 d h.1, noFloat_toValues ts hp.2 ho.2 l h.2⟩

theorem noFloat_toFields : ∀ (fs : List (String × Ty)), PlainFields fs → OkFields fs →
    ∀ l : List (String × Data), HasFields fs l → NoFloatEntries (toFields l)
  | [], _, _, [], _ => by simp [toFields, NoFloatEntries]
  | [], _, _, _ :: _, h => by simp [HasFields] at h
  | _ :: _, _, _, [], h => by simp [HasFields] at h
  | (n, t) :: fs, hp, ho, (m, d) :: l, h => by
    simp only [HasFields, PlainFields, OkFields] at h hp ho
    simp only [toFields, NoFloatEntries]
    exact ⟨by simp [NoFloat], noFloat_toValue t hp.1 ho.1 d h.2.1,
      noFloat_toFields fs hp.2 ho.2 l h.2.2⟩

theorem noFloat_variant : ∀ (vs : List (String × Form × Ty)), PlainVariants vs → OkVariants vs →
    ∀ (n : String) (form : Form) (d : Data), HasVariant vs n form d → NoFloat d.toValue
  | [], _, _, _, _, _, h => by simp [HasVariant] at h
  | (m, f, t) :: vs, hp, ho, n, form, d, h => by
    simp only [HasVariant, PlainVariants, OkVariants] at h hp ho
    rcases h with ⟨_, _, h⟩ | h
    · exact noFloat_toValue t hp.1 ho.2.1 d h
    · exact noFloat_variant vs hp.2 ho.2.2 n form d h
end

/-! ### Reading lists of entries in another order -/

theorem readEntries_perm {f g : Value → Option Data} {a b : List (Value × Value)} (h : a.Perm b) :
    ∀ {r}, readEntries f g a = some r → ∃ r', readEntries f g b = some r' ∧ r.Perm r' := by
  induction h with
  | nil => intro r hr; exact ⟨r, hr, List.Perm.refl _⟩
  | cons x h ih =>
    obtain ⟨k, v⟩ := x
    intro r hr
    simp only [readEntries] at hr
    split at hr
    · rename_i d e r0 hk hv hrest
      obtain ⟨r', h1, h2⟩ := ih hrest
      refine ⟨(d, e) :: r', by simp only [readEntries, hk, hv, h1], ?_⟩
      simp only [Option.some.injEq] at hr
      subst hr
      exact h2.cons _
    · simp at hr
  | swap x y l =>
    obtain ⟨k, v⟩ := x
    obtain ⟨k', v'⟩ := y
    intro r hr
    simp only [readEntries] at hr
    split at hr
    · rename_i d e r0 hk hv hrest
      split at hrest
      · rename_i d' e' r1 hk' hv' hrest'
        simp only [Option.some.injEq] at hr hrest
        subst hr; subst hrest
        exact ⟨(d', e') :: (d, e) :: r1, by simp only [readEntries, hk, hv, hk', hv', hrest'],
          List.Perm.swap ..⟩
      · simp at hrest
    · simp at hr
  | trans _ _ ih1 ih2 =>
    intro r hr
    obtain ⟨r1, h1, p1⟩ := ih1 hr
    obtain ⟨r2, h2, p2⟩ := ih2 h1
    exact ⟨r2, h2, p1.trans p2⟩

/-! ### Newtypes of the clock -/

theorem de_time (fc : Floats) (n : UInt64) : ∀ t : Ty, de fc t (.time n) = de fc t (.u64 n)
  | .prim p => by cases p <;> simp [de, Prim.de, intIn, intOf]
  | .opt t => by simp only [de]; rw [de_time fc n t]
  | .newtype _ t => by simp only [de]; rw [de_time fc n t]
  | .seq _ => by simp [de]
  | .tuple _ => by simp [de]
  | .map _ _ => by simp [de]
  | .struct _ => by simp [de]
  | .enum _ => by simp [de, variantOf]

/-- A value under `k` newtypes. -/
def wrap : Nat → Value → Value
  | 0, c => c
  | k + 1, c => .newtype (wrap k c)

def isNewtype : Value → Bool
  | .newtype _ => true
  | _ => false

/-- The newtypes at the head of a type. -/
def depth : Ty → Nat
  | .newtype _ t => depth t + 1
  | _ => 0

theorem de_newtype_core (fc : Floats) {name : String} {t : Ty} {c : Value} (h : isNewtype c = false) :
    de fc (.newtype name t) c = (de fc t c).map (.newtype name) := by
  simp only [de]
  split
  · simp [isNewtype] at h
  · rfl

theorem de_wrap (fc : Floats) {c : Value} (hc : isNewtype c = false) :
    ∀ (t : Ty) (k : Nat), k ≤ depth t → de fc t (wrap k c) = de fc t c
  | t, 0, _ => rfl
  | .newtype name t, k + 1, hk => by
    simp only [depth] at hk
    rw [de_newtype_core fc hc, wrap]
    simp only [de]
    rw [de_wrap fc hc t k (by omega)]
  | .prim _, k + 1, hk | .opt _, k + 1, hk | .seq _, k + 1, hk | .tuple _, k + 1, hk
  | .map _ _, k + 1, hk | .struct _, k + 1, hk | .enum _, k + 1, hk => by simp [depth] at hk

theorem toValue_wrap : ∀ (t : Ty) (d : Data), HasTy t d →
    ∃ k c, d.toValue = wrap k c ∧ isNewtype c = false ∧ k ≤ depth t
  | .newtype n t, d, h => by
    cases d <;> simp [HasTy] at h
    rename_i m d
    obtain ⟨k, c, h1, h2, h3⟩ := toValue_wrap t d h.2
    simp only [Data.toValue, newtypeValue]
    split
    · cases k with
      | zero =>
        simp only [wrap] at h1
        rw [h1]
        split
        · exact ⟨0, _, rfl, rfl, by omega⟩
        · exact ⟨0, _, rfl, h2, by omega⟩
      | succ k =>
        rw [h1, wrap]
        exact ⟨k + 1, c, rfl, h2, by simp only [depth]; omega⟩
    · exact ⟨k + 1, c, by rw [h1, wrap], h2, by simp only [depth]; omega⟩
  | .prim _, d, h => by
    cases d <;> simp [HasTy] at h
    rename_i x
    refine ⟨0, _, rfl, ?_, by simp [depth]⟩
    cases x <;> rfl
  | .opt _, d, h => by cases d <;> simp [HasTy] at h <;> exact ⟨0, _, rfl, rfl, by simp [depth]⟩
  | .seq _, d, h => by cases d <;> simp [HasTy] at h; exact ⟨0, _, rfl, rfl, by simp [depth]⟩
  | .tuple _, d, h => by cases d <;> simp [HasTy] at h; exact ⟨0, _, rfl, rfl, by simp [depth]⟩
  | .map _ _, d, h => by cases d <;> simp [HasTy] at h; exact ⟨0, _, rfl, rfl, by simp [depth]⟩
  | .struct _, d, h => by cases d <;> simp [HasTy] at h; exact ⟨0, _, rfl, rfl, by simp [depth]⟩
  | .enum _, d, h => by
    cases d <;> simp [HasTy] at h
    rename_i n form d
    refine ⟨0, _, rfl, ?_, by simp [depth]⟩
    cases form <;> rfl

/-- A newtype is read through. -/
theorem de_newtypeValue (fc : Floats) {name n : String} {t : Ty} {d : Data} (h : HasTy t d) :
    de fc (.newtype name t) (newtypeValue n d.toValue) = (de fc t d.toValue).map (.newtype name) := by
  unfold newtypeValue
  split
  · obtain ⟨k, c, h1, h2, h3⟩ := toValue_wrap t d h
    have hw := de_wrap fc h2 t k h3
    split
    · rename_i n' hn
      rw [hn, de_newtype_core fc rfl, de_time]
    · cases k with
      | zero =>
        rw [h1, wrap, de_newtype_core fc h2]
      | succ k =>
        rw [h1, hw, wrap]
        simp only [de]
        rw [de_wrap fc h2 t k (by omega)]
  · simp only [de]

/-! ### Values without parts -/

theorem prim_rt (fc : Floats) (x : Prim) : Prim.de fc x.ty x.toValue = some x := by
  cases x with
  | u8 v => simp [Prim.de, Prim.ty, Prim.toValue, intIn, intOf]; have := v.toNat_lt; omega
  | u16 v => simp [Prim.de, Prim.ty, Prim.toValue, intIn, intOf]; have := v.toNat_lt; omega
  | u32 v => simp [Prim.de, Prim.ty, Prim.toValue, intIn, intOf]; have := v.toNat_lt; omega
  | u64 v => simp [Prim.de, Prim.ty, Prim.toValue, intIn, intOf]; have := v.toNat_lt; omega
  | i8 v => simp [Prim.de, Prim.ty, Prim.toValue, intIn, intOf]; exact ⟨v.le_toInt, v.toInt_lt⟩
  | i16 v => simp [Prim.de, Prim.ty, Prim.toValue, intIn, intOf]; exact ⟨v.le_toInt, v.toInt_lt⟩
  | i32 v => simp [Prim.de, Prim.ty, Prim.toValue, intIn, intOf]; exact ⟨v.le_toInt, v.toInt_lt⟩
  | i64 v => simp [Prim.de, Prim.ty, Prim.toValue, intIn, intOf]; exact ⟨v.le_toInt, v.toInt_lt⟩
  | bool v | f32 v | f64 v | char v | str v | bytes v => simp [Prim.de, Prim.ty, Prim.toValue]
  | unit => rfl

/-! ### Names of fields and variants -/

theorem findIdx_name {names : List String} (h : names.Nodup) {j : Nat} {n : String}
    (hj : names[j]? = some n) : names.findIdx? (· == n) = some j := by
  induction names generalizing j with
  | nil => simp at hj
  | cons m names ih =>
    rw [List.nodup_cons] at h
    cases j with
    | zero =>
      simp only [List.getElem?_cons_zero, Option.some.injEq] at hj
      simp [List.findIdx?_cons, hj]
    | succ j =>
      simp only [List.getElem?_cons_succ] at hj
      have hne : m ≠ n := fun e => h.1 (e ▸ List.mem_of_getElem? hj)
      simp [List.findIdx?_cons, hne, ih h.2 hj]

theorem ident_name {names : List String} (h : names.Nodup) {j : Nat} {n : String}
    (hj : names[j]? = some n) : identOf names (.str n) = some (some j) := by
  simp only [identOf, findIdx_name h hj]

/-- The entries for a field. -/
theorem values_for {l : List (String × Data)} {names : List String} (hn : l.map (·.1) = names)
    (h : names.Nodup) {j : Nat} {n : String} {d : Data} (hj : l[j]? = some (n, d)) :
    valuesFor names j (insertAll [] (toFields l)) = [d.toValue] := by
  have hperm := fields_perm (l := l) (by rw [hn]; exact h)
  have hfil : ((toFields l).filter fun e => identOf names e.1 == some (some j)) = [(.str n, d.toValue)] := by
    have key : ∀ (i : Nat) (r : List (String × Data)), (∀ a, r[a]? = l[i + a]?) →
        ((toFields r).filter fun e => identOf names e.1 == some (some j)) =
          if i ≤ j then [((.str n : Value), d.toValue)] else [] := by
      intro i r
      induction r generalizing i with
      | nil =>
        intro hr
        have : i ≤ j → False := by
          intro hij
          have := hr (j - i)
          rw [show i + (j - i) = j by omega, hj] at this
          simp at this
        rw [if_neg this]
        rfl
      | cons e r ih =>
        intro hr
        obtain ⟨m, x⟩ := e
        have h0 := hr 0
        simp only [List.getElem?_cons_zero, Nat.add_zero] at h0
        have hm : names[i]? = some m := by
          rw [← hn, List.getElem?_map, ← h0]; rfl
        have := ih (i + 1) (fun a => by
          have := hr (a + 1)
          simp only [List.getElem?_cons_succ] at this
          rw [this]; congr 1; omega)
        simp only [toFields, List.filter_cons, ident_name h hm, this]
        by_cases hij : i = j
        · subst hij
          rw [hj] at h0
          simp only [Option.some.injEq, Prod.mk.injEq] at h0
          simp [h0.1, h0.2]
        · simp only [beq_iff_eq, Option.some.injEq, hij, if_false]
          split <;> split <;> first | rfl | omega
    have := key 0 l (by simp)
    simpa using this
  have := (hperm.filter (fun e => identOf names e.1 == some (some j)))
  rw [hfil] at this
  unfold valuesFor
  rw [List.perm_singleton.1 this]
  rfl

theorem keys_ok {l : List (String × Data)} {names : List String} (hn : l.map (·.1) = names)
    (h : names.Nodup) : keysOk names (insertAll [] (toFields l)) = true := by
  have hperm := fields_perm (l := l) (by rw [hn]; exact h)
  unfold keysOk
  rw [List.all_eq_true]
  intro e he
  have := hperm.mem_iff.1 he
  rw [toFields_map] at this
  obtain ⟨x, _, rfl⟩ := List.mem_map.1 this
  rfl

/-! ### Round trips -/

mutual
theorem same_refl : ∀ d : Data, Same d d
  | .prim _ => by simp [Same]
  | .none => by simp [Same]
  | .some d => by simp only [Same]; exact same_refl d
  | .newtype _ d => by simp only [Same]; exact ⟨trivial, same_refl d⟩
  | .seq l => by simp only [Same]; exact sameAll_refl l
  | .tuple l => by simp only [Same]; exact sameAll_refl l
  | .map l => by simp only [Same]; exact ⟨l, sameEntries_refl l, List.Perm.refl _⟩
  | .struct l => by simp only [Same]; exact sameFields_refl l
  | .variant _ _ d => by simp only [Same]; exact ⟨trivial, trivial, same_refl d⟩

theorem sameAll_refl : ∀ l : List Data, SameAll l l
  | [] => by simp [SameAll]
  | d :: l => by simp only [SameAll]; exact ⟨same_refl d, sameAll_refl l⟩

theorem sameEntries_refl : ∀ l : List (Data × Data), SameEntries l l
  | [] => by simp [SameEntries]
  | (k, d) :: l => by simp only [SameEntries]; exact ⟨same_refl k, same_refl d, sameEntries_refl l⟩

theorem sameFields_refl : ∀ l : List (String × Data), SameFields l l
  | [] => by simp [SameFields]
  | (_, d) :: l => by simp only [SameFields]; exact ⟨trivial, same_refl d, sameFields_refl l⟩
end

theorem readAll_rt {f : Value → Option Data} {l : List Data}
    (h : ∀ d ∈ l, ∃ d', f d.toValue = some d' ∧ Same d d') :
    ∃ l', readAll f (toValues l) = some l' ∧ SameAll l l' := by
  induction l with
  | nil => exact ⟨[], rfl, by simp [SameAll]⟩
  | cons d l ih =>
    obtain ⟨d', h1, h2⟩ := h d (by simp)
    obtain ⟨l', h3, h4⟩ := ih fun d hd => h d (by simp [hd])
    exact ⟨d' :: l', by simp only [toValues, readAll, h1, h3], by simp only [SameAll]; exact ⟨h2, h4⟩⟩

theorem readAll_eq {f : Value → Option Data} {l : List Data} (h : ∀ d ∈ l, f d.toValue = some d) :
    readAll f (toValues l) = some l := by
  induction l with
  | nil => rfl
  | cons d l ih =>
    simp only [toValues, readAll, h d (by simp), ih fun d hd => h d (by simp [hd])]

theorem readEntries_rt {f g : Value → Option Data} {l : List (Data × Data)}
    (h : ∀ e ∈ l, (∃ k, f e.1.toValue = some k ∧ Same e.1 k) ∧ ∃ d, g e.2.toValue = some d ∧ Same e.2 d) :
    ∃ l', readEntries f g (toEntries l) = some l' ∧ SameEntries l l' := by
  induction l with
  | nil => exact ⟨[], rfl, by simp [SameEntries]⟩
  | cons e l ih =>
    obtain ⟨a, b⟩ := e
    obtain ⟨⟨k, h1, h2⟩, d, h3, h4⟩ := h (a, b) (by simp)
    obtain ⟨l', h5, h6⟩ := ih fun d hd => h d (by simp [hd])
    simp only at h1 h2 h3 h4
    exact ⟨(k, d) :: l', by simp only [toEntries, readEntries, h1, h3, h5],
      by simp only [SameEntries]; exact ⟨h2, h4, h6⟩⟩

theorem hasVariant_mem : ∀ {vs : List (String × Form × Ty)} {n : String} {form : Form} {d : Data},
    HasVariant vs n form d → n ∈ vs.map (·.1)
  | [], _, _, _, h => by simp [HasVariant] at h
  | (m, f, t) :: vs, n, form, d, h => by
    simp only [HasVariant] at h
    rcases h with ⟨rfl, _, _⟩ | h
    · simp
    · exact List.mem_cons_of_mem _ (hasVariant_mem h)

theorem hasTys_length : ∀ {ts : List Ty} {l : List Data}, HasTys ts l → l.length = ts.length
  | [], [], _ => rfl
  | [], _ :: _, h => by simp [HasTys] at h
  | _ :: _, [], h => by simp [HasTys] at h
  | _ :: _, _ :: _, h => by
    simp only [HasTys] at h
    simp [hasTys_length h.2]

/-- The content of a variant beside its name. -/
def content (form : Form) (v : Value) : Option Value :=
  match form with
  | .unit => none
  | _ => some v

theorem variantOf_value (n : String) (form : Form) (v : Value) :
    variantOf (variantValue n form v) = some (.str n, content form v) := by
  cases form <;> rfl

theorem readVariant_rt {f : Value → Option Data} {form : Form} {t : Ty} {d d' : Data}
    (hf : FormOk form t) (ht : HasTy t d) (h : f d.toValue = some d') (hs : Same d d') :
    ∃ x, readVariant f form (arity t) (content form d.toValue) = some x ∧ Same d x ∧ (d' = d → x = d) := by
  cases form with
  | unit =>
    cases t <;> simp [FormOk] at hf
    rename_i p
    cases p <;> simp at hf
    cases d <;> simp [HasTy] at ht
    rename_i x
    cases x <;> simp [Prim.ty] at ht
    exact ⟨.prim .unit, rfl, by simp [Same], fun _ => rfl⟩
  | newtype => exact ⟨d', h, hs, id⟩
  | tuple =>
    cases t <;> simp [FormOk] at hf
    cases d <;> simp [HasTy] at ht
    rename_i ts l
    refine ⟨d', ?_, hs, id⟩
    have hl : (toValues l).length ≤ ts.length := by
      rw [toValues_map, List.length_map, hasTys_length ht]; exact Nat.le_refl _
    simp only [Data.toValue] at h
    simp only [readVariant, content, Data.toValue, arity, if_pos hl, h]
  | struct =>
    cases t <;> simp [FormOk] at hf
    cases d <;> simp [HasTy] at ht
    exact ⟨d', h, hs, id⟩

mutual
theorem rt (fc : Floats) : ∀ (t : Ty), t.Ok → ∀ d : Data, HasTy t d →
    ∃ d', de fc t d.toValue = some d' ∧ Same d d' ∧ (t.Plain → d' = d)
  | .prim p, _, d, h => by
    cases d <;> simp [HasTy] at h
    rename_i x
    subst h
    exact ⟨.prim x, by simp [de, Data.toValue, prim_rt], by simp [Same], fun _ => rfl⟩
  | .opt t, ho, d, h => by
    cases d <;> simp [HasTy] at h
    · exact ⟨.none, by simp [de, Data.toValue], by simp [Same], fun _ => rfl⟩
    · rename_i d
      obtain ⟨d', h1, h2, h3⟩ := rt fc t (by simpa [Ty.Ok] using ho) d h
      refine ⟨.some d', by simp [de, Data.toValue, h1], by simpa [Same] using h2, ?_⟩
      intro hp
      rw [h3 (by simpa [Ty.Plain] using hp)]
  | .newtype n t, ho, d, h => by
    cases d <;> simp [HasTy] at h
    rename_i m d
    obtain ⟨rfl, h⟩ := h
    obtain ⟨d', h1, h2, h3⟩ := rt fc t (by simpa [Ty.Ok] using ho) d h
    refine ⟨.newtype m d', ?_, by simpa [Same] using h2, ?_⟩
    · simp only [Data.toValue]
      rw [de_newtypeValue fc h, h1]
      rfl
    · intro hp
      rw [h3 (by simpa [Ty.Plain] using hp)]
  | .seq t, ho, d, h => by
    cases d <;> simp [HasTy] at h
    rename_i l
    simp only [Ty.Ok] at ho
    obtain ⟨l', h1, h2⟩ := readAll_rt (f := de fc t) (l := l) fun d hd => by
      obtain ⟨d', h1, h2, _⟩ := rt fc t ho d (h d hd)
      exact ⟨d', h1, h2⟩
    refine ⟨.seq l', by simp [de, Data.toValue, h1], by simpa [Same] using h2, ?_⟩
    intro hp
    simp only [Ty.Plain] at hp
    rw [readAll_eq fun d hd => by
      obtain ⟨d', h1, h2, h3⟩ := rt fc t ho d (h d hd)
      rw [h1, h3 hp]] at h1
    simp only [Option.some.injEq] at h1
    rw [h1]
  | .tuple ts, ho, d, h => by
    cases d <;> simp [HasTy] at h
    rename_i l
    obtain ⟨l', h1, h2, h3⟩ := rtTuple fc ts (by simpa [Ty.Ok] using ho) l h
    refine ⟨.tuple l', by simp [de, Data.toValue, h1], by simpa [Same] using h2, ?_⟩
    intro hp
    rw [h3 (by simpa [Ty.Plain] using hp)]
  | .map k t, ho, d, h => by
    cases d <;> simp [HasTy] at h
    rename_i l
    obtain ⟨h, hd⟩ := h
    simp only [Ty.Ok] at ho
    have hkey : ∀ e ∈ l, de fc k e.1.toValue = some e.1 := fun e he => by
      obtain ⟨d', h1, h2, h3⟩ := rt fc k ho.2.1 e.1 (h e.1 e.2 he).1
      rw [h1, h3 ho.1]
    obtain ⟨l', h1, h2⟩ := readEntries_rt (f := de fc k) (g := de fc t) (l := l) fun e he => by
      obtain ⟨d', h1, h2, _⟩ := rt fc t ho.2.2 e.2 (h e.1 e.2 he).2
      exact ⟨⟨e.1, hkey e he, same_refl _⟩, d', h1, h2⟩
    have hdiff : (toEntries l).Pairwise (fun a b => cmp b.1 a.1 ≠ .eq) := by
      rw [toEntries_map, List.pairwise_map]
      refine List.Pairwise.imp_of_mem ?_ hd
      intro a b ha hb hab hc
      have hn := noFloat_toValue k ho.1 ho.2.1 b.1 (h b.1 b.2 hb).1
      have he := eq_of_cmp hn hc
      have h1 := hkey a ha
      have h2 := hkey b hb
      rw [he, h1] at h2
      exact hab (by simpa using h2)
    have hperm : (insertAll [] (toEntries l)).Perm (toEntries l) := by
      simpa using insertAll_perm (m := []) hdiff (by simp)
    obtain ⟨l'', h3, h4⟩ := readEntries_perm hperm.symm h1
    exact ⟨.map l'', by simp [de, Data.toValue, h3], by simp only [Same]; exact ⟨l', h2, h4⟩,
      fun hp => by simp [Ty.Plain] at hp⟩
  | .struct fs, ho, d, h => by
    cases d <;> simp [HasTy] at h
    rename_i l
    simp only [Ty.Ok] at ho
    have hn := hasFields_names h
    obtain ⟨l', h1, h2, h3⟩ := rtFields fc fs ho.2 l h (fs.map (·.1)) 0 (insertAll [] (toFields l))
      (fun j n d hj => by rw [Nat.zero_add]; exact values_for hn ho.1 hj)
    refine ⟨.struct l', ?_, by simpa [Same] using h2, ?_⟩
    · simp only [de, Data.toValue]
      rw [if_pos (keys_ok hn ho.1), h1]
      rfl
    · intro hp
      rw [h3 (by simpa [Ty.Plain] using hp)]
  | .enum vs, ho, d, h => by
    cases d <;> simp [HasTy] at h
    rename_i n form d
    simp only [Ty.Ok] at ho
    obtain ⟨i, d', h0, h1, h2, h3⟩ := rtVariant fc vs ho.2 ho.1 n form d h
    refine ⟨.variant n form d', ?_, by simpa [Same] using h2, ?_⟩
    · simp only [de, Data.toValue, variantOf_value]
      rw [ident_name ho.1 h0]
      exact h1
    · intro hp
      rw [h3 (by simpa [Ty.Plain] using hp)]

theorem rtTuple (fc : Floats) : ∀ (ts : List Ty), OkAll ts → ∀ l : List Data, HasTys ts l →
    ∃ l', deTuple fc ts (toValues l) = some l' ∧ SameAll l l' ∧ (PlainAll ts → l' = l)
  | [], _, [], _ => ⟨[], by simp [deTuple], by simp [SameAll], fun _ => rfl⟩
  | [], _, _ :: _, h => by simp [HasTys] at h
  | _ :: _, _, [], h => by simp [HasTys] at h
  | t :: ts, ho, d :: l, h => by
    simp only [HasTys, OkAll] at h ho
    obtain ⟨d', h1, h2, h3⟩ := rt fc t ho.1 d h.1
    obtain ⟨l', h4, h5, h6⟩ := rtTuple fc ts ho.2 l h.2
    refine ⟨d' :: l', by simp only [toValues, deTuple, h1, h4], by simp only [SameAll]; exact ⟨h2, h5⟩, ?_⟩
    intro hp
    simp only [PlainAll] at hp
    rw [h3 hp.1, h6 hp.2]

theorem rtFields (fc : Floats) : ∀ (fs : List (String × Ty)), OkFields fs → ∀ l : List (String × Data),
    HasFields fs l → ∀ (names : List String) (i : Nat) (m : List (Value × Value)),
    (∀ (j : Nat) (n : String) (d : Data), l[j]? = some (n, d) → valuesFor names (i + j) m = [d.toValue]) →
    ∃ l', deFields fc names i fs m = some l' ∧ SameFields l l' ∧ (PlainFields fs → l' = l)
  | [], _, [], _, _, _, _, _ => ⟨[], by simp [deFields], by simp [SameFields], fun _ => rfl⟩
  | [], _, _ :: _, h, _, _, _, _ => by simp [HasFields] at h
  | _ :: _, _, [], h, _, _, _, _ => by simp [HasFields] at h
  | (n, t) :: fs, ho, (m, d) :: l, h, names, i, M, hv => by
    simp only [HasFields, OkFields] at h ho
    obtain ⟨rfl, h, hrest⟩ := h
    obtain ⟨d', h1, h2, h3⟩ := rt fc t ho.1 d h
    obtain ⟨l', h4, h5, h6⟩ := rtFields fc fs ho.2 l hrest names (i + 1) M (fun j n d hj => by
      have := hv (j + 1) n d (by simpa using hj)
      rw [← this]; congr 1; omega)
    have h0 := hv 0 m d rfl
    rw [Nat.add_zero] at h0
    refine ⟨(m, d') :: l', by simp only [deFields, h0, h1, h4],
      by simp only [SameFields]; exact ⟨trivial, h2, h5⟩, ?_⟩
    intro hp
    simp only [PlainFields] at hp
    rw [h3 hp.1, h6 hp.2]

theorem rtVariant (fc : Floats) : ∀ (vs : List (String × Form × Ty)), OkVariants vs →
    (vs.map (·.1)).Nodup → ∀ (n : String) (form : Form) (d : Data), HasVariant vs n form d →
    ∃ i d', (vs.map (·.1))[i]? = some n ∧
      deVariant fc vs i (content form d.toValue) = some (.variant n form d') ∧ Same d d' ∧
      (PlainVariants vs → d' = d)
  | [], _, _, _, _, _, h => by simp [HasVariant] at h
  | (m, f, t) :: vs, ho, hn, n, form, d, h => by
    simp only [HasVariant, OkVariants] at h ho
    simp only [List.map_cons, List.nodup_cons] at hn
    rcases h with ⟨rfl, rfl, h⟩ | h
    · obtain ⟨d', h1, h2, h3⟩ := rt fc t ho.2.1 d h
      obtain ⟨x, h4, h5, h6⟩ := readVariant_rt ho.1 h h1 h2
      refine ⟨0, x, rfl, by simp only [deVariant, h4]; rfl, h5, ?_⟩
      intro hp
      simp only [PlainVariants] at hp
      exact h6 (h3 hp.1)
    · obtain ⟨i, d', h0, h1, h2, h3⟩ := rtVariant fc vs ho.2.2 hn.2 n form d h
      refine ⟨i + 1, d', by simpa using h0, by simp only [deVariant, h1], h2, ?_⟩
      intro hp
      simp only [PlainVariants] at hp
      exact h3 hp.2
end

/-! ### The values made are legal -/

theorem legalMap_iff (l : List (Value × Value)) : LegalMap l ↔ ∀ e ∈ l, Legal e.1 ∧ Legal e.2 := by
  induction l with
  | nil => simp [LegalMap]
  | cons e l ih => obtain ⟨k, v⟩ := e; simp [LegalMap, ih, and_assoc]

theorem legalSeq_iff (l : List Value) : LegalSeq l ↔ ∀ v ∈ l, Legal v := by
  induction l with
  | nil => simp [LegalSeq]
  | cons v l ih => simp [LegalSeq, ih]

theorem fitsAll_iff (l : List Data) : FitsAll l ↔ ∀ d ∈ l, d.Fits := by
  induction l with
  | nil => simp [FitsAll]
  | cons v l ih => simp [FitsAll, ih]

theorem fitsEntries_iff (l : List (Data × Data)) : FitsEntries l ↔ ∀ e ∈ l, e.1.Fits ∧ e.2.Fits := by
  induction l with
  | nil => simp [FitsEntries]
  | cons e l ih => obtain ⟨k, v⟩ := e; simp [FitsEntries, ih, and_assoc]

theorem legal_newtypeValue {n : String} {v : Value} (h : Legal v) : Legal (newtypeValue n v) := by
  unfold newtypeValue
  split
  · cases v <;> first | exact h | simp [Legal]
  · simpa [Legal] using h

theorem entries_differ {fc : Floats} {k : Ty} (hp : k.Plain) (ho : k.Ok) {l : List (Data × Data)}
    (h : ∀ e ∈ l, HasTy k e.1) (hd : l.Pairwise (fun a b => a.1 ≠ b.1)) :
    (toEntries l).Pairwise (fun a b => cmp b.1 a.1 ≠ .eq) := by
  have hkey : ∀ e ∈ l, de fc k e.1.toValue = some e.1 := fun e he => by
    obtain ⟨d', h1, h2, h3⟩ := rt fc k ho e.1 (h e he)
    rw [h1, h3 hp]
  rw [toEntries_map, List.pairwise_map]
  refine List.Pairwise.imp_of_mem ?_ hd
  intro a b ha hb hab hc
  have hn := noFloat_toValue k hp ho b.1 (h b hb)
  have he := eq_of_cmp hn hc
  have h1 := hkey a ha
  have h2 := hkey b hb
  rw [he, h1] at h2
  exact hab (by simpa using h2)

mutual
theorem legal_toValue (fc : Floats) : ∀ (t : Ty), t.Ok → ∀ d : Data, HasTy t d → d.Fits → Legal d.toValue
  | .prim p, _, d, h, hf => by
    cases d <;> simp [HasTy] at h
    rename_i x
    simp only [Data.toValue]
    cases x <;> simp_all [Prim.toValue, Legal, Data.Fits]
  | .opt t, ho, d, h, hf => by
    cases d <;> simp [HasTy] at h
    · simp [Data.toValue, Legal, LegalOpt]
    · simp only [Data.toValue, Legal, LegalOpt]
      exact legal_toValue fc t (by simpa [Ty.Ok] using ho) _ h (by simpa [Data.Fits] using hf)
  | .newtype n t, ho, d, h, hf => by
    cases d <;> simp [HasTy] at h
    simp only [Data.toValue]
    exact legal_newtypeValue
      (legal_toValue fc t (by simpa [Ty.Ok] using ho) _ h.2 (by simpa [Data.Fits] using hf))
  | .seq t, ho, d, h, hf => by
    cases d <;> simp [HasTy] at h
    rename_i l
    simp only [Data.Fits, fitsAll_iff] at hf
    simp only [Data.toValue, Legal, legalSeq_iff, toValues_map, List.length_map]
    refine ⟨hf.1, ?_⟩
    intro v hv
    obtain ⟨d, hd, rfl⟩ := List.mem_map.1 hv
    exact legal_toValue fc t (by simpa [Ty.Ok] using ho) d (h d hd) (hf.2 d hd)
  | .tuple ts, ho, d, h, hf => by
    cases d <;> simp [HasTy] at h
    simp only [Data.Fits] at hf
    simp only [Data.toValue, Legal]
    exact ⟨by rw [toValues_map, List.length_map]; exact hf.1,
      legal_toValues fc ts (by simpa [Ty.Ok] using ho) _ h hf.2⟩
  | .map k t, ho, d, h, hf => by
    cases d <;> simp [HasTy] at h
    rename_i l
    simp only [Ty.Ok] at ho
    simp only [Data.Fits, fitsEntries_iff] at hf
    have hdiff := entries_differ (fc := fc) ho.1 ho.2.1 (fun e he => (h.1 e.1 e.2 he).1) h.2
    have hperm : (insertAll [] (toEntries l)).Perm (toEntries l) := by
      simpa using insertAll_perm (m := []) hdiff (by simp)
    simp only [Data.toValue, Legal, legalMap_iff]
    refine ⟨by rw [hperm.length_eq, toEntries_map, List.length_map]; exact hf.1,
      insertAll_sorted hdiff (by simp) List.Pairwise.nil, ?_⟩
    intro e he
    have he := hperm.mem_iff.1 he
    rw [toEntries_map] at he
    obtain ⟨x, hx, rfl⟩ := List.mem_map.1 he
    exact ⟨legal_toValue fc k ho.2.1 _ (h.1 x.1 x.2 hx).1 (hf.2 x hx).1,
      legal_toValue fc t ho.2.2 _ (h.1 x.1 x.2 hx).2 (hf.2 x hx).2⟩
  | .struct fs, ho, d, h, hf => by
    cases d <;> simp [HasTy] at h
    rename_i l
    simp only [Ty.Ok] at ho
    simp only [Data.Fits] at hf
    have hn : (l.map (·.1)).Nodup := by rw [hasFields_names h]; exact ho.1
    have hperm := fields_perm hn
    have hleg := legal_toFields fc fs ho.2 _ h hf.2
    rw [legalMap_iff] at hleg
    simp only [Data.toValue, Legal, legalMap_iff]
    refine ⟨by rw [hperm.length_eq, toFields_map, List.length_map]; exact hf.1,
      insertAll_sorted (fields_differ hn) (by simp) List.Pairwise.nil, ?_⟩
    intro e he
    exact hleg e (hperm.mem_iff.1 he)
  | .enum vs, ho, d, h, hf => by
    cases d <;> simp [HasTy] at h
    rename_i n form d
    simp only [Ty.Ok] at ho
    simp only [Data.Fits] at hf
    simp only [Data.toValue, variantValue]
    have := legal_variant fc vs ho.2 _ _ _ h hf.2
    split
    · simp only [Legal]; exact hf.1
    · simp only [Legal, LegalMap]
      exact ⟨by simp, by simp, hf.1, this, trivial⟩

theorem legal_toValues (fc : Floats) : ∀ (ts : List Ty), OkAll ts → ∀ l : List Data, HasTys ts l →
    FitsAll l → LegalSeq (toValues l)
  | [], _, [], _, _ => by simp [toValues, LegalSeq]
  | [], _, _ :: _, h, _ => by simp [HasTys] at h
  | _ :: _, _, [], h, _ => by simp [HasTys] at h
  | t :: ts, ho, d :: l, h, hf => by
    simp only [HasTys, OkAll, FitsAll] at h ho hf
    simp only [toValues, LegalSeq]
    exact ⟨legal_toValue fc t ho.1 d h.1 hf.1, legal_toValues fc ts ho.2 l h.2 hf.2⟩

theorem legal_toFields (fc : Floats) : ∀ (fs : List (String × Ty)), OkFields fs →
    ∀ l : List (String × Data), HasFields fs l → FitsFields l → LegalMap (toFields l)
  | [], _, [], _, _ => by simp [toFields, LegalMap]
  | [], _, _ :: _, h, _ => by simp [HasFields] at h
  | _ :: _, _, [], h, _ => by simp [HasFields] at h
  | (n, t) :: fs, ho, (m, d) :: l, h, hf => by
    simp only [HasFields, OkFields, FitsFields] at h ho hf
    simp only [toFields, LegalMap]
    exact ⟨by simp only [Legal]; exact hf.1, legal_toValue fc t ho.1 d h.2.1 hf.2.1,
      legal_toFields fc fs ho.2 l h.2.2 hf.2.2⟩

theorem legal_variant (fc : Floats) : ∀ (vs : List (String × Form × Ty)), OkVariants vs →
    ∀ (n : String) (form : Form) (d : Data), HasVariant vs n form d → d.Fits → Legal d.toValue
  | [], _, _, _, _, h, _ => by simp [HasVariant] at h
  | (m, f, t) :: vs, ho, n, form, d, h, hf => by
    simp only [HasVariant, OkVariants] at h ho
    rcases h with ⟨_, _, h⟩ | h
    · exact legal_toValue fc t ho.2.1 d h hf
    · exact legal_variant fc vs ho.2.2 n form d h hf
end

/-! ### Copies of dynamic values -/

mutual
theorem reread_eq : ∀ v : Value, Legal v → NoTime v → reread v = v
  | .time _, _, h => h.elim
  | .opt none, _, _ => by simp [reread]
  | .opt (some v), hl, h => by
    simp only [reread]
    rw [reread_eq v (by simpa [Legal, LegalOpt] using hl) (by simpa [NoTime] using h)]
  | .newtype v, hl, h => by
    simp only [reread]
    rw [reread_eq v (by simpa [Legal] using hl) (by simpa [NoTime] using h)]
  | .seq l, hl, h => by
    simp only [reread]
    simp only [Legal] at hl
    rw [rereads_eq l hl.2 (by simpa [NoTime] using h)]
  | .map l, hl, h => by
    simp only [reread]
    simp only [Legal] at hl
    rw [rereadEntries_eq l hl.2.2 (by simpa [NoTime] using h), insertAll_of_sorted (by simpa using hl.2.1)]
    rfl
  | .bool _, _, _ | .u8 _, _, _ | .u16 _, _, _ | .u32 _, _, _ | .u64 _, _, _ | .i8 _, _, _
  | .i16 _, _, _ | .i32 _, _, _ | .i64 _, _, _ | .f32 _, _, _ | .f64 _, _, _ | .char _, _, _
  | .str _, _, _ | .unit, _, _ | .bytes _, _, _ => by simp [reread]

theorem rereads_eq : ∀ l : List Value, LegalSeq l → NoTimes l → rereads l = l
  | [], _, _ => rfl
  | v :: l, hl, h => by
    simp only [LegalSeq, NoTimes] at hl h
    simp only [rereads]
    rw [reread_eq v hl.1 h.1, rereads_eq l hl.2 h.2]

theorem rereadEntries_eq : ∀ l : List (Value × Value), LegalMap l → NoTimeEntries l → rereadEntries l = l
  | [], _, _ => rfl
  | (k, v) :: l, hl, h => by
    simp only [LegalMap, NoTimeEntries] at hl h
    simp only [rereadEntries]
    rw [reread_eq k hl.1 h.1, reread_eq v hl.2.1 h.2.1, rereadEntries_eq l hl.2.2 h.2.2]
end

/-! ### Integers of other widths -/

theorem intIn_eq {lo hi n : Int} {v : Value} (h : intOf v = some n) :
    intIn lo hi v = if lo ≤ n ∧ n < hi then some n else none := by
  simp only [intIn, h]

theorem bytes_of {xs : List Prim} {ns : List Int} (h : xs.map Prim.number = ns.map some) :
    (∀ b : Bytes, b.map (fun x => (x.toNat : Int)) = ns → bytesOf (xs.map Prim.toValue) = some b) ∧
    ((∃ n ∈ ns, n < 0 ∨ 255 < n) → bytesOf (xs.map Prim.toValue) = none) := by
  induction xs generalizing ns with
  | nil =>
    have : ns = [] := by simpa using h.symm
    subst this
    refine ⟨fun b hb => ?_, by simp⟩
    have : b = [] := by simpa using hb
    subst this; rfl
  | cons x xs ih =>
    cases ns with
    | nil => simp at h
    | cons n ns =>
      simp only [List.map_cons, List.cons.injEq] at h
      obtain ⟨hx, h⟩ := h
      obtain ⟨h1, h2⟩ := ih h
      have hv : intOf x.toValue = some n := by
        cases x <;> simp_all [Prim.number, Prim.toValue, intOf]
      refine ⟨?_, ?_⟩
      · intro b hb
        cases b with
        | nil => simp at hb
        | cons y b =>
          simp only [List.map_cons, List.cons.injEq] at hb
          have hy := y.toNat_lt
          simp only [List.map_cons, bytesOf, intIn_eq hv, h1 b hb.2]
          rw [if_pos (by omega), ← hb.1]
          simp
      · rintro ⟨m, hm, hr⟩
        simp only [List.map_cons, bytesOf, intIn_eq hv]
        rcases List.mem_cons.1 hm with rfl | hm
        · rw [if_neg (by omega)]
        · rw [h2 ⟨m, hm, hr⟩]
          split
          · rename_i heq; cases heq
          · rfl

theorem integers (fc : Floats) {x : Prim} {n lo hi : Int} (hx : x.number = some n) {p : PrimTy}
    (hp : rangeOf p = some (lo, hi)) :
    (lo ≤ n ∧ n ≤ hi → ∃ y, Prim.de fc p x.toValue = some y ∧ y.ty = p ∧ y.number = some n) ∧
    (¬ (lo ≤ n ∧ n ≤ hi) → Prim.de fc p x.toValue = none) := by
  have hv : intOf x.toValue = some n := by
    cases x <;> simp_all [Prim.number, Prim.toValue, intOf]
  cases p <;> simp only [rangeOf, Option.some.injEq, Prod.mk.injEq, reduceCtorEq] at hp <;>
    obtain ⟨rfl, rfl⟩ := hp <;> simp only [Prim.de, intIn_eq hv] <;> refine ⟨?_, ?_⟩
  all_goals first
    | (intro h
       rw [if_neg (by omega)]
       rfl)
    | (intro h
       rw [if_pos (by omega)]
       refine ⟨_, rfl, rfl, ?_⟩
       simp only [Prim.number, Option.some.injEq]
       first
         | (rw [UInt8.toNat_ofNat', Nat.mod_eq_of_lt (by omega)]; omega)
         | (rw [UInt16.toNat_ofNat', Nat.mod_eq_of_lt (by omega)]; omega)
         | (rw [UInt32.toNat_ofNat', Nat.mod_eq_of_lt (by omega)]; omega)
         | (rw [UInt64.toNat_ofNat', Nat.mod_eq_of_lt (by omega)]; omega)
         | (rw [Int8.toInt_ofInt_of_le (by omega) (by omega)])
         | (rw [Int16.toInt_ofInt_of_le (by omega) (by omega)])
         | (rw [Int32.toInt_ofInt_of_le (by omega) (by omega)])
         | (rw [Int64.toInt_ofInt_of_le (by omega) (by omega)]))

end Serde
end Verif
