import Verif.Spec.ArrowArity
import Verif.Proofs.ArrowAggregate
namespace Verif
namespace Arrow
variable {A B O T : Type}

/-! ### slots by index -/

theorem slots_index {values : List T} {nulls : Option BoolBuf} (h : Fits values nulls) (d : T) :
    slots values (nulls.map BoolBuf.view) =
      (List.range values.length).map fun i => slot (validAt nulls i) (values.getD i d) := by
  have e : values = (List.range values.length).map fun i => values.getD i d := by
    apply List.ext_getElem
    · simp
    · intro i h1 h2
      simp [h1]
  cases nulls with
  | none =>
    have := slots_range_none values.length fun i => values.getD i d
    rw [← e] at this
    exact this
  | some n =>
    obtain ⟨h1, h2⟩ := h n rfl
    have := slots_range values.length (fun i => values.getD i d) (fun i => bit n.bits (n.off + i))
    rw [← e, ← h2, ← view_eq h1, h2] at this
    exact this

theorem slots_length {values : List T} {nulls : Option BoolBuf} (h : Fits values nulls) :
    (slots values (nulls.map BoolBuf.view)).length = values.length := by
  cases nulls with
  | none => simp [slots]
  | some n =>
    obtain ⟨h1, h2⟩ := h n rfl
    have hv : n.view.length = values.length := by rw [view_eq h1]; simp [h2]
    simp [slots, hv]

theorem slots_map {values : List A} {nulls : Option BoolBuf} (op : A → O) :
    slots (values.map op) (nulls.map BoolBuf.view) = (slots values (nulls.map BoolBuf.view)).map (Option.map op) := by
  cases nulls with
  | none => simp [slots]
  | some n =>
    simp only [slots, Option.map_some, List.zipWith_map_right, List.map_zipWith]
    congr 1
    funext b v
    cases b <;> rfl

theorem prim_new_ok {values : List T} {nulls : Option BoolBuf} (h : Fits values nulls) :
    Prim.new values nulls = .ok ⟨values, nulls⟩ := by
  cases nulls with
  | none => rfl
  | some n => simp [Prim.new, (h n rfl).2]

theorem fits_of {values : List A} {values' : List B} {nulls : Option BoolBuf} (h : Fits values nulls)
    (hl : values'.length = values.length) : Fits values' nulls := fun n hn => by
  rw [hl]; exact h n hn

theorem count_zero {values : List T} {nulls : Option BoolBuf} (h : Fits values nulls) (h0 : nullCount nulls = 0) :
    ∀ i, i < values.length → validAt nulls i = true := by
  intro i hi
  cases nulls with
  | none => rfl
  | some n =>
    obtain ⟨h1, h2⟩ := h n rfl
    simp only [nullCount] at h0
    change ((n.view).filter (!·)).length = 0 at h0
    rw [List.length_eq_zero_iff, List.filter_eq_nil_iff] at h0
    have := h0 (bit n.bits (n.off + i)) (by rw [view_eq h1]; simp; exact ⟨i, by omega, rfl⟩)
    simpa [validAt] using this

theorem count_pos {values : List T} {nulls : Option BoolBuf} (h : Fits values nulls) (h0 : nullCount nulls ≠ 0) :
    ∃ i, i < values.length ∧ validAt nulls i = false := by
  cases nulls with
  | none => simp [nullCount] at h0
  | some n =>
    obtain ⟨h1, h2⟩ := h n rfl
    simp only [nullCount] at h0
    change ((n.view).filter (!·)).length ≠ 0 at h0
    rw [Ne, List.length_eq_zero_iff, List.filter_eq_nil_iff] at h0
    rw [view_eq h1] at h0
    simp at h0
    obtain ⟨i, hi, hb⟩ := h0
    exact ⟨i, by omega, hb⟩

theorem and_bitwise : Bitwise (· &&& ·) (· && ·) := fun x y i _ => by simp

theorem prim_union_ok {va : List A} {vb : List B} {na nb : Option BoolBuf} (ha : Fits va na) (hb : Fits vb nb)
    (hl : va.length = vb.length) :
    ∃ u, unionNulls na nb = .ok u ∧ Fits va u ∧ (u = none ↔ na = none ∧ nb = none) ∧
      ∀ i, i < va.length → validAt u i = (validAt na i && validAt nb i) := by
  cases na with
  | none => exact ⟨nb, rfl, fun n hn => by rw [hl]; exact hb n hn, by simp, fun i _ => by simp [validAt]⟩
  | some a =>
    cases nb with
    | none => exact ⟨some a, rfl, ha, by simp, fun i _ => by simp [validAt]⟩
    | some b =>
      obtain ⟨a1, a2⟩ := ha a rfl
      obtain ⟨b1, b2⟩ := hb b rfl
      obtain ⟨bs, h1, h2, h3⟩ := combine_ok and_bitwise (by omega : a.len = b.len) a1 b1
      refine ⟨some ⟨bs, 0, a.len⟩, by simp only [unionNulls, h1]; rfl, fun n hn => ?_, by simp, fun i hi => ?_⟩
      · injection hn with hn
        subst hn
        exact ⟨by simpa using h2, a2⟩
      · simp only [validAt, Nat.zero_add]
        exact h3 i (by omega)

theorem create_ok {va : List A} {vb : List B} {na nb : Option BoolBuf} (ha : Fits va na) (hb : Fits vb nb)
    (hl : va.length = vb.length) :
    ∃ u, createUnion na nb = .ok u ∧ Fits va u ∧ (u = none ↔ na = none ∧ nb = none) ∧
      ∀ i, i < va.length → validAt u i = (validAt na i && validAt nb i) := by
  have self : ∀ {a : BoolBuf}, a.off + a.len ≤ a.bits.length → a.len = va.length →
      ∃ u, (a.combine (· &&& ·) a).map' some = Rs.ok (some u) ∧ Fits va (some u) ∧
        ∀ i, i < va.length → validAt (some u) i = validAt (some a) i := by
    intro a a1 a2
    obtain ⟨bs, h1, h2, h3⟩ := combine_ok and_bitwise (rfl : a.len = a.len) a1 a1
    refine ⟨⟨bs, 0, a.len⟩, by simp only [h1]; rfl, fun n hn => ?_, fun i hi => ?_⟩
    · injection hn with hn
      subst hn
      exact ⟨by simpa using h2, a2⟩
    · simp only [validAt, Nat.zero_add]
      rw [h3 i (by omega), Bool.and_self]
  cases na with
  | none =>
    cases nb with
    | none => exact ⟨none, rfl, ha, by simp, fun i _ => by simp [validAt]⟩
    | some b =>
      obtain ⟨b1, b2⟩ := hb b rfl
      obtain ⟨u, h1, h2, h3⟩ := self b1 (by omega)
      exact ⟨some u, h1, h2, by simp, fun i hi => by rw [h3 i hi]; simp [validAt]⟩
  | some a =>
    cases nb with
    | none =>
      obtain ⟨a1, a2⟩ := ha a rfl
      obtain ⟨u, h1, h2, h3⟩ := self a1 a2
      exact ⟨some u, h1, h2, by simp, fun i hi => by rw [h3 i hi]; simp [validAt]⟩
    | some b => exact prim_union_ok ha hb hl

/-! ### loops -/

/-- The first error among results. -/
def firstErr : List (Except ArrowErr O) → Option ArrowErr
  | [] => none
  | .error e :: _ => some e
  | .ok _ :: l => firstErr l

theorem collect_error {l : List (Except ArrowErr O)} {e : ArrowErr} (h : firstErr l = some e) : collect l = .error e := by
  induction l with
  | nil => cases h
  | cons x l ih =>
    cases x with
    | error e' => injection h with h; subst h; rfl
    | ok v => rw [collect, ih h]; rfl

theorem collect_ok {I : Type} {is : List I} {g : I → Except ArrowErr O} {h : I → O} (hg : ∀ i ∈ is, g i = .ok (h i)) :
    collect (is.map g) = .ok (is.map h) := by
  induction is with
  | nil => rfl
  | cons i is ih =>
    rw [List.map_cons, hg i (List.mem_cons_self ..), collect, ih fun j hj => hg j (List.mem_cons_of_mem _ hj)]
    rfl

theorem firstErr_filter {I : Type} (is : List I) (p : I → Bool) (f : I → Except ArrowErr O) :
    firstErr (is.map fun i => if p i then (f i).map some else .ok none) = firstErr ((is.filter p).map f) := by
  induction is with
  | nil => rfl
  | cons i is ih =>
    rw [List.map_cons, List.filter_cons]
    cases hp : p i with
    | false => simpa [firstErr] using ih
    | true =>
      simp only [if_true, List.map_cons]
      cases f i with
      | error e => rfl
      | ok v => simpa [firstErr, Except.map] using ih

theorem fill_cases (f : Nat → Except ArrowErr O) (is : List Nat) (s : List O) (hn : is.Nodup)
    (hi : ∀ i ∈ is, i < s.length) :
    (∃ e, fill f is s = .error e ∧ firstErr (is.map f) = some e) ∨
      ∃ s', fill f is s = .ok s' ∧ s'.length = s.length ∧ (∀ i ∈ is, ∃ v, f i = .ok v ∧ s'[i]? = some v) ∧
        ∀ i, i ∉ is → s'[i]? = s[i]? := by
  induction is generalizing s with
  | nil => exact .inr ⟨s, rfl, rfl, by simp, fun i _ => rfl⟩
  | cons i is ih =>
    rw [List.nodup_cons] at hn
    simp only [fill, List.map_cons]
    cases hf : f i with
    | error e => exact .inl ⟨e, rfl, rfl⟩
    | ok v =>
      rcases ih (s.set i v) hn.2 (fun j hj => by simpa using hi j (List.mem_cons_of_mem _ hj)) with
        ⟨e, h1, h2⟩ | ⟨s', h1, h2, h3, h4⟩
      · exact .inl ⟨e, h1, h2⟩
      · refine .inr ⟨s', h1, by simpa using h2, fun j hj => ?_, fun j hj => ?_⟩
        · rcases List.mem_cons.1 hj with rfl | hj
          · refine ⟨v, hf, ?_⟩
            rw [h4 _ hn.1]
            simp [hi j (List.mem_cons_self ..)]
          · exact h3 j hj
        · rw [h4 j fun h => hj (List.mem_cons_of_mem _ h)]
          have : i ≠ j := fun h => hj (h ▸ List.mem_cons_self ..)
          simp [this]

/-- A loop over the slots that are valid. -/
theorem fill_collect {nulls : Option BoolBuf} {s : List O} (f : Nat → Except ArrowErr O) (is : List Nat)
    (hs : Fits s nulls) (h : is = (List.range s.length).filter fun i => validAt nulls i) :
    (fill f is s).map (fun s' => slots s' (nulls.map BoolBuf.view)) =
        collect ((List.range s.length).map fun i => if validAt nulls i then (f i).map some else .ok none) ∧
      ∀ s', fill f is s = .ok s' → s'.length = s.length := by
  have hn : is.Nodup := h ▸ List.nodup_range.filter _
  have hi : ∀ i ∈ is, i < s.length := by
    intro i hi
    rw [h, List.mem_filter, List.mem_range] at hi
    exact hi.1
  rcases fill_cases f is s hn hi with ⟨e, h1, h2⟩ | ⟨s', h1, h2, h3, -⟩
  · refine ⟨?_, fun s' hs' => by rw [h1] at hs'; cases hs'⟩
    rw [h1, collect_error (e := e)]
    · rfl
    · rw [firstErr_filter, ← h]
      exact h2
  · refine ⟨?_, fun s'' hs' => by rw [h1] at hs'; injection hs' with hs'; rw [← hs', h2]⟩
    rw [h1]
    change Except.ok (slots s' (nulls.map BoolBuf.view)) = _
    cases hl : s.length with
    | zero =>
      have : s' = [] := List.length_eq_zero_iff.1 (by omega)
      subst this
      cases nulls <;> simp [slots, collect]
    | succ k =>
      have d : O := s'[0]'(by omega)
      rw [slots_index (fits_of hs h2) d, h2, hl]
      symm
      apply collect_ok
      intro i hi
      rw [List.mem_range] at hi
      cases hv : validAt nulls i with
      | false => rfl
      | true =>
        obtain ⟨v, hv1, hv2⟩ := h3 i (by rw [h, List.mem_filter, List.mem_range]; exact ⟨by omega, hv⟩)
        simp [hv1, hv2, Except.map, slot, List.getD_eq_getElem?_getD]

theorem valid_filter {values : List T} {n : BoolBuf} (h : Fits values (some n)) :
    validIndices n = (List.range values.length).filter fun i => validAt (some n) i := by
  obtain ⟨h1, h2⟩ := h n rfl
  unfold validIndices
  rw [h2]
  apply List.filter_congr
  intro i hi
  rw [List.mem_range] at hi
  change bit ((n.bits.drop n.off).take values.length) i = bit n.bits (n.off + i)
  rw [bit_take, bit_drop]
  simp [hi]

theorem push_collect {I : Type} (f : Nat → Except ArrowErr O) (is : List Nat) (s : List O) :
    pushEach f is s = (collect (is.map f)).map (s ++ ·) := by
  induction is generalizing s with
  | nil => simp [pushEach, collect, Except.map]
  | cons i is ih =>
    rw [pushEach, List.map_cons]
    cases f i with
    | error e => rfl
    | ok v =>
      simp only [collect]
      rw [ih]
      cases collect (is.map f) with
      | error e => rfl
      | ok l => simp [Except.map]

theorem collect_some {I : Type} (f : I → Except ArrowErr O) (is : List I) :
    collect (is.map fun i => (f i).map some) = (collect (is.map f)).map (List.map some) := by
  induction is with
  | nil => rfl
  | cons i is ih =>
    rw [List.map_cons, List.map_cons]
    cases f i with
    | error e => rfl
    | ok v =>
      change (collect _).map _ = _
      rw [ih]
      simp only [collect]
      cases collect (is.map f) <;> rfl

theorem fillMut_eq [Inhabited T] [Inhabited B] (op : T → B → Except ArrowErr T) (a : List T) (b : List B) (is : List Nat)
    (s : List T) (hn : is.Nodup) (hs : ∀ i ∈ is, s.getD i Inhabited.default = a.getD i Inhabited.default) :
    fillMut op b is s = fill (fun i => op (a.getD i Inhabited.default) (b.getD i Inhabited.default)) is s := by
  induction is generalizing s with
  | nil => rfl
  | cons i is ih =>
    rw [List.nodup_cons] at hn
    rw [fillMut, fill, hs i (List.mem_cons_self ..)]
    cases op (a.getD i Inhabited.default) (b.getD i Inhabited.default) with
    | error e => rfl
    | ok v =>
      refine ih _ hn.2 fun j hj => ?_
      have : i ≠ j := fun h => hn.1 (h ▸ hj)
      rw [← hs j (List.mem_cons_of_mem _ hj)]
      simp [List.getD_eq_getElem?_getD, this]

/-! ### the kernels -/

theorem result_new {values : List O} {nulls : Option BoolBuf} (h : Fits values nulls) :
    result ((Prim.new values nulls).map' .ok) = .ok (.ok (slots values (nulls.map BoolBuf.view))) := by
  rw [prim_new_ok h]
  rfl

theorem unary_ok {a : Prim A} (h : a.Ok) (op : A → O) :
    ∃ b, unary a op = .ok b ∧ b.Ok ∧ b.slots = a.slots.map (Option.map op) := by
  have hf : Fits (a.values.map op) a.nulls := fits_of h (by simp)
  refine ⟨⟨_, _⟩, prim_new_ok hf, hf, slots_map op⟩

theorem slot_try (p : Bool) (v : A) (f : A → Except ArrowErr O) :
    strictTry f (slot p v) = if p then (f v).map some else .ok none := by cases p <;> rfl

theorem slot_try₂ (p q : Bool) (v : A) (w : B) (f : A → B → Except ArrowErr O) :
    strictTry₂ f (slot p v) (slot q w) = if (p && q) then (f v w).map some else .ok none := by
  cases p <;> cases q <;> rfl

theorem tryUnary_ok [Inhabited A] (zero : O) {a : Prim A} (h : a.Ok) (op : A → Except ArrowErr O) :
    result (tryUnary zero a op) = .ok (collect (a.slots.map (strictTry op))) := by
  have hs : Fits (List.replicate a.values.length zero) a.nulls := fits_of h (by simp)
  have hi : a.indices =
      (List.range (List.replicate a.values.length zero).length).filter fun i => validAt a.nulls i := by
    rw [List.length_replicate]
    unfold Prim.indices
    cases hn : a.nulls with
    | none =>
      symm
      exact List.filter_eq_self.2 fun _ _ => rfl
    | some n =>
      unfold Prim.Ok at h
      rw [hn] at h
      exact valid_filter h
  obtain ⟨h1, h2⟩ := fill_collect (fun i => op (a.values.getD i Inhabited.default)) _ hs hi
  have e : a.slots.map (strictTry op) = (List.range (List.replicate a.values.length zero).length).map fun i =>
      if validAt a.nulls i then (op (a.values.getD i Inhabited.default)).map some else .ok none := by
    rw [Prim.slots, slots_index h Inhabited.default, List.map_map, List.length_replicate]
    apply List.map_congr_left
    intro i _
    exact slot_try _ _ _
  rw [e, ← h1]
  unfold tryUnary
  cases hf : fill (fun i => op (a.values.getD i Inhabited.default)) a.indices (List.replicate a.values.length zero) with
  | error e => rfl
  | ok s => exact result_new (fits_of hs (h2 s hf))

theorem zip_slots {va : List A} {vb : List B} {na nb u : Option BoolBuf} (ha : Fits va na) (hb : Fits vb nb)
    (hl : va.length = vb.length) (hu : Fits va u)
    (hv : ∀ i, i < va.length → validAt u i = (validAt na i && validAt nb i)) (op : A → B → O) :
    slots (List.zipWith op va vb) (u.map BoolBuf.view) =
      List.zipWith (strict op) (slots va (na.map BoolBuf.view)) (slots vb (nb.map BoolBuf.view)) := by
  cases va with
  | nil => cases vb with
    | nil => cases na <;> cases nb <;> cases u <;> simp [slots]
    | cons y vb => simp at hl
  | cons x va =>
    cases vb with
    | nil => simp at hl
    | cons y vb =>
      have hf : Fits (List.zipWith op (x :: va) (y :: vb)) u := fits_of hu (by rw [List.length_zipWith]; omega)
      rw [slots_index ha x, slots_index hb y, slots_index hf (op x y), ← hl, zipWith_range]
      have : (List.zipWith op (x :: va) (y :: vb)).length = (x :: va).length := by
        rw [List.length_zipWith]; omega
      rw [this]
      apply List.map_congr_left
      intro i hi
      rw [List.mem_range] at hi
      rw [hv i hi]
      have h1 : i < (x :: va).length := hi
      have h2 : i < (y :: vb).length := by omega
      have h3 : i < (List.zipWith op (x :: va) (y :: vb)).length := by omega
      have e1 : (List.zipWith op (x :: va) (y :: vb)).getD i (op x y) =
          op ((x :: va).getD i x) ((y :: vb).getD i y) := by
        simp only [List.getD_eq_getElem?_getD, List.getElem?_eq_getElem h1, List.getElem?_eq_getElem h2,
          List.getElem?_eq_getElem h3, List.getElem_zipWith, Option.getD_some]
      rw [e1]
      cases validAt na i <;> cases validAt nb i <;> rfl

theorem binary_ok {a : Prim A} {b : Prim B} (ha : a.Ok) (hb : b.Ok) (hl : a.values.length = b.values.length)
    (op : A → B → O) :
    ∃ c, binary a b op = .ok (.ok c) ∧ c.Ok ∧ c.slots = List.zipWith (strict op) a.slots b.slots := by
  unfold binary
  rw [if_neg (by simpa using hl)]
  by_cases h0 : a.values.length = 0
  · rw [if_pos h0]
    refine ⟨_, rfl, fun n (hn : none = some n) => (by cases hn), ?_⟩
    have h1 := slots_length ha
    rw [h0, List.length_eq_zero_iff] at h1
    rw [Prim.slots, Prim.slots, h1]
    rfl
  · rw [if_neg h0]
    obtain ⟨u, h1, h2, -, h3⟩ := prim_union_ok ha hb hl
    have hf : Fits (List.zipWith op a.values b.values) u := fits_of h2 (by simp; omega)
    rw [h1]
    simp only [prim_new_ok hf]
    exact ⟨_, rfl, hf, zip_slots ha hb hl h2 h3 op⟩

theorem collect_range_some {n : Nat} (f : Nat → Except ArrowErr O) (p : Nat → Bool) (h : ∀ i, i < n → p i = true) :
    (List.range n).map (fun i => if p i then (f i).map some else .ok none) =
      (List.range n).map fun i => (f i).map some := by
  apply List.map_congr_left
  intro i hi
  rw [h i (List.mem_range.1 hi), if_pos rfl]

theorem zip_try {va : List A} {vb : List B} {na nb : Option BoolBuf} (ha : Fits va na) (hb : Fits vb nb)
    (hl : va.length = vb.length) (p : Nat → Bool) (da : A) (db : B)
    (hv : ∀ i, i < va.length → p i = (validAt na i && validAt nb i)) (op : A → B → Except ArrowErr O) :
    List.zipWith (strictTry₂ op) (slots va (na.map BoolBuf.view)) (slots vb (nb.map BoolBuf.view)) =
      (List.range va.length).map fun i => if p i then (op (va.getD i da) (vb.getD i db)).map some else .ok none := by
  rw [slots_index ha da, slots_index hb db, ← hl, zipWith_range]
  apply List.map_congr_left
  intro i hi
  rw [slot_try₂, hv i (List.mem_range.1 hi)]

theorem tryBinary_ok [Inhabited A] [Inhabited B] (zero : O) {a : Access A} {b : Access B} (ha : a.Ok) (hb : b.Ok)
    (pa : a.Plain) (pb : b.Plain) (hl : a.values.length = b.values.length) (op : A → B → Except ArrowErr O) :
    result (tryBinary zero a b op) = .ok (collect (List.zipWith (strictTry₂ op) a.slots b.slots)) := by
  unfold tryBinary
  simp only
  rw [if_neg (by simpa using hl)]
  by_cases h0 : a.values.length = 0
  · rw [if_pos h0]
    have h1 := slots_length ha.2
    rw [h0, List.length_eq_zero_iff] at h1
    rw [Access.slots, h1]
    rfl
  · rw [if_neg h0]
    by_cases hc : nullCount a.nulls = 0 ∧ nullCount b.nulls = 0
    · rw [if_pos hc, push_collect (I := Nat)]
      have va := count_zero ha.2 (pa.1 hc.1)
      have vb := count_zero hb.2 (pb.1 hc.2)
      rw [Access.slots, Access.slots, zip_try ha.2 hb.2 hl (fun _ => true) Inhabited.default Inhabited.default
        (fun i hi => by rw [va i hi, vb i (by omega)]; rfl), collect_range_some _ _ fun _ _ => rfl, collect_some]
      cases collect _ with
      | error e => rfl
      | ok s => simp [Except.map, Prim.new, result, Rs.map', Prim.slots, slots]
    · rw [if_neg hc]
      obtain ⟨u, h1, h2, h3, h4⟩ := prim_union_ok ha.2 hb.2 hl
      rw [h1]
      cases u with
      | none =>
        obtain ⟨h5, h6⟩ := h3.1 rfl
        exact absurd ⟨pa.2 (by rw [h5]; rfl), pb.2 (by rw [h6]; rfl)⟩ hc
      | some n =>
        simp only
        have hs : Fits (List.replicate a.values.length zero) (some n) := fits_of h2 (by simp)
        obtain ⟨h5, h6⟩ := fill_collect (fun i => op (a.values.getD i Inhabited.default) (b.values.getD i Inhabited.default))
          (validIndices n) hs (by rw [List.length_replicate]; exact valid_filter h2)
        rw [Access.slots, Access.slots, zip_try ha.2 hb.2 hl (validAt (some n)) Inhabited.default Inhabited.default h4]
        rw [List.length_replicate] at h5
        rw [← h5]
        cases hf : fill _ (validIndices n) (List.replicate a.values.length zero) with
        | error e => rfl
        | ok s => exact result_new (fits_of hs (h6 s hf))

theorem tryBinaryMut_ok [Inhabited T] {a b : Prim T} (ha : a.Ok) (hb : b.Ok) (hl : a.values.length = b.values.length)
    (op : T → T → Except ArrowErr T) :
    (∃ e, tryBinaryMut false a b op = .ok (.failed e) ∧
      collect (List.zipWith (strictTry₂ op) a.slots b.slots) = .error e) ∨
    ∃ c, tryBinaryMut false a b op = .ok (.done c) ∧ c.Ok ∧
      collect (List.zipWith (strictTry₂ op) a.slots b.slots) = .ok c.slots := by
  unfold tryBinaryMut
  rw [if_neg (by simpa using hl)]
  by_cases h0 : a.values.length = 0
  · rw [if_pos h0]
    have h1 := slots_length ha
    rw [h0, List.length_eq_zero_iff] at h1
    exact .inr ⟨_, rfl, fun n (hn : none = some n) => (by cases hn), (by rw [Prim.slots, h1]; rfl)⟩
  · rw [if_neg h0]
    by_cases hc : nullCount a.nulls = 0 ∧ nullCount b.nulls = 0
    · rw [if_pos hc, if_neg (by simp), fillMut_eq op a.values _ _ _ List.nodup_range fun i _ => rfl]
      have va := count_zero ha hc.1
      have vb := count_zero hb hc.2
      obtain ⟨h5, h6⟩ := fill_collect (fun i => op (a.values.getD i Inhabited.default) (b.values.getD i Inhabited.default))
        (List.range a.values.length) ha (by
          symm
          rw [List.filter_eq_self]
          intro i hi
          exact va i (List.mem_range.1 hi))
      rw [Prim.slots, Prim.slots, zip_try ha hb hl (validAt a.nulls) Inhabited.default Inhabited.default
        (fun i hi => by rw [va i hi, vb i (by omega)]; rfl), ← h5]
      cases hf : fill _ (List.range a.values.length) a.values with
      | error e => exact .inl ⟨e, rfl, rfl⟩
      | ok s => exact .inr ⟨_, rfl, fits_of ha (h6 s hf), rfl⟩
    · rw [if_neg hc]
      obtain ⟨u, h1, h2, h3, h4⟩ := create_ok ha hb hl
      rw [h1]
      cases u with
      | none =>
        obtain ⟨h5, h6⟩ := h3.1 rfl
        exact absurd ⟨by rw [h5]; rfl, by rw [h6]; rfl⟩ hc
      | some n =>
        simp only
        rw [if_neg (by simp), fillMut_eq op a.values _ _ _
          (by rw [valid_filter h2]; exact List.nodup_range.filter _) fun i _ => rfl]
        obtain ⟨h5, h6⟩ := fill_collect (fun i => op (a.values.getD i Inhabited.default) (b.values.getD i Inhabited.default))
          (validIndices n) h2 (valid_filter h2)
        rw [Prim.slots, Prim.slots, zip_try ha hb hl (validAt (some n)) Inhabited.default Inhabited.default h4, ← h5]
        cases hf : fill _ (validIndices n) a.values with
        | error e => exact .inl ⟨e, rfl, rfl⟩
        | ok s => exact .inr ⟨_, rfl, fits_of h2 (h6 s hf), rfl⟩

theorem indices_filter {a : Prim A} (h : a.Ok) :
    a.indices = (List.range a.values.length).filter fun i => validAt a.nulls i := by
  unfold Prim.indices
  cases hn : a.nulls with
  | none =>
    symm
    exact List.filter_eq_self.2 fun _ _ => rfl
  | some n =>
    unfold Prim.Ok at h
    rw [hn] at h
    exact valid_filter h

theorem tryUnaryMut_ok [Inhabited T] {a : Prim T} (h : a.Ok) (op : T → Except ArrowErr T) :
    (∃ e, tryUnaryMut false a op = .failed e ∧ collect (a.slots.map (strictTry op)) = .error e) ∨
    ∃ c, tryUnaryMut false a op = .done c ∧ c.Ok ∧ collect (a.slots.map (strictTry op)) = .ok c.slots := by
  have hi := indices_filter h
  unfold tryUnaryMut
  rw [if_neg (by simp), fillMut_eq _ a.values _ _ _ (by rw [hi]; exact List.nodup_range.filter _) fun i _ => rfl]
  obtain ⟨h1, h2⟩ := fill_collect (fun i => op (a.values.getD i Inhabited.default)) _ h hi
  have e : a.slots.map (strictTry op) = (List.range a.values.length).map fun i =>
      if validAt a.nulls i then (op (a.values.getD i Inhabited.default)).map some else .ok none := by
    rw [Prim.slots, slots_index h Inhabited.default, List.map_map]
    apply List.map_congr_left
    intro i _
    exact slot_try _ _ _
  rw [e, ← h1]
  cases hf : fill (fun i => op (a.values.getD i Inhabited.default)) a.indices a.values with
  | error e => exact .inl ⟨e, rfl, rfl⟩
  | ok s => exact .inr ⟨_, rfl, fits_of h (h2 s hf), rfl⟩

/-! ### one value -/

theorem map_eq_collect {I : Type} (is : List I) (f : I → O) : collect (is.map fun i => Except.ok (f i)) = .ok (is.map f) :=
  collect_ok fun _ _ => rfl

theorem zip_ok (op : A → B → O) (a : List (Option A)) (b : List (Option B)) :
    collect (List.zipWith (strictTry₂ fun x y => .ok (op x y)) a b) = .ok (List.zipWith (strict op) a b) := by
  induction a generalizing b with
  | nil => rfl
  | cons x a ih =>
    cases b with
    | nil => rfl
    | cons y b =>
      cases x <;> cases y <;> simp [strictTry₂, strict, collect, Except.map, ih]

theorem zip_left (op : A → B → Except ArrowErr O) (x : Option A) (b : List (Option B)) :
    List.zipWith (strictTry₂ op) (List.replicate b.length x) b = b.map (strictTry₂ op x) := by
  induction b with
  | nil => rfl
  | cons y b ih => simp [List.replicate_succ, ih]

theorem zip_right (op : A → B → Except ArrowErr O) (y : Option B) (a : List (Option A)) :
    List.zipWith (strictTry₂ op) a (List.replicate a.length y) = a.map fun x => strictTry₂ op x y := by
  induction a with
  | nil => rfl
  | cons x a ih => simp [List.replicate_succ, ih]

theorem one_ok {d : Datum T} (h : d.Ok) (hs : d.scalar = true) : d.one = .ok (d.array.slots.headD none) := by
  have h1 := h.2 hs
  have h0 := slots_length h.1
  rw [Prim.slots] at h1
  rw [h1] at h0
  unfold Datum.one
  match hv : d.array.values with
  | [] => rw [hv] at h0; simp at h0
  | v :: w :: vs => rw [hv] at h0; simp at h0
  | [v] =>
    have e := slots_index h.1 v
    rw [hv] at e
    change slots [v] _ = [slot (validAt d.array.nulls 0) v] at e
    rw [Prim.slots, hv, e]
    by_cases hc : nullCount d.array.nulls = 0
    · rw [if_pos hc]
      have := count_zero h.1 hc 0 (by rw [hv]; simp)
      simp [this, slot]
    · rw [if_neg hc]
      obtain ⟨i, hi, hb⟩ := count_pos h.1 hc
      rw [hv] at hi
      have : i = 0 := by simpa using hi
      subst this
      simp [hb, slot]

theorem null_slots (zero : T) (n : Nat) :
    (Prim.newNull zero n).Ok ∧ (Prim.newNull zero n).slots = List.replicate n none := by
  have hf : Fits (List.replicate n zero) (some (BoolBuf.const false n)) := by
    intro m hm
    injection hm with hm
    subst hm
    exact ⟨by simp [BoolBuf.const]; omega, by simp [BoolBuf.const]⟩
  refine ⟨hf, ?_⟩
  have := slots_index hf zero
  rw [Prim.slots, Prim.newNull]
  simp only
  rw [this, List.length_replicate]
  apply List.ext_getElem
  · simp
  · intro i h1 h2
    simp only [List.length_map, List.length_range] at h1
    have hb : bit (List.replicate (8 * ((n + 7) / 8)) false) (0 + i) = false := by
      rw [bit_of_lt (by simp; omega)]
      simp
    simp only [List.getElem_map, List.getElem_range, List.getElem_replicate, validAt, BoolBuf.const]
    rw [hb]
    rfl

theorem plain (a : Prim T) : a.access.Plain := Iff.rfl

theorem spread_left {d : Datum T} (h : d.Ok) (n : Nat) (hn : d.scalar = false ∨ n = 1) : d.spread n = d.array.slots := by
  unfold Datum.spread
  rcases hn with hn | hn
  · simp [hn]
  · cases hs : d.scalar with
    | false => simp
    | true =>
      have h1 := h.2 hs
      match hv : d.array.slots with
      | [] => rw [hv] at h1; simp at h1
      | [v] => simp [hn]
      | v :: w :: vs => rw [hv] at h1; simp at h1

theorem strictTry_none (op : A → B → Except ArrowErr O) (b : List (Option B)) :
    b.map (strictTry₂ op none) = (List.replicate b.length ()).map fun _ => Except.ok none := by
  induction b with
  | nil => rfl
  | cons y b ih => simp only [List.map_cons, ih, List.length_cons, List.replicate_succ]; rfl

theorem strictTry_right (op : A → B → Except ArrowErr O) (a : List (Option A)) :
    (a.map fun x => strictTry₂ op x none) = (List.replicate a.length ()).map fun _ => Except.ok none := by
  induction a with
  | nil => rfl
  | cons y b ih =>
    simp only [List.map_cons, ih, List.length_cons, List.replicate_succ]
    cases y <;> rfl

theorem tryOp_ok [Inhabited A] [Inhabited B] (zero : O) {l : Datum A} {r : Datum B} (hl : l.Ok) (hr : r.Ok)
    (hm : Match l r) (op : A → B → Except ArrowErr O) :
    result (tryOpMacro zero l r op) =
      .ok (collect (List.zipWith (strictTry₂ op) (l.spread (lengthOf l r)) (r.spread (lengthOf l r)))) := by
  have ll := slots_length hl.1
  have lr := slots_length hr.1
  have el : l.array.slots.length = l.array.values.length := ll
  have er : r.array.slots.length = r.array.values.length := lr
  have both : l.scalar = r.scalar → result (tryBinary zero l.array.access r.array.access op) =
      .ok (collect (List.zipWith (strictTry₂ op) (l.spread (lengthOf l r)) (r.spread (lengthOf l r)))) := by
    intro hs
    have h1 : l.scalar = false ∨ lengthOf l r = 1 := by
      unfold lengthOf
      cases h : l.scalar with
      | false => exact .inl rfl
      | true => exact .inr (by simpa using hr.2 (hs ▸ h))
    rw [spread_left hl _ h1, spread_left hr _ (hs ▸ h1)]
    exact tryBinary_ok zero (a := l.array.access) (b := r.array.access) ⟨hl.1, hl.1⟩ ⟨hr.1, hr.1⟩ (plain _) (plain _) (el.symm.trans ((hm hs).trans er)) op
  unfold tryOpMacro
  cases hs : l.scalar with
  | true =>
    cases ht : r.scalar with
    | true => exact both (hs.trans ht.symm)
    | false =>
      simp only [one_ok hl hs]
      have e1 : lengthOf l r = r.array.slots.length := by simp [lengthOf, hs]
      have e2 : l.spread (lengthOf l r) = List.replicate r.array.slots.length (l.array.slots.headD none) := by
        simp [Datum.spread, hs, e1]
      have e3 : r.spread (lengthOf l r) = r.array.slots := by simp [Datum.spread, ht]
      rw [e2, e3, zip_left]
      cases l.array.slots.headD none with
      | none =>
        simp only
        rw [strictTry_none, map_eq_collect, ← er]
        simp [result, Rs.map', Except.map, (null_slots zero _).2]
      | some x =>
        simp only
        rw [tryUnary_ok zero hr.1]
        congr 3
        funext y
        cases y <;> rfl
  | false =>
    cases ht : r.scalar with
    | false => exact both (hs.trans ht.symm)
    | true =>
      simp only [one_ok hr ht]
      have e1 : lengthOf l r = l.array.slots.length := by simp [lengthOf, hs]
      have e2 : r.spread (lengthOf l r) = List.replicate l.array.slots.length (r.array.slots.headD none) := by
        simp [Datum.spread, ht, e1]
      have e3 : l.spread (lengthOf l r) = l.array.slots := by simp [Datum.spread, hs]
      rw [e2, e3, zip_right]
      cases r.array.slots.headD none with
      | none =>
        simp only
        rw [strictTry_right, map_eq_collect, ← el]
        simp [result, Rs.map', Except.map, (null_slots zero _).2]
      | some y =>
        simp only
        rw [tryUnary_ok zero hl.1]
        congr 3
        funext x
        cases x <;> rfl

theorem result_unary {a : Prim A} (h : a.Ok) (op : A → O) :
    result ((unary a op).map' .ok) = .ok (.ok (a.slots.map (Option.map op))) := by
  obtain ⟨b, h1, -, h3⟩ := unary_ok h op
  rw [h1, ← h3]
  rfl

theorem result_binary {a : Prim A} {b : Prim B} (ha : a.Ok) (hb : b.Ok) (hl : a.slots.length = b.slots.length)
    (op : A → B → O) :
    result (binary a b op) = .ok (.ok (List.zipWith (strict op) a.slots b.slots)) := by
  obtain ⟨c, h1, -, h3⟩ := binary_ok ha hb ((slots_length ha).symm.trans (hl.trans (slots_length hb))) op
  rw [h1, ← h3]
  rfl

theorem op_ok (zero : O) {l : Datum A} {r : Datum B} (hl : l.Ok) (hr : r.Ok)
    (hm : Match l r) (op : A → B → O) :
    result (opMacro zero l r op) =
      .ok (collect (List.zipWith (strictTry₂ fun x y => .ok (op x y)) (l.spread (lengthOf l r)) (r.spread (lengthOf l r)))) := by
  have el : l.array.slots.length = l.array.values.length := slots_length hl.1
  have er : r.array.slots.length = r.array.values.length := slots_length hr.1
  have both : l.scalar = r.scalar → result (binary l.array r.array op) =
      .ok (collect (List.zipWith (strictTry₂ fun x y => .ok (op x y)) (l.spread (lengthOf l r)) (r.spread (lengthOf l r)))) := by
    intro hs
    have h1 : l.scalar = false ∨ lengthOf l r = 1 := by
      unfold lengthOf
      cases h : l.scalar with
      | false => exact .inl rfl
      | true => exact .inr (by simpa using hr.2 (hs ▸ h))
    rw [spread_left hl _ h1, spread_left hr _ (hs ▸ h1), zip_ok]
    exact result_binary hl.1 hr.1 (hm hs) op
  unfold opMacro
  cases hs : l.scalar with
  | true =>
    cases ht : r.scalar with
    | true => exact both (hs.trans ht.symm)
    | false =>
      simp only [one_ok hl hs]
      have e1 : lengthOf l r = r.array.slots.length := by simp [lengthOf, hs]
      have e2 : l.spread (lengthOf l r) = List.replicate r.array.slots.length (l.array.slots.headD none) := by
        simp [Datum.spread, hs, e1]
      have e3 : r.spread (lengthOf l r) = r.array.slots := by simp [Datum.spread, ht]
      rw [e2, e3, zip_left]
      cases l.array.slots.headD none with
      | none =>
        simp only
        rw [strictTry_none, map_eq_collect, ← er]
        simp [result, Rs.map', Except.map, (null_slots zero _).2]
      | some x =>
        simp only
        rw [result_unary hr.1]
        congr 1
        symm
        apply collect_ok
        intro y _
        cases y <;> rfl
  | false =>
    cases ht : r.scalar with
    | false => exact both (hs.trans ht.symm)
    | true =>
      simp only [one_ok hr ht]
      have e1 : lengthOf l r = l.array.slots.length := by simp [lengthOf, hs]
      have e2 : r.spread (lengthOf l r) = List.replicate l.array.slots.length (r.array.slots.headD none) := by
        simp [Datum.spread, ht, e1]
      have e3 : l.spread (lengthOf l r) = l.array.slots := by simp [Datum.spread, hs]
      rw [e2, e3, zip_right]
      cases r.array.slots.headD none with
      | none =>
        simp only
        rw [strictTry_right, map_eq_collect, ← el]
        simp [result, Rs.map', Except.map, (null_slots zero _).2]
      | some y =>
        simp only
        rw [result_unary hl.1]
        congr 1
        symm
        apply collect_ok
        intro x _
        cases x <;> rfl

/-! ### integers -/

theorem has_iff {N : Native} (hb : 0 < N.bits) (v : Int) : N.has v = true ↔ N.Holds v := by
  obtain ⟨s, b⟩ := N
  simp only at hb
  obtain ⟨k, rfl⟩ : ∃ k, b = k + 1 := ⟨b - 1, by omega⟩
  have e : (2 : Int) ^ (k + 1) = 2 * 2 ^ k := by rw [Int.pow_succ]; omega
  cases s
  · simp [Native.has, Native.Holds, Native.min, Native.size]
  · simp only [Native.has, Native.Holds, Native.min, Native.size, if_true, Nat.add_sub_cancel, e, Bool.and_eq_true,
      decide_eq_true_eq]
    omega

theorem wrap_ok {N : Native} (hb : 0 < N.bits) (v : Int) :
    N.Holds (N.wrap v) ∧ (2 : Int) ^ N.bits ∣ N.wrap v - v := by
  have hp : (0 : Int) < 2 ^ N.bits := Int.pow_pos (by decide)
  constructor
  · rw [← has_iff hb]
    have h1 := Int.emod_nonneg (v - N.min) (Int.ne_of_gt hp)
    have h2 := Int.emod_lt_of_pos (v - N.min) hp
    unfold Native.has Native.wrap Native.size
    rw [Bool.and_eq_true, decide_eq_true_eq, decide_eq_true_eq]
    omega
  · have : N.wrap v - v = (v - N.min) % 2 ^ N.bits - (v - N.min) := by
      simp only [Native.wrap, Native.size]
      omega
    rw [this]
    refine ⟨-((v - N.min) / 2 ^ N.bits), ?_⟩
    have := Int.mul_ediv_add_emod (v - N.min) (2 ^ N.bits)
    rw [Int.mul_neg]
    omega

theorem check_ok {N : Native} (hb : 0 < N.bits) (v : Int) :
    (N.Holds v ∧ N.check v = .ok v) ∨ (¬ N.Holds v ∧ N.check v = .error .overflow) := by
  unfold Native.check
  by_cases h : N.has v = true
  · exact .inl ⟨(has_iff hb v).1 h, by rw [if_pos h]⟩
  · exact .inr ⟨fun h' => h ((has_iff hb v).2 h'), by rw [if_neg h]⟩

theorem tmod_holds {N : Native} {a b : Int} (h : N.Holds a) : N.Holds (a.tmod b) := by
  have key : (0 ≤ a → 0 ≤ a.tmod b ∧ a.tmod b ≤ a) ∧ (a ≤ 0 → a.tmod b ≤ 0 ∧ a ≤ a.tmod b) := by
    have habs : (a.tmod b).natAbs ≤ a.natAbs := by
      rw [Int.natAbs_tmod]
      exact Nat.mod_le _ _
    refine ⟨fun h0 => ?_, fun h0 => ?_⟩
    · have := Int.tmod_nonneg b h0
      omega
    · have := Int.tmod_nonneg b (by omega : 0 ≤ -a)
      rw [Int.neg_tmod] at this
      omega
  have hp : (0 : Int) < 2 ^ (N.bits - 1) := Int.pow_pos (by decide)
  unfold Native.Holds at *
  rcases Int.le_total 0 a with h0 | h0
  · have := key.1 h0
    split <;> rename_i hs <;> simp [hs] at h <;> omega
  · have := key.2 h0
    split <;> rename_i hs <;> simp [hs] at h <;> omega

theorem integer_right {N : Native} (hb : 0 < N.bits) (op : Op) :
    ∃ f : Int → Int → Except ArrowErr Int, (∀ a b, N.Holds a → N.Holds b → Right N op a b (f a b)) ∧
      ∀ l r : Datum Int, l.Ok → r.Ok → Match l r → result (integerOp N op l r) =
        .ok (collect (List.zipWith (strictTry₂ f) (l.spread (lengthOf l r)) (r.spread (lengthOf l r)))) := by
  cases op with
  | addWrapping =>
    exact ⟨fun x y => .ok (N.wrap (x + y)), fun a b _ _ => ⟨(wrap_ok hb _).1, _, rfl, (wrap_ok hb _).2⟩,
      fun l r hl hr hm => op_ok 0 hl hr hm _⟩
  | subWrapping =>
    exact ⟨fun x y => .ok (N.wrap (x - y)), fun a b _ _ => ⟨(wrap_ok hb _).1, _, rfl, (wrap_ok hb _).2⟩,
      fun l r hl hr hm => op_ok 0 hl hr hm _⟩
  | mulWrapping =>
    exact ⟨fun x y => .ok (N.wrap (x * y)), fun a b _ _ => ⟨(wrap_ok hb _).1, _, rfl, (wrap_ok hb _).2⟩,
      fun l r hl hr hm => op_ok 0 hl hr hm _⟩
  | add =>
    refine ⟨fun x y => N.check (x + y), fun a b _ _ => ?_, fun l r hl hr hm => tryOp_ok 0 hl hr hm _⟩
    rcases check_ok hb (a + b) with ⟨h, e⟩ | ⟨h, e⟩
    · simp only [e]
      exact ⟨h, _, rfl, rfl, fun q hq => by injection hq with hq; rw [← hq]; exact h⟩
    · simp only [e]
      exact ⟨rfl, .inr ⟨rfl, _, rfl, h⟩⟩
  | sub =>
    refine ⟨fun x y => N.check (x - y), fun a b _ _ => ?_, fun l r hl hr hm => tryOp_ok 0 hl hr hm _⟩
    rcases check_ok hb (a - b) with ⟨h, e⟩ | ⟨h, e⟩
    · simp only [e]
      exact ⟨h, _, rfl, rfl, fun q hq => by injection hq with hq; rw [← hq]; exact h⟩
    · simp only [e]
      exact ⟨rfl, .inr ⟨rfl, _, rfl, h⟩⟩
  | mul =>
    refine ⟨fun x y => N.check (x * y), fun a b _ _ => ?_, fun l r hl hr hm => tryOp_ok 0 hl hr hm _⟩
    rcases check_ok hb (a * b) with ⟨h, e⟩ | ⟨h, e⟩
    · simp only [e]
      exact ⟨h, _, rfl, rfl, fun q hq => by injection hq with hq; rw [← hq]; exact h⟩
    · simp only [e]
      exact ⟨rfl, .inr ⟨rfl, _, rfl, h⟩⟩
  | div =>
    refine ⟨fun x y => N.divChecked x y, fun a b _ _ => ?_, fun l r hl hr hm => tryOp_ok 0 hl hr hm _⟩
    simp only [Native.divChecked]
    by_cases h0 : b = 0
    · rw [if_pos h0]
      exact ⟨rfl, .inl ⟨rfl, by simp [Op.exact, h0]⟩⟩
    · rw [if_neg h0]
      have en : Op.needs .div a b = some (a.tdiv b) := by simp [Op.needs, Op.exact, h0]
      have ee : Op.exact .div a b = some (a.tdiv b) := by simp [Op.exact, h0]
      rcases check_ok hb (a.tdiv b) with ⟨h, e⟩ | ⟨h, e⟩
      · simp only [e]
        exact ⟨h, _, ee, rfl, fun q hq => by rw [en] at hq; injection hq with hq; rw [← hq]; exact h⟩
      · simp only [e]
        exact ⟨rfl, .inr ⟨rfl, _, en, h⟩⟩
  | rem =>
    refine ⟨fun x y => N.modChecked x y, fun a b ha _ => ?_, fun l r hl hr hm => tryOp_ok 0 hl hr hm _⟩
    simp only [Native.modChecked]
    by_cases h0 : b = 0
    · rw [if_pos h0]
      exact ⟨rfl, .inl ⟨rfl, by simp [Op.exact, h0]⟩⟩
    · rw [if_neg h0]
      have en : Op.needs .rem a b = some (a.tdiv b) := by simp [Op.needs, h0]
      have ee : Op.exact .rem a b = some (a.tmod b) := by simp [Op.exact, h0]
      rcases check_ok hb (a.tdiv b) with ⟨h, e⟩ | ⟨h, e⟩
      · simp only [e]
        exact ⟨tmod_holds ha, _, ee, rfl, fun q hq => by rw [en] at hq; injection hq with hq; rw [← hq]; exact h⟩
      · simp only [e]
        exact ⟨rfl, .inr ⟨rfl, _, en, h⟩⟩

/-! ### shifts -/

theorem toNat_emod {w : Nat} (b : BitVec w) : (b.toNat : Int) = b.toInt % 2 ^ w := by
  have e : (2 : Int) ^ w = ((2 ^ w : Nat) : Int) := by rw [Int.natCast_pow]; rfl
  rw [BitVec.toInt_eq_toNat_bmod, e, Int.bmod_emod]
  have := b.isLt
  exact (Int.emod_eq_of_lt (by omega) (by omega)).symm

theorem shift_signed {w : Nat} (hw : w = 8 ∨ w = 16 ∨ w = 32 ∨ w = 64) (b : BitVec w) :
    (shiftAmount true b : Int) = b.toInt % w := by
  unfold shiftAmount
  simp only [if_true]
  have h1 : (b.signExtend 64).toInt = b.toInt := BitVec.toInt_signExtend_of_le (by omega)
  have h2 := toNat_emod (b.signExtend 64)
  rw [h1] at h2
  generalize b.toInt = i at *
  generalize (b.signExtend 64).toNat = n at *
  rcases hw with rfl | rfl | rfl | rfl <;> omega

theorem shift_unsigned {w : Nat} (hw : w = 8 ∨ w = 16 ∨ w = 32 ∨ w = 64) (b : BitVec w) :
    shiftAmount false b = b.toNat % w := by
  unfold shiftAmount
  have hb := b.isLt
  have h1 : (b.zeroExtend 64).toNat = b.toNat := by
    simp only [BitVec.truncate_eq_setWidth, BitVec.toNat_setWidth]
    apply Nat.mod_eq_of_lt
    exact Nat.lt_of_lt_of_le hb (Nat.pow_le_pow_right (by decide) (by omega))
  simp only [Bool.false_eq_true, if_false, h1]
  generalize b.toNat = n at *
  rcases hw with rfl | rfl | rfl | rfl <;> omega

/-! ### dictionaries -/

theorem dict_map {ks : List (Option Nat)} {vs : List (Option A)} (op : A → O) :
    (ks.map fun k => k.bind fun k => ((vs.map (Option.map op))[k]?).join) =
      (ks.map fun k => k.bind fun k => (vs[k]?).join).map (Option.map op) := by
  rw [List.map_map]
  apply List.map_congr_left
  intro k _
  cases k with
  | none => rfl
  | some k =>
    simp only [Option.bind_some, Function.comp_apply, List.getElem?_map]
    cases vs[k]? with
    | none => rfl
    | some v => cases v <;> rfl

theorem getD_view {n : BoolBuf} {len : Nat} (h : n.off + n.len ≤ n.bits.length ∧ n.len = len) {i : Nat} (hi : i < len) :
    ((n.bits.drop n.off).take n.len).getD i false = validAt (some n) i := by
  have hv := view_eq h.1
  unfold BoolBuf.view at hv
  rw [hv]
  simp only [validAt]
  rw [List.getD_eq_getElem?_getD, List.getElem?_map, List.getElem?_range (by omega)]
  rfl

theorem dict_access_slots [Inhabited T] {d : Dict T} (hk : d.keys.Ok) (hv : d.values.Ok)
    (hr : ∀ k, some k ∈ d.keys.slots → k < d.values.slots.length) : d.access.Ok ∧ d.access.slots = d.slots := by
  have ks := slots_index hk 0
  have vs := slots_index hv Inhabited.default
  have kl := slots_length hk
  have vl := slots_length hv
  have value : ∀ k, k < d.values.values.length →
      (d.values.slots[k]?).join = slot (validAt d.values.nulls k) (d.values.values.getD k Inhabited.default) := by
    intro k hlt
    unfold Prim.slots
    rw [vs, List.getElem?_map, List.getElem?_range hlt]
    rfl
  have okl : Fits d.access.values d.access.logical := by
    unfold Dict.access
    cases hn : d.values.nulls with
    | none =>
      simp only
      exact fits_of hk (by simp)
    | some vn =>
      intro n hn
      injection hn with hn
      subst hn
      simp
  refine ⟨⟨fits_of hk (by simp [Dict.access]), okl⟩, ?_⟩
  unfold Access.slots Dict.slots
  rw [slots_index okl Inhabited.default]
  have e : d.keys.slots = _ := ks
  rw [e, List.map_map]
  rw [show d.access.values.length = d.keys.values.length by simp [Dict.access]]
  apply List.map_congr_left
  intro i hi
  have hi : i < d.keys.values.length := List.mem_range.1 hi
  have hmem : slot (validAt d.keys.nulls i) (d.keys.values.getD i 0) ∈ d.keys.slots := by
    rw [e]
    exact List.mem_map.2 ⟨i, List.mem_range.2 hi, rfl⟩
  have hval : d.access.values.getD i Inhabited.default =
      d.values.values.getD (d.keys.values.getD i 0) Inhabited.default := by
    simp [Dict.access, List.getD_eq_getElem?_getD, hi]
  have hlog : validAt d.access.logical i =
      (validAt d.keys.nulls i && (match d.values.nulls with
        | none => true
        | some vn => ((vn.bits.drop vn.off).take vn.len).getD (d.keys.values.getD i 0) false)) := by
    unfold Dict.access
    cases hn : d.values.nulls with
    | none => simp
    | some vn =>
      simp only [validAt, bit]
      rw [List.getD_eq_getElem?_getD, Nat.zero_add, List.getElem?_map, List.getElem?_range hi]
      simp only [Option.map_some, Option.getD_some]
      congr 1
      cases hkn : d.keys.nulls with
      | none => rfl
      | some kn => exact getD_view (hk kn hkn) hi
  rw [hlog, hval]
  simp only [Function.comp_apply]
  cases hb : validAt d.keys.nulls i with
  | false => rfl
  | true =>
    rw [hb] at hmem
    have hlt : d.keys.values.getD i 0 < d.values.values.length := by
      have := hr _ hmem
      have hl : d.values.slots.length = d.values.values.length := vl
      omega
    simp only [slot, if_true, Option.bind_some, Bool.true_and]
    rw [value _ hlt]
    cases hn : d.values.nulls with
    | none => rfl
    | some vn =>
      simp only [getD_view (hv vn hn) hlt]
      rfl

end Arrow
end Verif
