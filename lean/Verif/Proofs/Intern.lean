import Verif.Model.Intern
/-! Invariants of the string store under any schedule of compiler processes. -/
namespace Verif
namespace Intern

/-- The indices `n, ..., 1`. -/
def down : Nat → List Nat
  | 0 => []
  | n + 1 => (n + 1) :: down n

theorem mem_down {n i : Nat} : i ∈ down n ↔ 1 ≤ i ∧ i ≤ n := by
  induction n with
  | zero => simp [down]; omega
  | succ n ih => simp only [down, List.mem_cons, ih]; omega

theorem down_nodup (n : Nat) : (down n).Nodup := by
  induction n with
  | zero => simp [down]
  | succ n ih =>
    simp only [down, List.nodup_cons, mem_down]
    exact ⟨by omega, ih⟩

structure Good (st : Store) : Prop where
  small : st.counter < 4294967296
  keys : st.toString.map Prod.fst = down st.counter
  back : ∀ s i, (s, i) ∈ st.toIndex → (i, s) ∈ st.toString

theorem good_empty : Good .empty := ⟨by decide, rfl, by simp [Store.empty]⟩

theorem lookup_mem {l : List (String × Nat)} {s : String} {i : Nat} (h : lookupIndex l s = some i) :
    (s, i) ∈ l := by
  induction l with
  | nil => simp [lookupIndex] at h
  | cons p l ih =>
    obtain ⟨t, j⟩ := p
    simp only [lookupIndex] at h
    split at h
    · rename_i ht
      subst ht
      simp only [Option.some.injEq] at h
      simp [h]
    · simp [ih h]

theorem Good.bound {st : Store} (h : Good st) {i : Nat} {s : String} (hm : (i, s) ∈ st.toString) :
    1 ≤ i ∧ i ≤ st.counter := by
  have : i ∈ st.toString.map Prod.fst := List.mem_map.2 ⟨_, hm, rfl⟩
  rw [h.keys, mem_down] at this
  exact this

theorem Good.nodup {st : Store} (h : Good st) : (st.toString.map Prod.fst).Nodup := by
  rw [h.keys]; exact down_nodup _

theorem fst_inj {l : List (Nat × String)} (h : (l.map Prod.fst).Nodup) {i : Nat} {s t : String}
    (hs : (i, s) ∈ l) (ht : (i, t) ∈ l) : s = t := by
  induction l with
  | nil => simp at hs
  | cons p l ih =>
    simp only [List.map_cons, List.nodup_cons] at h
    rcases List.mem_cons.1 hs with h1 | h1 <;> rcases List.mem_cons.1 ht with h2 | h2
    · rw [← h1] at h2; exact (Prod.mk.inj h2).2.symm
    · exact absurd (List.mem_map.2 ⟨_, h2, by rw [← h1]⟩) h.1
    · exact absurd (List.mem_map.2 ⟨_, h1, by rw [← h2]⟩) h.1
    · exact ih h.2 h1 h2

theorem good_insert {st st' : Store} {s : String} {i : Nat} (h : Good st)
    (hi : st.insert s = .ok (st', i)) :
    Good st' ∧ (i, s) ∈ st'.toString ∧ (∀ e ∈ st.toString, e ∈ st'.toString) ∧
      st'.toIndex = (s, i) :: st.toIndex ∧ i = st.counter + 1 := by
  unfold Store.insert at hi
  have hs := h.small
  simp only [Nat.mod_eq_of_lt hs] at hi
  split at hi
  · exact absurd hi (by simp)
  · split at hi
    · exact absurd hi (by simp)
    · simp only [Rs.ok.injEq, Prod.mk.injEq] at hi
      obtain ⟨rfl, rfl⟩ := hi
      refine ⟨⟨by simp; omega, ?_, ?_⟩, by simp, by simp +contextual, rfl, rfl⟩
      · simp [h.keys, down]
      · intro t j hm
        simp only [List.mem_cons, Prod.mk.injEq] at hm ⊢
        rcases hm with ⟨rfl, rfl⟩ | hm
        · simp
        · exact .inr (h.back t j hm)

theorem good_lookup {st : Store} {s : String} {i : Nat} (h : Good st)
    (hl : lookupIndex st.toIndex s = some i) : i % 4294967296 = i ∧ (i, s) ∈ st.toString := by
  have h1 := h.back _ _ (lookup_mem hl)
  have h2 := h.bound h1
  have := h.small
  exact ⟨Nat.mod_eq_of_lt (by omega), h1⟩

theorem step_good {w : World} (h : Good w.store) (a : Step) :
    Good (w.step a).1.store ∧ (∀ e ∈ w.store.toString, e ∈ (w.step a).1.store.toString) ∧
      ∀ s i, (w.step a).2 = some (s, i) → (i, s) ∈ (w.step a).1.store.toString := by
  cases a with
  | lookup p s =>
    simp only [World.step]
    split
    · split
      · rename_i i hl
        refine ⟨h, fun _ h => h, ?_⟩
        intro t j he
        simp only [Option.some.injEq, Prod.mk.injEq] at he
        obtain ⟨rfl, rfl⟩ := he
        obtain ⟨h1, h2⟩ := good_lookup h hl
        rw [h1]; exact h2
      · exact ⟨h, fun _ h => h, by simp⟩
    · exact ⟨h, fun _ h => h, by simp⟩
  | write p =>
    simp only [World.step]
    split
    · split
      · exact ⟨h, fun _ h => h, by simp⟩
      · rename_i s _ st i hi
        obtain ⟨h1, h2, h3, _⟩ := good_insert h hi
        refine ⟨h1, h3, ?_⟩
        intro t j he
        simp only [Option.some.injEq, Prod.mk.injEq] at he
        obtain ⟨rfl, rfl⟩ := he
        exact h2
    · exact ⟨h, fun _ h => h, by simp⟩

theorem run_good {w : World} (h : Good w.store) (as : List Step) :
    Good (w.run as).1.store ∧ (∀ e ∈ w.store.toString, e ∈ (w.run as).1.store.toString) ∧
      ∀ s i, (s, i) ∈ (w.run as).2 → (i, s) ∈ (w.run as).1.store.toString := by
  induction as generalizing w with
  | nil => exact ⟨h, fun _ h => h, by simp [World.run]⟩
  | cons a as ih =>
    obtain ⟨h1, h2, h3⟩ := step_good h a
    obtain ⟨h4, h5, h6⟩ := ih h1
    refine ⟨h4, fun e he => h5 e (h2 e he), ?_⟩
    intro s i hm
    simp only [World.run, List.mem_append, Option.mem_toList] at hm
    rcases hm with hm | hm
    · exact h5 _ (h3 s i hm)
    · exact h6 s i hm

/-! ### Without races -/

/-- No compiler looks up a string another one is about to write. -/
def NoRace : World → List Step → Prop
  | _, [] => True
  | w, a :: as =>
    (∀ p s, a = .lookup p s → some s ∉ w.waiting) ∧ NoRace (w.step a).1 as

structure Quiet (w : World) : Prop where
  good : Good w.store
  /-- What is waiting is not in the store, and waits once. -/
  absent : ∀ (p : Nat) (s : String), w.waiting[p]? = some (some s) →
    lookupIndex w.store.toIndex s = none
  once : ∀ (p q : Nat) (s : String), w.waiting[p]? = some (some s) →
    w.waiting[q]? = some (some s) → p = q

theorem set_some {l : List (Option String)} {p q : Nat} {x : Option String} {s : String}
    (h : (l.set p x)[q]? = some (some s)) : (q = p ∧ x = some s) ∨ (q ≠ p ∧ l[q]? = some (some s)) := by
  rw [List.getElem?_set] at h
  split at h
  · rename_i hpq
    subst hpq
    split at h
    · left; exact ⟨rfl, by simpa using h⟩
    · exact absurd h (by simp)
  · rename_i hpq
    right; exact ⟨fun h' => hpq h'.symm, h⟩

theorem step_quiet {w : World} (h : Quiet w) {a : Step}
    (hr : ∀ p s, a = .lookup p s → some s ∉ w.waiting) :
    Quiet (w.step a).1 ∧
      (∀ s i, lookupIndex w.store.toIndex s = some i →
        lookupIndex (w.step a).1.store.toIndex s = some i) ∧
      (∀ s i, (w.step a).2 = some (s, i) → lookupIndex (w.step a).1.store.toIndex s = some i) := by
  have hg := (step_good h.good a).1
  cases a with
  | lookup p s =>
    have hns := hr p s rfl
    simp only [World.step] at hg ⊢
    split
    · split
      · rename_i i hl
        refine ⟨h, fun _ _ h => h, ?_⟩
        intro t j he
        simp only [Option.some.injEq, Prod.mk.injEq] at he
        obtain ⟨rfl, rfl⟩ := he
        rw [(good_lookup h.good hl).1]; exact hl
      · rename_i hl
        refine ⟨⟨h.good, ?_, ?_⟩, fun _ _ h => h, by simp⟩
        · intro q t hq
          rcases set_some hq with ⟨_, e⟩ | ⟨_, e⟩
          · simp only [Option.some.injEq] at e; subst e; exact hl
          · exact h.absent q t e
        · intro q1 q2 t h1 h2
          rcases set_some h1 with ⟨e1, e1'⟩ | ⟨e1, e1'⟩ <;>
            rcases set_some h2 with ⟨e2, e2'⟩ | ⟨e2, e2'⟩
          · rw [e1, e2]
          · simp only [Option.some.injEq] at e1'; subst e1'
            exact absurd (List.mem_of_getElem? e2') hns
          · simp only [Option.some.injEq] at e2'; subst e2'
            exact absurd (List.mem_of_getElem? e1') hns
          · exact h.once _ _ _ e1' e2'
    · exact ⟨h, fun _ _ h => h, by simp⟩
  | write p =>
    simp only [World.step] at hg ⊢
    split
    · rename_i s hw
      split
      · refine ⟨⟨h.good, ?_, ?_⟩, fun _ _ h => h, by simp⟩
        · intro q t hq
          rcases set_some hq with ⟨_, e⟩ | ⟨_, e⟩
          · exact absurd e (by simp)
          · exact h.absent q t e
        · intro q1 q2 t h1 h2
          rcases set_some h1 with ⟨_, e1⟩ | ⟨_, e1⟩
          · exact absurd e1 (by simp)
          rcases set_some h2 with ⟨_, e2⟩ | ⟨_, e2⟩
          · exact absurd e2 (by simp)
          exact h.once _ _ _ e1 e2
      · rename_i st i hi
        obtain ⟨h1, h2, h3, h4, _⟩ := good_insert h.good hi
        refine ⟨⟨h1, ?_, ?_⟩, ?_, ?_⟩
        · intro q t hq
          rcases set_some hq with ⟨_, e⟩ | ⟨hqp, e⟩
          · exact absurd e (by simp)
          · have : s ≠ t := by
              rintro rfl
              exact hqp (h.once _ _ _ e hw)
            show lookupIndex st.toIndex t = none
            rw [h4]
            simp only [lookupIndex, if_neg this]
            exact h.absent q t e
        · intro q1 q2 t h1 h2
          rcases set_some h1 with ⟨_, e1⟩ | ⟨_, e1⟩
          · exact absurd e1 (by simp)
          rcases set_some h2 with ⟨_, e2⟩ | ⟨_, e2⟩
          · exact absurd e2 (by simp)
          exact h.once _ _ _ e1 e2
        · intro t j ht
          have : s ≠ t := by
            rintro rfl
            rw [h.absent p _ hw] at ht
            exact absurd ht (by simp)
          show lookupIndex st.toIndex t = _
          rw [h4]
          simp only [lookupIndex, if_neg this]
          exact ht
        · intro t j he
          simp only [Option.some.injEq, Prod.mk.injEq] at he
          obtain ⟨rfl, rfl⟩ := he
          show lookupIndex st.toIndex s = _
          rw [h4]; simp [lookupIndex]
    · exact ⟨h, fun _ _ h => h, by simp⟩

theorem run_quiet {w : World} (h : Quiet w) {as : List Step} (hr : NoRace w as) :
    (∀ s i, lookupIndex w.store.toIndex s = some i →
        lookupIndex (w.run as).1.store.toIndex s = some i) ∧
      (∀ s i, (s, i) ∈ (w.run as).2 → lookupIndex (w.run as).1.store.toIndex s = some i) := by
  induction as generalizing w with
  | nil => exact ⟨fun _ _ h => h, by simp [World.run]⟩
  | cons a as ih =>
    obtain ⟨h1, h2, h3⟩ := step_quiet h hr.1
    obtain ⟨h4, h5⟩ := ih h1 hr.2
    refine ⟨fun s i hs => h4 s i (h2 s i hs), ?_⟩
    intro s i hm
    simp only [World.run, List.mem_append, Option.mem_toList] at hm
    rcases hm with hm | hm
    · exact h4 s i (h3 s i hm)
    · exact h5 s i hm

/-! ### Reading the table back -/

theorem putAt_self (l : List String) (n : Nat) (s : String) : (putAt l n s)[n]? = some s := by
  unfold putAt
  rw [List.getElem?_set_self]
  split
  · simp only [List.length_append, List.length_replicate]; omega
  · omega

theorem putAt_ne {l : List String} {n m : Nat} {s t : String} (h : m ≠ n) (hm : l[m]? = some t) :
    (putAt l n s)[m]? = some t := by
  unfold putAt
  rw [List.getElem?_set_ne (Ne.symm h)]
  split
  · rw [List.getElem?_append_left (List.getElem?_eq_some_iff.1 hm).1]; exact hm
  · exact hm

theorem readTable_keep {l : List (Nat × String)} {acc : List String} {i : Nat} {s : String}
    (hn : i ∉ l.map Prod.fst) (h : acc[i]? = some s) :
    (l.foldl (fun l e => putAt l e.1 e.2) acc)[i]? = some s := by
  induction l generalizing acc with
  | nil => exact h
  | cons e l ih =>
    simp only [List.map_cons, List.mem_cons, not_or] at hn
    exact ih hn.2 (putAt_ne hn.1 h)

theorem readTable_get {l : List (Nat × String)} {acc : List String} {i : Nat} {s : String}
    (hn : (l.map Prod.fst).Nodup) (h : (i, s) ∈ l) :
    (l.foldl (fun l e => putAt l e.1 e.2) acc)[i]? = some s := by
  induction l generalizing acc with
  | nil => simp at h
  | cons e l ih =>
    simp only [List.map_cons, List.nodup_cons] at hn
    rcases List.mem_cons.1 h with h1 | h1
    · subst h1
      rw [List.foldl_cons]
      exact readTable_keep hn.1 (putAt_self _ _ _)
    · exact ih hn.2 h1

end Intern
end Verif
