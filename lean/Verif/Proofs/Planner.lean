import Verif.Spec.Graph
/-! Lemmas on the planner: breadth first visits, the plan invariant, completeness. -/
namespace Verif
namespace Planner

variable {g : Graph}

/-! ### Basic facts on graphs -/

theorem nodup_length_le : ∀ (n : Nat) (l : List Nat), l.Nodup → (∀ x ∈ l, x < n) → l.length ≤ n := by
  intro n
  induction n with
  | zero =>
    intro l _ h
    cases l with
    | nil => simp
    | cons a l => exact absurd (h a List.mem_cons_self) (by omega)
  | succ n ih =>
    intro l hn h
    have h1 := ih (l.erase n) (hn.erase n) (by
      intro x hx
      have h2 := h x (List.mem_of_mem_erase hx)
      have h3 : x ≠ n := by
        rintro rfl
        exact (hn.not_mem_erase) hx
      omega)
    have h4 := List.length_erase (a := n) (l := l)
    split at h4 <;> omega

theorem mem_outgoing {v w : Nat} : w ∈ g.outgoing v ↔ ∃ e ∈ g.edges, e.src = v ∧ e.dst = w := by
  simp [Graph.outgoing, and_assoc]

theorem mem_incoming {v w : Nat} : w ∈ g.incoming v ↔ ∃ e ∈ g.edges, e.dst = v ∧ e.src = w := by
  simp [Graph.incoming, and_assoc]

theorem outgoing_lt (hg : g.WF) {v w : Nat} (h : w ∈ g.outgoing v) : w < g.nodes := by
  obtain ⟨e, he, _, rfl⟩ := mem_outgoing.1 h
  exact (hg e he).2

theorem Graph.Reach.lt (hg : g.WF) {v w : Nat} (h : g.Reach v w) (hv : v < g.nodes) : w < g.nodes := by
  cases h with
  | refl => exact hv
  | tail e he _ _ => exact (hg e he).2

theorem Graph.Reach.head {v u w : Nat} (h : u ∈ g.outgoing v) (h2 : g.Reach u w) : g.Reach v w := by
  induction h2 with
  | refl =>
    obtain ⟨e, he, hs, rfl⟩ := mem_outgoing.1 h
    exact .tail e he (.refl v) hs
  | tail e he _ hs ih => exact .tail e he ih hs

theorem Graph.Reach.cases_head {v w : Nat} (h : g.Reach v w) :
    v = w ∨ ∃ u ∈ g.outgoing v, g.Reach u w := by
  induction h with
  | refl => exact .inl rfl
  | tail e he hs h ih =>
    subst h
    rcases ih with rfl | ⟨u, hu, hr⟩
    · exact .inr ⟨e.dst, mem_outgoing.2 ⟨e, he, rfl, rfl⟩, .refl _⟩
    · exact .inr ⟨u, hu, .tail e he hr rfl⟩

/-! ### Breadth first visit -/

theorem discover_spec (ss : List Nat) (b : Bfs) :
    ∃ new, (discover ss b).queue = b.queue ++ new ∧
      (∀ x, x ∈ (discover ss b).discovered ↔ x ∈ b.discovered ∨ x ∈ new) ∧
      new.Nodup ∧ (∀ x ∈ new, x ∉ b.discovered ∧ x ∈ ss) ∧
      (∀ x ∈ ss, x ∈ b.discovered ∨ x ∈ new) := by
  induction ss generalizing b with
  | nil => exact ⟨[], by simp [discover]⟩
  | cons s ss ih =>
    unfold discover
    split
    · next h =>
      obtain ⟨new, h1, h2, h3, h4, h5⟩ := ih b
      refine ⟨new, h1, h2, h3, fun x hx => ⟨(h4 x hx).1, List.mem_cons_of_mem _ (h4 x hx).2⟩, ?_⟩
      intro x hx
      rcases List.mem_cons.1 hx with rfl | hx
      · exact .inl h
      · exact h5 x hx
    · next h =>
      obtain ⟨new, h1, h2, h3, h4, h5⟩ := ih ⟨s :: b.discovered, b.queue ++ [s]⟩
      refine ⟨s :: new, by simpa using h1, ?_, ?_, ?_, ?_⟩
      · intro x; rw [h2]; simp only [List.mem_cons]; constructor
        · rintro ((h | h) | h) <;> simp [h]
        · rintro (h | h | h) <;> simp [h]
      · refine List.nodup_cons.2 ⟨?_, h3⟩
        intro hs
        exact (h4 s hs).1 List.mem_cons_self
      · intro x hx
        rcases List.mem_cons.1 hx with rfl | hx
        · exact ⟨h, List.mem_cons_self⟩
        · have := h4 x hx
          exact ⟨fun hb => this.1 (List.mem_cons_of_mem _ hb), List.mem_cons_of_mem _ this.2⟩
      · intro x hx
        rcases List.mem_cons.1 hx with rfl | hx
        · exact .inr List.mem_cons_self
        · rcases h5 x hx with h | h
          · rcases List.mem_cons.1 h with rfl | h
            · exact .inr List.mem_cons_self
            · exact .inl h
          · exact .inr (List.mem_cons_of_mem _ h)

/-- Invariant of a visit that has yielded `done`. -/
structure BfsInv (g : Graph) (s : Nat) (done : List Nat) (b : Bfs) : Prop where
  disc : ∀ x, x ∈ b.discovered ↔ x ∈ done ∨ x ∈ b.queue
  nodup : (done ++ b.queue).Nodup
  lt : ∀ x ∈ done ++ b.queue, x < g.nodes
  closed : ∀ x ∈ done, ∀ y ∈ g.outgoing x, y ∈ b.discovered
  reach : ∀ x ∈ done ++ b.queue, g.Reach s x

theorem bfsRun_spec (hg : g.WF) (s : Nat) : ∀ (k : Nat) (done : List Nat) (b : Bfs),
    BfsInv g s done b → g.nodes ≤ k + done.length →
    (done ++ bfsRun g k b).Nodup ∧ (∀ x ∈ b.queue, x ∈ bfsRun g k b) ∧
    (∀ x ∈ done ++ bfsRun g k b, g.Reach s x ∧ ∀ y ∈ g.outgoing x, y ∈ done ++ bfsRun g k b) := by
  intro k
  induction k with
  | zero =>
    intro done b inv hk
    have hq : b.queue = [] := by
      have := nodup_length_le g.nodes _ inv.nodup inv.lt
      simp only [List.length_append] at this
      exact List.length_eq_zero_iff.1 (by omega)
    have hn := inv.nodup
    rw [hq, List.append_nil] at hn
    refine ⟨by simpa [bfsRun] using hn, by simp [hq], ?_⟩
    intro x hx
    simp only [bfsRun, List.append_nil] at hx ⊢
    refine ⟨inv.reach x (by simp [hx]), fun y hy => ?_⟩
    have := (inv.disc y).1 (inv.closed x hx y hy)
    simpa [hq] using this
  | succ k ih =>
    intro done b inv hk
    unfold bfsRun Bfs.next
    cases hq : b.queue with
    | nil =>
      have hn := inv.nodup
      rw [hq, List.append_nil] at hn
      refine ⟨by simpa using hn, by simp, ?_⟩
      intro x hx
      simp only [List.append_nil] at hx ⊢
      refine ⟨inv.reach x (by simp [hx]), fun y hy => ?_⟩
      have := (inv.disc y).1 (inv.closed x hx y hy)
      simpa [hq] using this
    | cons v q =>
      simp only
      obtain ⟨new, h1, h2, h3, h4, h5⟩ := discover_spec (g.outgoing v) ⟨b.discovered, q⟩
      simp only at h1 h2 h4 h5
      have hnd := inv.nodup
      rw [hq] at hnd
      have hv : v ∈ done ++ b.queue := by simp [hq]
      have inv' : BfsInv g s (done ++ [v]) (discover (g.outgoing v) ⟨b.discovered, q⟩) := by
        refine ⟨?_, ?_, ?_, ?_, ?_⟩
        · intro x
          rw [h2, h1, inv.disc, hq]
          simp only [List.mem_append, List.mem_cons, List.not_mem_nil, or_false]
          constructor
          · rintro ((h | h | h) | h) <;> simp [h]
          · rintro ((h | h) | (h | h)) <;> simp [h]
        · rw [h1]
          have e : done ++ [v] ++ (q ++ new) = (done ++ v :: q) ++ new := by simp
          rw [e, List.nodup_append]
          refine ⟨hnd, h3, ?_⟩
          intro a ha c hc hac
          subst hac
          have := (h4 a hc).1
          rw [inv.disc, hq] at this
          exact this (by simpa using ha)
        · rw [h1]
          intro x hx
          simp only [List.mem_append, List.mem_cons, List.not_mem_nil, or_false] at hx
          rcases hx with (hx | rfl) | hx | hx
          · exact inv.lt x (by simp [hx])
          · exact inv.lt x hv
          · exact inv.lt x (by simp [hq, hx])
          · exact outgoing_lt hg (h4 x hx).2
        · intro x hx y hy
          rw [h2]
          simp only [List.mem_append, List.mem_cons, List.not_mem_nil, or_false] at hx
          rcases hx with hx | rfl
          · exact .inl (inv.closed x hx y hy)
          · exact h5 y hy
        · rw [h1]
          intro x hx
          simp only [List.mem_append, List.mem_cons, List.not_mem_nil, or_false] at hx
          rcases hx with (hx | rfl) | hx | hx
          · exact inv.reach x (by simp [hx])
          · exact inv.reach x hv
          · exact inv.reach x (by simp [hq, hx])
          · obtain ⟨e, he, hs, rfl⟩ := mem_outgoing.1 (h4 x hx).2
            exact .tail e he (inv.reach v hv) hs
      obtain ⟨r1, r2, r3⟩ := ih (done ++ [v]) _ inv' (by simp; omega)
      simp only [List.append_assoc, List.singleton_append] at r1 r3
      refine ⟨r1, ?_, r3⟩
      intro x hx
      rcases List.mem_cons.1 hx with rfl | hx
      · exact List.mem_cons_self
      · exact List.mem_cons_of_mem _ (r2 x (by rw [h1]; simp [hx]))

theorem bfsOrder_spec (hg : g.WF) {s : Nat} (hs : s < g.nodes) :
    (bfsOrder g s).Nodup ∧ ∀ x, x ∈ bfsOrder g s ↔ g.Reach s x := by
  have inv : BfsInv g s [] ⟨[s], [s]⟩ := by
    refine ⟨by simp, by simp, by simpa using hs, by simp, ?_⟩
    intro x hx
    simp at hx; subst hx; exact .refl _
  obtain ⟨r1, r2, r3⟩ := bfsRun_spec hg s g.nodes [] _ inv (by simp)
  refine ⟨by simpa [bfsOrder] using r1, fun x => ⟨fun hx => (r3 x (by simpa [bfsOrder] using hx)).1, ?_⟩⟩
  intro h
  induction h with
  | refl => exact r2 s (by simp)
  | tail e he _ h ih =>
    subst h
    have := (r3 _ (by simpa [bfsOrder] using ih)).2 e.dst (mem_outgoing.2 ⟨e, he, rfl, rfl⟩)
    simpa [bfsOrder] using this

/-- The visit starts with its starting point. -/
theorem bfsOrder_head {s : Nat} (hs : s < g.nodes) : ∃ l, bfsOrder g s = s :: l := by
  unfold bfsOrder
  obtain ⟨k, hk⟩ : ∃ k, g.nodes = k + 1 := ⟨g.nodes - 1, by omega⟩
  rw [hk]
  exact ⟨_, rfl⟩

end Planner
end Verif
