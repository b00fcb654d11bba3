import Verif.Proofs.PlannerPlan
/-! Index level facts on plans: slots, inputs and their order. -/
namespace Verif
namespace Planner

variable {g : Graph}

theorem PlanOk.get {plan : List Step} (h : PlanOk g plan) {k : Nat} {s : Step}
    (hk : plan[k]? = some s) :
    PlanOk g (plan.take k) ∧ Enabled g (plan.take k) s.nodeId ∧ s.nodeId < g.nodes ∧
    s.taskType = taskType g s.nodeId ∧ s.output = some (k, outType g s.nodeId) ∧
    s.inputs = sortByKey (keyedInputs g (plan.take k) s.nodeId) := by
  induction h with
  | nil => simp at hk
  | snoc plan v h hv hn he hi ih =>
    by_cases hlt : k < plan.length
    · rw [List.getElem?_append_left hlt] at hk
      have := ih hk
      rwa [List.take_append_of_le_length (by omega)]
    · rw [List.getElem?_append_right (by omega)] at hk
      have hk0 : k - plan.length = 0 := by
        cases hd : k - plan.length with
        | zero => rfl
        | succ n => rw [hd] at hk; simp at hk
      have hkk : k = plan.length := by omega
      subst hkk
      simp at hk
      subst hk
      rw [List.take_left' rfl]
      exact ⟨h, he, hv, rfl, rfl, rfl⟩

theorem ids_take (plan : List Step) (k : Nat) : ids (plan.take k) = (ids plan).take k := by
  simp [ids, List.map_take]

theorem idxOf_take {plan : List Step} {k p : Nat} (h : p ∈ ids (plan.take k)) :
    (ids (plan.take k)).idxOf p = (ids plan).idxOf p := by
  have e : ids plan = ids (plan.take k) ++ ids (plan.drop k) := by
    rw [← ids_append, List.take_append_drop]
  rw [e, List.idxOf_append, if_pos h]

theorem insertByKey_perm {α : Type} (x : Nat × α) (l : List (Nat × α)) :
    (insertByKey x l).Perm (x :: l) := by
  induction l with
  | nil => exact .refl _
  | cons y l ih =>
    unfold insertByKey
    split
    · exact .refl _
    · exact (ih.cons y).trans (List.Perm.swap x y l)

theorem insertByKey_sorted {α : Type} (x : Nat × α) (l : List (Nat × α))
    (h : l.Pairwise (fun a b => a.1 ≤ b.1)) : (insertByKey x l).Pairwise (fun a b => a.1 ≤ b.1) := by
  induction l with
  | nil => simp [insertByKey]
  | cons y l ih =>
    rw [List.pairwise_cons] at h
    unfold insertByKey
    split
    · next hxy =>
      refine List.pairwise_cons.2 ⟨?_, List.pairwise_cons.2 h⟩
      intro b hb
      rcases List.mem_cons.1 hb with rfl | hb
      · exact hxy
      · exact Nat.le_trans hxy (h.1 b hb)
    · next hxy =>
      refine List.pairwise_cons.2 ⟨?_, ih h.2⟩
      intro b hb
      rcases List.mem_cons.1 ((insertByKey_perm x l).mem_iff.1 hb) with rfl | hb
      · omega
      · exact h.1 b hb

theorem isort_perm {α : Type} (l : List (Nat × α)) : (l.foldr insertByKey []).Perm l := by
  induction l with
  | nil => exact .refl _
  | cons a l ih => exact (insertByKey_perm a _).trans (ih.cons a)

theorem isort_sorted {α : Type} (l : List (Nat × α)) :
    (l.foldr insertByKey []).Pairwise (fun a b => a.1 ≤ b.1) := by
  induction l with
  | nil => simp
  | cons a l ih => exact insertByKey_sorted a _ ih

theorem sortByKey_perm {α : Type} (l : List (Nat × α)) : (sortByKey l).Perm (l.map Prod.snd) :=
  (isort_perm l).map _

/-- Sorting a list given in strictly decreasing key order reverses it. -/
theorem sortByKey_desc {α : Type} (l : List (Nat × α)) (h : l.Pairwise (fun a b => b.1 < a.1)) :
    sortByKey l = (l.map Prod.snd).reverse := by
  unfold sortByKey
  rw [← List.map_reverse]
  congr 1
  have hrev : l.reverse.Pairwise (fun a b => a.1 ≤ b.1) := by
    rw [List.pairwise_reverse]
    exact h.imp (fun hab => by omega)
  refine List.Perm.eq_of_pairwise (le := fun a b : Nat × α => a.1 ≤ b.1) ?_
    (isort_sorted l) hrev ((isort_perm l).trans (List.reverse_perm l).symm)
  intro a b ha hb hab hba
  have ha' : a ∈ l := (isort_perm l).mem_iff.1 ha
  have hb' : b ∈ l := List.mem_reverse.1 hb
  have hkey : a.1 = b.1 := Nat.le_antisymm hab hba
  -- keys are distinct
  clear hrev ha hb hab hba
  induction l with
  | nil => cases ha'
  | cons c l ih =>
    rw [List.pairwise_cons] at h
    rcases List.mem_cons.1 ha' with ha1 | ha1
    · rcases List.mem_cons.1 hb' with hb1 | hb1
      · rw [ha1, hb1]
      · have := h.1 b hb1; rw [← ha1] at this; omega
    · rcases List.mem_cons.1 hb' with hb1 | hb1
      · have := h.1 a ha1; rw [← hb1] at this; omega
      · exact ih h.2 ha1 hb1

/-- The incoming connections of `v` with their indices, in declaration order. -/
def inEdges (g : Graph) (v : Nat) : List (Edge × Nat) := g.edges.zipIdx.filter (fun x => x.1.dst == v)

theorem map_fst_zipIdx_filter {α : Type} (P : α → Bool) (l : List α) (n : Nat) :
    ((l.zipIdx n).filter (fun x => P x.1)).map Prod.fst = l.filter P := by
  induction l generalizing n with
  | nil => rfl
  | cons a l ih =>
    simp only [List.zipIdx_cons, List.filter_cons]
    split
    · simp [ih]
    · exact ih _

theorem inEdges_map_fst (v : Nat) : (inEdges g v).map Prod.fst = g.edges.filter (fun e => e.dst == v) :=
  map_fst_zipIdx_filter (fun e : Edge => e.dst == v) g.edges 0

theorem zipIdx_pairwise {α : Type} (l : List α) (n : Nat) :
    (l.zipIdx n).Pairwise (fun a b => a.2 < b.2) := by
  induction l generalizing n with
  | nil => simp
  | cons a l ih =>
    rw [List.zipIdx_cons, List.pairwise_cons]
    refine ⟨?_, ih _⟩
    rintro ⟨b, i⟩ hb
    have := List.le_snd_of_mem_zipIdx hb
    simp only at this ⊢
    omega

theorem edgesConnecting_unique (hp : g.NoParallel) {e : Edge} {i : Nat} (h : g.edges[i]? = some e) :
    lastEdge g e.src e.dst = i := by
  unfold lastEdge
  have hmem : i ∈ g.edgesConnecting e.src e.dst := mem_edgeIdxs.2 ⟨e, h, by simp⟩
  have hall : ∀ j ∈ g.edgesConnecting e.src e.dst, j = i := by
    intro j hj
    obtain ⟨e', h1, h2⟩ := mem_edgeIdxs.1 hj
    simp only [Bool.and_eq_true, beq_iff_eq] at h2
    unfold Graph.NoParallel at hp
    rw [List.pairwise_iff_getElem] at hp
    obtain ⟨hi, hi'⟩ := List.getElem?_eq_some_iff.1 h
    obtain ⟨hj1, hj'⟩ := List.getElem?_eq_some_iff.1 h1
    rcases Nat.lt_trichotomy i j with hlt | heq | hlt
    · have := hp i j hi hj1 hlt
      rw [hi', hj'] at this
      exact absurd ⟨h2.1.symm, h2.2.symm⟩ this
    · exact heq.symm
    · have := hp j i hj1 hi hlt
      rw [hi', hj'] at this
      exact absurd h2 this
  cases hc : g.edgesConnecting e.src e.dst with
  | nil => rw [hc] at hmem; cases hmem
  | cons a l => exact hall a (by rw [hc]; exact List.mem_cons_self)

theorem incoming_eq (v : Nat) : g.incoming v = (inEdges g v).reverse.map (fun x => x.1.src) := by
  unfold Graph.incoming
  rw [← inEdges_map_fst, ← List.map_reverse, List.map_map]
  rfl

theorem keyedInputs_eq (hp : g.NoParallel) (plan : List Step) (v : Nat) :
    keyedInputs g plan v =
      (inEdges g v).reverse.map (fun x => (x.2, ((ids plan).idxOf x.1.src, outType g x.1.src))) := by
  unfold keyedInputs
  rw [incoming_eq, List.map_map]
  apply List.map_congr_left
  rintro ⟨e, i⟩ hx
  have hx' := List.mem_filter.1 (List.mem_reverse.1 hx)
  have h1 := List.mem_zipIdx_iff_getElem?.1 hx'.1
  have h2 : e.dst = v := by simpa using hx'.2
  subst h2
  simp only [Function.comp_apply]
  rw [edgesConnecting_unique hp h1]

theorem sorted_inputs_eq (hp : g.NoParallel) (plan : List Step) (v : Nat) :
    sortByKey (keyedInputs g plan v) =
      (g.edges.filter (fun e => e.dst == v)).map (fun e => ((ids plan).idxOf e.src, outType g e.src)) := by
  rw [keyedInputs_eq hp, sortByKey_desc, ← List.map_reverse, ← List.map_reverse, List.reverse_reverse,
    List.map_map, ← inEdges_map_fst, List.map_map]
  · rfl
  · rw [List.pairwise_map, List.pairwise_reverse]
    exact (zipIdx_pairwise g.edges 0).filter _

/-- With consistent types the output type of a producer is the type of its connections. -/
theorem outType_eq (hc : g.ConsistentTypes) {e : Edge} (he : e ∈ g.edges) : outType g e.src = e.msg := by
  have hout : g.outgoing e.src ≠ [] := by
    intro h
    exact outgoing_eq_nil_iff.1 h e he rfl
  have hns : taskType g e.src ≠ .sink := by
    unfold taskType
    split
    · simp
    · rw [if_neg]
      · simp
      · intro h; exact hout (List.length_eq_zero_iff.1 h)
  have hne : g.srcEdges e.src ≠ [] := edgeIdxs_ne_nil ⟨e, he, by simp⟩
  have hsm : srcMsgType g e.src = .ok e.msg := by
    unfold srcMsgType
    cases hcs : g.srcEdges e.src with
    | nil => exact absurd hcs hne
    | cons i l =>
      have : i ∈ g.srcEdges e.src := by rw [hcs]; exact List.mem_cons_self
      obtain ⟨e', h1, h2⟩ := mem_edgeIdxs.1 this
      simp only [h1]
      rw [hc e' (List.mem_of_getElem? h1) e he (by simpa using h2)]
  unfold outType
  cases ht : taskType g e.src with
  | sink => exact absurd ht hns
  | source => simp [hsm]
  | regular => simp [hsm]

theorem runnable_of_acyclic (hg : g.WF) (ha : g.Acyclic) : ∀ v, v < g.nodes → g.Runnable v := by
  obtain ⟨rank, hr⟩ := ha
  have key : ∀ n v, rank v < n → v < g.nodes → g.Runnable v := by
    intro n
    induction n with
    | zero => intro v h; omega
    | succ n ih =>
      intro v hv hvn
      refine .intro v hvn (fun e he hd => ih e.src ?_ (hg e he).1)
      have := hr e he
      rw [hd] at this; omega
  intro v hv
  exact key (rank v + 1) v (by omega) hv

end Planner
end Verif
