import Verif.Proofs.Planner
/-! The invariant of plans under construction, and what each loop of the planner does to it. -/
namespace Verif
namespace Planner

variable {g : Graph}

/-- The tasks of a plan, in order. -/
def ids (plan : List Step) : List Nat := plan.map Step.nodeId

/-- All the tasks `v` receives messages from are in `plan`. -/
def Enabled (g : Graph) (plan : List Step) (v : Nat) : Prop := ∀ p ∈ g.incoming v, p ∈ ids plan

instance (plan : List Step) (v : Nat) : Decidable (Enabled g plan v) := by
  unfold Enabled; infer_instance

/-- The output type the planner gives to `v`. -/
def outType (g : Graph) (v : Nat) : String :=
  match taskType g v with
  | .sink => "()"
  | _ => match srcMsgType g v with
    | .ok s => s
    | .panic => ""

/-- The most recent connection from `p` to `v`. -/
def lastEdge (g : Graph) (p v : Nat) : Nat := (g.edgesConnecting p v).headD 0

/-- The inputs of `v` before sorting, with their sort keys. -/
def keyedInputs (g : Graph) (plan : List Step) (v : Nat) : List (Nat × (Nat × String)) :=
  (g.incoming v).map (fun p => (lastEdge g p v, ((ids plan).idxOf p, outType g p)))

inductive PlanOk (g : Graph) : List Step → Prop
  | nil : PlanOk g []
  | snoc (plan : List Step) (v : Nat) (h : PlanOk g plan) (hv : v < g.nodes) (hn : v ∉ ids plan)
      (he : Enabled g plan v) (hi : ¬ g.Isolated v) :
      PlanOk g (plan ++ [⟨v, taskType g v, sortByKey (keyedInputs g plan v),
        some (plan.length, outType g v)⟩])

theorem ids_append (a b : List Step) : ids (a ++ b) = ids a ++ ids b := by simp [ids]

theorem PlanOk.nodup {plan : List Step} (h : PlanOk g plan) : (ids plan).Nodup := by
  induction h with
  | nil => simp [ids]
  | snoc plan v h hv hn he hi ih =>
    rw [ids_append, List.nodup_append]
    refine ⟨ih, by simp [ids], ?_⟩
    intro a ha b hb hab
    simp [ids] at hb
    subst hab; subst hb
    exact hn ha

theorem PlanOk.lt {plan : List Step} (h : PlanOk g plan) : ∀ v ∈ ids plan, v < g.nodes := by
  induction h with
  | nil => simp [ids]
  | snoc plan v h hv hn he hi ih =>
    rw [ids_append]
    intro w hw
    rcases List.mem_append.1 hw with hw | hw
    · exact ih w hw
    · simp [ids] at hw; omega

theorem PlanOk.not_isolated {plan : List Step} (h : PlanOk g plan) : ∀ v ∈ ids plan, ¬ g.Isolated v := by
  induction h with
  | nil => simp [ids]
  | snoc plan v h hv hn he hi ih =>
    rw [ids_append]
    intro w hw
    rcases List.mem_append.1 hw with hw | hw
    · exact ih w hw
    · simp [ids] at hw; subst hw; exact hi

theorem PlanOk.enabled {plan : List Step} (h : PlanOk g plan) : ∀ v ∈ ids plan, Enabled g plan v := by
  induction h with
  | nil => simp [ids]
  | snoc plan v h hv hn he hi ih =>
    intro w hw p hp
    rw [ids_append] at hw ⊢
    rcases List.mem_append.1 hw with hw | hw
    · exact List.mem_append_left _ (ih w hw p hp)
    · simp [ids] at hw; subst hw; exact List.mem_append_left _ (he p hp)

/-- Plans are closed under producers. -/
theorem PlanOk.ancestor {plan : List Step} (h : PlanOk g plan) {v w : Nat} (hr : g.Reach v w)
    (hw : w ∈ ids plan) : v ∈ ids plan := by
  induction hr with
  | refl => exact hw
  | tail e he _ hs ih =>
    subst hs
    exact ih (h.enabled _ hw e.src (mem_incoming.2 ⟨e, he, rfl, rfl⟩))

theorem find?_none_of_not_mem {plan : List Step} {v : Nat} (h : v ∉ ids plan) :
    plan.find? (fun s => s.nodeId == v) = none := by
  simp only [List.find?_eq_none, beq_iff_eq]
  intro s hs hv
  exact h (List.mem_map.2 ⟨s, hs, hv⟩)

theorem PlanOk.findOutput {plan : List Step} (h : PlanOk g plan) (p : Nat) :
    findOutput p plan = if p ∈ ids plan then some ((ids plan).idxOf p, outType g p) else none := by
  induction h with
  | nil => simp [Planner.findOutput, ids]
  | snoc plan v h hv hn he hi ih =>
    unfold Planner.findOutput at ih ⊢
    rw [List.find?_append, ids_append]
    by_cases hp : p ∈ ids plan
    · rw [if_pos hp] at ih
      cases hf : plan.find? (fun s => s.nodeId == p) with
      | none => rw [hf] at ih; simp at ih
      | some s =>
        rw [hf] at ih
        simp only [Option.some_or] at ih ⊢
        rw [if_pos (List.mem_append_left _ hp), List.idxOf_append, if_pos hp]
        exact ih
    · rw [find?_none_of_not_mem hp]
      by_cases hpv : p = v
      · subst hpv
        rw [List.idxOf_append, if_neg hp]
        simp [ids]
      · have : ¬ v = p := fun h => hpv h.symm
        simp [ids, hpv, this]
        intro s hs hsp
        exact absurd (List.mem_map.2 ⟨s, hs, hsp⟩) hp

theorem gatherInputs_eq {plan : List Step} (h : PlanOk g plan) (ps : List Nat) :
    gatherInputs plan ps =
      if ∀ p ∈ ps, p ∈ ids plan then some (ps.map (fun p => ((ids plan).idxOf p, outType g p)))
      else none := by
  induction ps with
  | nil => simp [gatherInputs]
  | cons p ps ih =>
    unfold gatherInputs
    rw [h.findOutput]
    by_cases hp : p ∈ ids plan
    · simp only [hp, if_true, ih]
      by_cases hps : ∀ p ∈ ps, p ∈ ids plan
      · have : ∀ q ∈ p :: ps, q ∈ ids plan := by
          intro q hq
          rcases List.mem_cons.1 hq with rfl | hq
          · exact hp
          · exact hps q hq
        rw [if_pos hps, if_pos this]; rfl
      · have : ¬ ∀ q ∈ p :: ps, q ∈ ids plan := fun hh => hps (fun q hq => hh q (List.mem_cons_of_mem _ hq))
        rw [if_neg hps, if_neg this]; rfl
    · have : ¬ ∀ q ∈ p :: ps, q ∈ ids plan := fun hh => hp (hh p List.mem_cons_self)
      simp only [hp, if_false, if_neg this]

/-! ### Sorting the inputs -/

theorem edgeIdxs_ne_nil {P : Edge → Bool} (h : ∃ e ∈ g.edges, P e = true) : g.edgeIdxs P ≠ [] := by
  obtain ⟨e, he, hp⟩ := h
  obtain ⟨i, hi, hie⟩ := List.getElem_of_mem he
  intro hn
  have : (i : Nat) ∈ g.edgeIdxs P := by
    unfold Graph.edgeIdxs
    rw [List.mem_reverse, List.mem_map]
    refine ⟨(e, i), List.mem_filter.2 ⟨?_, hp⟩, rfl⟩
    rw [List.mem_zipIdx_iff_getElem?, List.getElem?_eq_getElem hi, hie]
  rw [hn] at this
  simp at this

theorem edgeIdxs_eq_nil {P : Edge → Bool} (h : ∀ e ∈ g.edges, P e = false) : g.edgeIdxs P = [] := by
  unfold Graph.edgeIdxs
  rw [List.filter_eq_nil_iff.2]; rfl
  intro x hx
  have := h x.1 (by
    have := List.mem_zipIdx_iff_getElem?.1 hx
    exact List.mem_of_getElem? this)
  simp [this]

theorem mem_edgeIdxs {P : Edge → Bool} {i : Nat} :
    i ∈ g.edgeIdxs P ↔ ∃ e, g.edges[i]? = some e ∧ P e = true := by
  unfold Graph.edgeIdxs
  rw [List.mem_reverse, List.mem_map]
  constructor
  · rintro ⟨⟨e, j⟩, hx, rfl⟩
    obtain ⟨h1, h2⟩ := List.mem_filter.1 hx
    exact ⟨e, List.mem_zipIdx_iff_getElem?.1 h1, h2⟩
  · rintro ⟨e, h1, h2⟩
    exact ⟨(e, i), List.mem_filter.2 ⟨List.mem_zipIdx_iff_getElem?.2 h1, h2⟩, rfl⟩

theorem PlanOk.getElem_idxOf {plan : List Step} {p : Nat} (hp : p ∈ ids plan) :
    ∃ st, plan[(ids plan).idxOf p]? = some st ∧ st.nodeId = p := by
  have h1 := List.idxOf_lt_length_iff.2 hp
  have h2 : (ids plan).idxOf p < plan.length := by simpa [ids] using h1
  refine ⟨plan[(ids plan).idxOf p], List.getElem?_eq_getElem h2, ?_⟩
  have h3 := List.getElem_idxOf h1
  have h4 : (ids plan)[(ids plan).idxOf p] = plan[(ids plan).idxOf p].nodeId := by
    unfold ids; exact List.getElem_map ..
  rw [← h4]; exact h3

theorem edgeKey_eq {plan : List Step} {p v : Nat} (hp : p ∈ ids plan) (hpv : p ∈ g.incoming v) :
    edgeKey g plan v ((ids plan).idxOf p) = .ok (lastEdge g p v) := by
  obtain ⟨st, h1, h2⟩ := PlanOk.getElem_idxOf hp
  unfold edgeKey lastEdge
  rw [h1]; simp only [h2]
  obtain ⟨e, he, hd, hs⟩ := mem_incoming.1 hpv
  have : g.edgesConnecting p v ≠ [] := edgeIdxs_ne_nil ⟨e, he, by simp [hd, hs]⟩
  cases hc : g.edgesConnecting p v with
  | nil => exact absurd hc this
  | cons i l => rfl

theorem mapRs_ok {α β : Type} (f : α → Rs β) (k : α → β) (l : List α) (h : ∀ a ∈ l, f a = .ok (k a)) :
    mapRs f l = .ok (l.map k) := by
  induction l with
  | nil => rfl
  | cons a l ih =>
    unfold mapRs
    rw [h a List.mem_cons_self, ih (fun b hb => h b (List.mem_cons_of_mem _ hb))]
    rfl

theorem sortByKey_short {α : Type} (l : List (Nat × α)) (h : l.length < 2) :
    sortByKey l = l.map Prod.snd := by
  match l, h with
  | [], _ => rfl
  | [a], _ => rfl

theorem sortInputs_eq {plan : List Step} {v : Nat} (he : Enabled g plan v) :
    sortInputs g plan v ((g.incoming v).map (fun p => ((ids plan).idxOf p, outType g p))) =
      .ok (sortByKey (keyedInputs g plan v)) := by
  unfold sortInputs
  split
  · next h =>
    rw [sortByKey_short _ (by simpa [keyedInputs] using h)]
    simp [keyedInputs, Function.comp_def]
  · have : mapRs (fun i => edgeKey g plan v i.1)
        ((g.incoming v).map (fun p => ((ids plan).idxOf p, outType g p))) =
        .ok ((g.incoming v).map (fun p => lastEdge g p v)) := by
      have key : ∀ l : List Nat, (∀ p ∈ l, p ∈ g.incoming v) →
          mapRs (fun i => edgeKey g plan v i.1)
          (l.map (fun p => ((ids plan).idxOf p, outType g p))) =
          .ok (l.map (fun p => lastEdge g p v)) := by
        intro l
        induction l with
        | nil => intro _; rfl
        | cons p l ih =>
          intro hl
          have hp := hl p List.mem_cons_self
          simp only [List.map_cons]
          unfold mapRs
          rw [edgeKey_eq (he p hp) hp, ih (fun q hq => hl q (List.mem_cons_of_mem _ hq))]
      exact key _ (fun p hp => hp)
    rw [this]
    simp only [Rs.ok.injEq]
    congr 1
    rw [List.zip_map']
    rfl

/-! ### One visit -/

theorem incoming_eq_nil_iff {v : Nat} : g.incoming v = [] ↔ ∀ e ∈ g.edges, e.dst ≠ v := by
  simp [Graph.incoming]

theorem outgoing_eq_nil_iff {v : Nat} : g.outgoing v = [] ↔ ∀ e ∈ g.edges, e.src ≠ v := by
  simp [Graph.outgoing]

theorem srcMsgType_cases (v : Nat) :
    (g.outgoing v = [] ∧ srcMsgType g v = .panic) ∨
    (g.outgoing v ≠ [] ∧ ∃ s, srcMsgType g v = .ok s) := by
  by_cases h : g.outgoing v = []
  · refine .inl ⟨h, ?_⟩
    unfold srcMsgType Graph.srcEdges
    rw [edgeIdxs_eq_nil]
    intro e he
    have := outgoing_eq_nil_iff.1 h e he
    simpa using this
  · refine .inr ⟨h, ?_⟩
    have : ∃ e ∈ g.edges, e.src = v := by
      apply Classical.byContradiction
      intro hn
      exact h (outgoing_eq_nil_iff.2 (fun e he hs => hn ⟨e, he, hs⟩))
    obtain ⟨e, he, hs⟩ := this
    have hne : g.srcEdges v ≠ [] := edgeIdxs_ne_nil ⟨e, he, by simp [hs]⟩
    unfold srcMsgType
    cases hc : g.srcEdges v with
    | nil => exact absurd hc hne
    | cons i l =>
      have : i ∈ g.srcEdges v := by rw [hc]; exact List.mem_cons_self
      obtain ⟨e, h1, _⟩ := mem_edgeIdxs.1 this
      exact ⟨e.msg, by simp only [h1]⟩

theorem insertStep_eq {plan : List Step} {v : Nat} (he : Enabled g plan v) (hn : v ∉ ids plan)
    (tt : TaskType) (out : Nat × String) :
    insertStep g plan v tt ((g.incoming v).map (fun p => ((ids plan).idxOf p, outType g p))) out =
      .ok (plan ++ [⟨v, tt, sortByKey (keyedInputs g plan v), some out⟩]) := by
  unfold insertStep
  rw [sortInputs_eq he]
  simp only
  rw [find?_none_of_not_mem hn]

/-- What visiting a task that is not planned yet does. -/
theorem visit_cases {plan : List Step} (h : PlanOk g plan) {v : Nat} (hv : v < g.nodes)
    (hn : v ∉ ids plan) :
    (g.Isolated v ∧ visit g plan.length plan v = .panic) ∨
    (¬ Enabled g plan v ∧ visit g plan.length plan v = .ok none) ∨
    (Enabled g plan v ∧ ∃ st, visit g plan.length plan v = .ok (some (plan ++ [st])) ∧
      st.nodeId = v ∧ PlanOk g (plan ++ [st])) := by
  by_cases hi : g.Isolated v
  · refine .inl ⟨hi, ?_⟩
    have h1 : g.incoming v = [] := incoming_eq_nil_iff.2 (fun e he => (hi.2 e he).2)
    have h2 : g.outgoing v = [] := outgoing_eq_nil_iff.2 (fun e he => (hi.2 e he).1)
    have h3 : taskType g v = .source := by simp [taskType, h1]
    unfold visit
    rw [h3]
    rcases srcMsgType_cases (g := g) v with ⟨_, h4⟩ | ⟨h4, _⟩
    · simp [h4]
    · exact absurd h2 h4
  · refine .inr ?_
    by_cases he : Enabled g plan v
    · refine .inr ⟨he, ?_⟩
      refine ⟨⟨v, taskType g v, sortByKey (keyedInputs g plan v), some (plan.length, outType g v)⟩,
        ?_, rfl, .snoc plan v h hv hn he hi⟩
      have hgi : gatherInputs plan (g.incoming v) =
          some ((g.incoming v).map (fun p => ((ids plan).idxOf p, outType g p))) := by
        rw [gatherInputs_eq h]; exact if_pos he
      unfold visit
      cases ht : taskType g v with
      | source =>
        have hin : g.incoming v = [] := by
          unfold taskType at ht
          split at ht
          · next hl => exact List.length_eq_zero_iff.1 hl
          · split at ht <;> cases ht
        have hout : g.outgoing v ≠ [] := by
          intro ho
          exact hi ⟨hv, fun e hem => ⟨outgoing_eq_nil_iff.1 ho e hem, incoming_eq_nil_iff.1 hin e hem⟩⟩
        rcases srcMsgType_cases (g := g) v with ⟨h4, _⟩ | ⟨_, s, h4⟩
        · exact absurd h4 hout
        · have := insertStep_eq he hn .source (plan.length, s)
          rw [hin] at this
          simp only [List.map_nil] at this
          have ho : outType g v = s := by simp [outType, ht, h4]
          simp only [h4, this, ho]
      | sink =>
        have ho : outType g v = "()" := by simp [outType, ht]
        simp only [hgi, insertStep_eq he hn, ho]
      | regular =>
        have hout : g.outgoing v ≠ [] := by
          intro ho
          unfold taskType at ht
          simp [ho] at ht
          split at ht <;> cases ht
        rcases srcMsgType_cases (g := g) v with ⟨h4, _⟩ | ⟨_, s, h4⟩
        · exact absurd h4 hout
        · have ho : outType g v = s := by simp [outType, ht, h4]
          simp only [hgi, h4, insertStep_eq he hn, ho]
    · refine .inl ⟨he, ?_⟩
      have hgi : gatherInputs plan (g.incoming v) = none := by
        rw [gatherInputs_eq h]; exact if_neg he
      have hns : taskType g v ≠ .source := by
        intro ht
        apply he
        unfold taskType at ht
        split at ht
        · next hl =>
          intro p hp
          rw [List.length_eq_zero_iff.1 hl] at hp
          cases hp
        · split at ht <;> cases ht
      unfold visit
      cases ht : taskType g v with
      | source => exact absurd ht hns
      | sink => simp only [hgi]
      | regular => simp only [hgi]

/-! ### One branch -/

theorem branch_cases : ∀ (vs : List Nat) (plan : List Step) (handled : Bool), PlanOk g plan →
    vs.Nodup → (∀ v ∈ vs, v < g.nodes ∧ v ∉ ids plan) →
    ((∃ v, g.Isolated v) ∧ branch g vs plan.length plan handled = .panic) ∨
    (∃ added : List Step, branch g vs plan.length plan handled =
        .ok ((plan ++ added).length, handled || !added.isEmpty, plan ++ added) ∧
      PlanOk g (plan ++ added) ∧ (∃ rest, vs = ids added ++ rest) ∧
      (∀ v l, vs = v :: l → Enabled g plan v → v ∈ ids added) ∧
      (∀ v l, vs = v :: l → ¬ Enabled g plan v → added = [])) := by
  intro vs
  induction vs with
  | nil =>
    intro plan handled h _ _
    exact .inr ⟨[], by simp [branch], by simpa using h, ⟨[], by simp [ids]⟩, by simp, by simp⟩
  | cons v vs ih =>
    intro plan handled h hnd hvs
    obtain ⟨hv, hn⟩ := hvs v List.mem_cons_self
    unfold branch
    rcases visit_cases h hv hn with ⟨h1, h2⟩ | ⟨h1, h2⟩ | ⟨h1, st, h2, h3, h4⟩
    · exact .inl ⟨⟨v, h1⟩, by simp [h2]⟩
    · refine .inr ⟨[], by simp [h2], by simpa using h, ⟨v :: vs, by simp [ids]⟩, ?_, by simp⟩
      intro w l hw hen
      cases hw
      exact absurd hen h1
    · have hlen : plan.length + 1 = (plan ++ [st]).length := by simp
      simp only [h2, hlen]
      have hnd' := List.nodup_cons.1 hnd
      have hvs' : ∀ w ∈ vs, w < g.nodes ∧ w ∉ ids (plan ++ [st]) := by
        intro w hw
        have hw' := hvs w (List.mem_cons_of_mem _ hw)
        refine ⟨hw'.1, ?_⟩
        rw [ids_append]
        simp only [List.mem_append, not_or]
        refine ⟨hw'.2, ?_⟩
        simp only [ids, List.map_cons, List.map_nil, List.mem_cons, List.not_mem_nil, or_false, h3]
        rintro rfl
        exact hnd'.1 hw
      rcases ih (plan ++ [st]) true h4 hnd'.2 hvs' with ⟨h5, h6⟩ | ⟨added, h5, h6, ⟨rest, h7⟩, _, _⟩
      · exact .inl ⟨h5, h6⟩
      · refine .inr ⟨st :: added, ?_, by simpa using h6, ⟨rest, ?_⟩, ?_, ?_⟩
        · rw [h5]; simp
        · simp [ids, h3] at h7 ⊢; exact h7
        · intro w l hw _
          cases hw
          simp [ids, h3]
        · intro w l hw hen
          cases hw
          exact absurd h1 hen

/-! ### The two outer loops -/

/-- Connections whose producer is not planned yet. -/
def pending (g : Graph) (plan : List Step) : Nat :=
  (g.edges.filter (fun e => !(ids plan).contains e.src)).length

theorem pending_le {plan plan' : List Step} {v : Nat} (hsub : ∀ x ∈ ids plan, x ∈ ids plan')
    (hv : v ∉ ids plan) (hv' : v ∈ ids plan') :
    pending g plan' + (g.outgoing v).length ≤ pending g plan := by
  unfold pending Graph.outgoing
  rw [List.length_map, List.length_reverse]
  generalize g.edges = es
  induction es with
  | nil => simp
  | cons e es ih =>
    by_cases h1 : e.src = v
    · have a1 : (ids plan').contains e.src = true := by simpa [h1] using hv'
      have a2 : (ids plan).contains e.src = false := by simpa [h1] using hv
      have a3 : (e.src == v) = true := by simpa using h1
      simp only [List.filter_cons, a1, a2, a3]
      simp only [Bool.not_true, Bool.not_false, if_true, List.length_cons, Bool.false_eq_true, if_false]
      omega
    · have a3 : (e.src == v) = false := by simpa using h1
      by_cases h2 : e.src ∈ ids plan
      · have a1 : (ids plan').contains e.src = true := by simpa using hsub _ h2
        have a2 : (ids plan).contains e.src = true := by simpa using h2
        simp only [List.filter_cons, a1, a2, a3]
        simpa using ih
      · have a2 : (ids plan).contains e.src = false := by simpa using h2
        simp only [List.filter_cons, a2, a3]
        cases h4 : (ids plan').contains e.src
        · simp only [Bool.not_false, if_true, List.length_cons, Bool.false_eq_true, if_false]; omega
        · simp only [Bool.not_false, Bool.not_true, if_true, List.length_cons, Bool.false_eq_true, if_false]; omega

/-- The invariant of the two loops: `rest` is what remains to be visited by the current outer
visit. -/
structure LoopInv (g : Graph) (rest : List Nat) (st : State) : Prop where
  ok : PlanOk g st.plan
  next : st.next = st.plan.length
  queue_lt : ∀ u ∈ st.queue, u < g.nodes
  enabled : ∀ v, v < g.nodes → v ∉ ids st.plan → Enabled g st.plan v →
    v ∈ rest ∨ ∃ u ∈ st.queue, g.Reach u v

theorem inner_cases (hg : g.WF) : ∀ (rest : List Nat) (st : State), (∀ v ∈ rest, v < g.nodes) →
    LoopInv g rest st →
    ((∃ v, g.Isolated v) ∧ inner g rest st = .panic) ∨
    (∃ st', inner g rest st = .ok st' ∧ LoopInv g [] st' ∧
      st'.queue.length + pending g st'.plan ≤ st.queue.length + pending g st.plan ∧
      st.plan <+: st'.plan ∧
      (∀ v l, rest = v :: l → st.plan = [] → Enabled g [] v → (ids st'.plan).head? = some v)) := by
  intro rest
  induction rest with
  | nil => intro st _ inv; exact .inr ⟨st, rfl, inv, Nat.le_refl _, List.prefix_rfl, by simp⟩
  | cons v vs ih =>
    intro st hlt inv
    have hlt' : ∀ w ∈ vs, w < g.nodes := fun w hw => hlt w (List.mem_cons_of_mem _ hw)
    have hv := hlt v List.mem_cons_self
    unfold inner
    by_cases hp : v ∈ ids st.plan
    · have : st.plan.any (fun s => s.nodeId == v) = true := by
        obtain ⟨s, hs, he⟩ := List.mem_map.1 hp
        exact List.any_eq_true.2 ⟨s, hs, by simpa using he⟩
      rw [if_pos this]
      have inv' : LoopInv g vs st := by
        refine ⟨inv.ok, inv.next, inv.queue_lt, ?_⟩
        intro w hw hn he
        rcases inv.enabled w hw hn he with h | h
        · rcases List.mem_cons.1 h with rfl | h
          · exact absurd hp hn
          · exact .inl h
        · exact .inr h
      rcases ih st hlt' inv' with h7 | ⟨st', h7, h8, h9, h10, _⟩
      · exact .inl h7
      · refine .inr ⟨st', h7, h8, h9, h10, ?_⟩
        intro _ _ _ hnil _
        rw [hnil] at hp; simp [ids] at hp
    · have hany : ¬ (st.plan.any (fun s => s.nodeId == v) = true) := by
        intro hh
        obtain ⟨s, hs, he⟩ := List.any_eq_true.1 hh
        exact hp (List.mem_map.2 ⟨s, hs, by simpa using he⟩)
      rw [if_neg hany]
      obtain ⟨hnd, hreach⟩ := bfsOrder_spec hg hv
      obtain ⟨l, hl⟩ := bfsOrder_head (g := g) hv
      have hb := branch_cases (g := g) (bfsOrder g v) st.plan false inv.ok hnd (by
        intro w hw
        have hr := (hreach w).1 hw
        exact ⟨hr.lt hg hv, fun hc => hp (inv.ok.ancestor hr hc)⟩)
      rw [inv.next]
      rcases hb with ⟨h1, h2⟩ | ⟨added, h2, h3, ⟨r, h4⟩, h5, h6⟩
      · exact .inl ⟨h1, by rw [h2]⟩
      · rw [h2]
        simp only
        by_cases hen : Enabled g st.plan v
        · have hmem := h5 v l hl hen
          have hne : added ≠ [] := by rintro rfl; simp [ids] at hmem
          have hflag : (false || !added.isEmpty) = true := by
            cases added with
            | nil => exact absurd rfl hne
            | cons a b => rfl
          rw [if_pos hflag]
          have hpend := pending_le (g := g) (plan := st.plan) (plan' := st.plan ++ added) (v := v)
            (by intro x hx; rw [ids_append]; exact List.mem_append_left _ hx) hp
            (by rw [ids_append]; exact List.mem_append_right _ hmem)
          have inv' : LoopInv g vs ⟨st.plan ++ added, (st.plan ++ added).length, st.queue ++ g.outgoing v⟩ := by
            refine ⟨h3, rfl, ?_, ?_⟩
            · intro u hu
              rcases List.mem_append.1 hu with hu | hu
              · exact inv.queue_lt u hu
              · exact outgoing_lt hg hu
            · intro w hw hn he
              simp only [ids_append, List.mem_append, not_or] at hn
              by_cases hold : Enabled g st.plan w
              · rcases inv.enabled w hw hn.1 hold with h | ⟨u, hu, hr⟩
                · rcases List.mem_cons.1 h with rfl | h
                  · exact absurd hmem hn.2
                  · exact .inl h
                · exact .inr ⟨u, List.mem_append_left _ hu, hr⟩
              · -- a producer of `w` was planned by this branch
                have : ∃ p ∈ g.incoming w, p ∉ ids st.plan := by
                  apply Classical.byContradiction
                  intro hno
                  apply hold
                  intro p hpw
                  apply Classical.byContradiction
                  intro hpn
                  exact hno ⟨p, hpw, hpn⟩
                obtain ⟨p, hpw, hpn⟩ := this
                have hpa := he p hpw
                rw [ids_append] at hpa
                rcases List.mem_append.1 hpa with hpa | hpa
                · exact absurd hpa hpn
                · have hrp : g.Reach v p := (hreach p).1 (by rw [h4]; exact List.mem_append_left _ hpa)
                  obtain ⟨e, hem, hd, hs⟩ := mem_incoming.1 hpw
                  have hrw : g.Reach v w := by
                    rw [← hd]; exact .tail e hem hrp hs
                  rcases hrw.cases_head with rfl | ⟨u, hu, hr⟩
                  · exact absurd hmem hn.2
                  · exact .inr ⟨u, List.mem_append_right _ hu, hr⟩
          rcases ih _ hlt' inv' with h7 | ⟨st', h7, h8, h9, h10, _⟩
          · exact .inl h7
          · refine .inr ⟨st', h7, h8, ?_, (List.prefix_append _ _).trans h10, ?_⟩
            · simp only [List.length_append] at h9
              omega
            · intro w l' hw hnil _
              cases hw
              obtain ⟨more, hmore⟩ := h10
              simp only [hnil, List.nil_append] at hmore
              rw [← hmore]
              cases added with
              | nil => exact absurd rfl hne
              | cons a b =>
                rw [hl] at h4
                simp only [ids, List.map_cons, List.cons_append, List.cons.injEq] at h4
                simp [ids, h4.1]
        · have hnil := h6 v l hl hen
          subst hnil
          simp only [List.isEmpty_nil, Bool.not_true, Bool.or_false, List.append_nil] at h2 h3 ⊢
          have inv' : LoopInv g vs ⟨st.plan, st.plan.length, st.queue⟩ := by
            refine ⟨inv.ok, rfl, inv.queue_lt, ?_⟩
            intro w hw hn he
            rcases inv.enabled w hw hn he with h | h
            · rcases List.mem_cons.1 h with rfl | h
              · exact absurd he hen
              · exact .inl h
            · exact .inr h
          rcases ih ⟨st.plan, st.plan.length, st.queue⟩ hlt' inv' with h7 | ⟨st', h7, h8, h9, h10, _⟩
          · exact .inl h7
          · refine .inr ⟨st', h7, h8, h9, h10, ?_⟩
            intro w l' hw hnil he
            cases hw
            rw [hnil] at hen
            exact absurd he hen

theorem outer_cases (hg : g.WF) : ∀ (k : Nat) (st : State), LoopInv g [] st →
    st.queue.length + pending g st.plan < k →
    ((∃ v, g.Isolated v) ∧ outer g k st = .panic) ∨
    (∃ plan, outer g k st = .ok (some plan) ∧ PlanOk g plan ∧
      (∀ v, v < g.nodes → Enabled g plan v → v ∈ ids plan) ∧ st.plan <+: plan ∧
      (∀ v l, st.queue = v :: l → st.plan = [] → Enabled g [] v → (ids plan).head? = some v)) := by
  intro k
  induction k with
  | zero => intro st _ h; omega
  | succ k ih =>
    intro st inv hk
    unfold outer
    cases hq : st.queue with
    | nil =>
      refine .inr ⟨st.plan, rfl, inv.ok, ?_, List.prefix_rfl, by simp⟩
      intro v hv he
      apply Classical.byContradiction
      intro hn
      rcases inv.enabled v hv hn he with h | ⟨u, hu, _⟩
      · cases h
      · rw [hq] at hu; cases hu
    | cons s q =>
      simp only
      have hs : s < g.nodes := inv.queue_lt s (by rw [hq]; exact List.mem_cons_self)
      obtain ⟨hnd, hreach⟩ := bfsOrder_spec hg hs
      have inv' : LoopInv g (bfsOrder g s) ⟨st.plan, st.next, q⟩ := by
        refine ⟨inv.ok, inv.next, fun u hu => inv.queue_lt u (by rw [hq]; exact List.mem_cons_of_mem _ hu), ?_⟩
        intro v hv hn he
        rcases inv.enabled v hv hn he with h | ⟨u, hu, hr⟩
        · cases h
        · rw [hq] at hu
          rcases List.mem_cons.1 hu with rfl | hu
          · exact .inl ((hreach v).2 hr)
          · exact .inr ⟨u, hu, hr⟩
      rcases inner_cases hg (bfsOrder g s) _ (fun v hv => ((hreach v).1 hv).lt hg hs) inv' with
        ⟨h1, h2⟩ | ⟨st', h2, h3, h4, h5, h6⟩
      · exact .inl ⟨h1, by rw [h2]⟩
      · rw [h2]
        simp only at h4 h5 h6 ⊢
        rcases ih st' h3 (by simp only [hq, List.length_cons] at hk; omega) with
          h7 | ⟨plan, h7, h8, h9, h10, _⟩
        · exact .inl h7
        · refine .inr ⟨plan, h7, h8, h9, h5.trans h10, ?_⟩
          intro v l hv hnil he
          cases hv
          obtain ⟨l', hl'⟩ := bfsOrder_head (g := g) hs
          have h11 := h6 _ _ hl' hnil he
          obtain ⟨more, rfl⟩ := h10
          rw [ids_append]
          cases hi : ids st'.plan with
          | nil => rw [hi] at h11; cases h11
          | cons a b => rw [hi] at h11; simpa using h11

theorem planStart_inv (g : Graph) : LoopInv g [] ⟨[], 0, sources g⟩ := by
  refine ⟨.nil, rfl, ?_, ?_⟩
  · intro u hu
    simp [sources] at hu
    exact hu.1
  · intro v hv _ he
    refine .inr ⟨v, ?_, .refl v⟩
    have hnil : g.incoming v = [] := by
      apply List.eq_nil_iff_forall_not_mem.2
      intro p hp
      have := he p hp
      simp [ids] at this
    simp [sources, hv, taskType, hnil]

theorem planStart_fuel (g : Graph) :
    (⟨[], 0, sources g⟩ : State).queue.length + pending g (⟨[], 0, sources g⟩ : State).plan
      < g.nodes + g.edges.length + 1 := by
  have h1 : (sources g).length ≤ g.nodes := by
    have := List.length_filter_le (fun v => taskType g v == .source) (List.range g.nodes)
    simpa [sources] using this
  have h2 : pending g [] ≤ g.edges.length := List.length_filter_le _ _
  simp only
  omega

/-- The planner: it panics exactly on graphs with an isolated task, always terminates, and its
plan satisfies the plan invariant and is saturated. -/
theorem computePlan_cases (hg : g.WF) :
    ((∃ v, g.Isolated v) ∧ computePlan g = .panic) ∨
    ((¬ ∃ v, g.Isolated v) ∧ ∃ plan, computePlan g = .ok (some plan) ∧ PlanOk g plan ∧
      ∀ v, v < g.nodes → Enabled g plan v → v ∈ ids plan) := by
  rcases outer_cases hg _ _ (planStart_inv g) (planStart_fuel g) with h | ⟨plan, h1, h2, h3, _⟩
  · exact .inl h
  · refine .inr ⟨?_, plan, h1, h2, h3⟩
    rintro ⟨v, hi⟩
    have : v ∈ ids plan := h3 v hi.1 (by
      intro p hp
      obtain ⟨e, he, hd, _⟩ := mem_incoming.1 hp
      exact absurd hd (hi.2 e he).2)
    exact h2.not_isolated v this hi

/-- The plan begins with the first source. -/
theorem computePlan_head (hg : g.WF) {plan : List Step} (h : computePlan g = .ok (some plan))
    {v : Nat} {l : List Nat} (hs : sources g = v :: l) : (ids plan).head? = some v := by
  rcases outer_cases hg _ _ (planStart_inv g) (planStart_fuel g) with ⟨_, h'⟩ | ⟨plan', h1, _, _, _, h5⟩
  · unfold computePlan at h; rw [h'] at h; cases h
  · unfold computePlan at h; rw [h1] at h
    simp only [Rs.ok.injEq, Option.some.injEq] at h
    subst h
    refine h5 v l hs rfl ?_
    intro p hp
    have : v ∈ sources g := by rw [hs]; simp
    simp only [sources, List.mem_filter, beq_iff_eq, taskType] at this
    obtain ⟨_, ht⟩ := this
    cases hi : g.incoming v with
    | nil => rw [hi] at hp; cases hp
    | cons a b =>
      rw [hi] at ht
      rw [if_neg (by simp)] at ht
      split at ht <;> cases ht

end Planner
end Verif
