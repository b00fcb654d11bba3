import Verif.Proofs.PlannerWiring
/-! Properties C13 to C17: the execution plan. -/
namespace Verif
open Planner

/-- A diamond: 0 → {1, 2} → 3, with the sink's inputs declared as (1, then 2). -/
def diamond : Graph := ⟨4, [⟨0, 1, "a"⟩, ⟨0, 2, "a"⟩, ⟨1, 3, "b"⟩, ⟨2, 3, "c"⟩]⟩

/-! ### C13 Plan runs every task at most once -/

/-- For every task graph the planner terminates; unless it panics, the plan contains each task at
most once and only tasks of the graph. -/
theorem C13_each_task_once (g : Graph) (hg : g.WF) :
    computePlan g ≠ .ok none ∧
    ∀ plan, computePlan g = .ok (some plan) →
      (plan.map Step.nodeId).Nodup ∧ ∀ v ∈ plan.map Step.nodeId, v < g.nodes := by
  rcases computePlan_cases hg with ⟨_, h⟩ | ⟨_, plan, h, hok, _⟩
  · rw [h]; exact ⟨by simp, by simp⟩
  · rw [h]
    refine ⟨by simp, ?_⟩
    intro plan' hp
    cases hp
    exact ⟨hok.nodup, hok.lt⟩

/-- Without isolated tasks the planner does not panic (cycles and parallel connections allowed). -/
theorem C13_no_panic (g : Graph) (hg : g.WF) (hi : ¬ ∃ v, g.Isolated v) :
    ∃ plan, computePlan g = .ok (some plan) := by
  rcases computePlan_cases hg with ⟨h, _⟩ | ⟨_, plan, h, _⟩
  · exact absurd h hi
  · exact ⟨plan, h⟩

example : diamond.WF ∧ (¬ ∃ v, diamond.Isolated v) := by
  refine ⟨by decide, ?_⟩
  rintro ⟨v, hv, h⟩
  have h1 := h ⟨0, 1, "a"⟩ (by decide)
  have h2 := h ⟨2, 3, "c"⟩ (by decide)
  have h3 := h ⟨0, 2, "a"⟩ (by decide)
  simp only [diamond] at *
  omega

/-! ### C14 Plan respects data dependencies -/

/-- Every task is planned after all the tasks it receives messages from. -/
theorem C14_producers_first (g : Graph) (hg : g.WF) (plan : List Step)
    (h : computePlan g = .ok (some plan)) (k : Nat) (s : Step) (hk : plan[k]? = some s) :
    ∀ e ∈ g.edges, e.dst = s.nodeId → ∃ j s', j < k ∧ plan[j]? = some s' ∧ s'.nodeId = e.src := by
  rcases computePlan_cases hg with ⟨_, h'⟩ | ⟨_, plan', h', hok, _⟩
  · rw [h'] at h; cases h
  · rw [h'] at h; cases h
    intro e he hd
    obtain ⟨_, hen, _⟩ := hok.get hk
    have := hen e.src (mem_incoming.2 ⟨e, he, hd, rfl⟩)
    obtain ⟨s', hs', heq⟩ := List.mem_map.1 this
    obtain ⟨j, hj, hj'⟩ := List.getElem_of_mem hs'
    simp only [List.length_take] at hj
    refine ⟨j, s', by omega, ?_, heq⟩
    rw [List.getElem_take] at hj'
    rw [List.getElem?_eq_getElem (by omega), hj']

example : ∃ plan, computePlan diamond = .ok (some plan) ∧ plan.map Step.nodeId = [0, 2, 1, 3] := by
  have h := C13_no_panic diamond (by decide) (by
    rintro ⟨v, hv, h⟩
    have h1 := h ⟨0, 1, "a"⟩ (by decide)
    have h2 := h ⟨2, 3, "c"⟩ (by decide)
    have h3 := h ⟨0, 2, "a"⟩ (by decide)
    simp only [diamond] at *
    omega)
  obtain ⟨plan, hp⟩ := h
  refine ⟨plan, hp, ?_⟩
  have : computePlan diamond = .ok (some [⟨0, .source, [], some (0, "a")⟩, ⟨2, .regular, [(0, "a")], some (1, "c")⟩,
    ⟨1, .regular, [(0, "a")], some (2, "b")⟩, ⟨3, .sink, [(2, "b"), (1, "c")], some (3, "()")⟩]) := by decide +kernel
  rw [this] at hp
  cases hp
  rfl

/-! ### C15 Plan is complete -/

/-- In an acyclic graph without isolated tasks, every task is planned. -/
theorem C15_complete (g : Graph) (hg : g.WF) (ha : g.Acyclic) (hi : ¬ ∃ v, g.Isolated v) :
    ∃ plan, computePlan g = .ok (some plan) ∧ ∀ v, v < g.nodes → v ∈ plan.map Step.nodeId := by
  rcases computePlan_cases hg with ⟨h, _⟩ | ⟨_, plan, h, hok, hsat⟩
  · exact absurd h hi
  · refine ⟨plan, h, ?_⟩
    intro v hv
    have hr := runnable_of_acyclic hg ha v hv
    induction hr with
    | intro v hv' hpar ih =>
      refine hsat v hv (fun p hp => ?_)
      obtain ⟨e, he, hd, rfl⟩ := mem_incoming.1 hp
      exact ih e he hd (hg e he).1

/-- Exactly the tasks that are neither on a cycle nor behind one are planned. -/
theorem C15_exactly_runnable (g : Graph) (hg : g.WF) (plan : List Step)
    (h : computePlan g = .ok (some plan)) (v : Nat) :
    v ∈ plan.map Step.nodeId ↔ g.Runnable v := by
  rcases computePlan_cases hg with ⟨_, h'⟩ | ⟨_, plan', h', hok, hsat⟩
  · rw [h'] at h; cases h
  · rw [h'] at h; cases h
    constructor
    · have gen : ∀ plan, PlanOk g plan → ∀ v ∈ ids plan, g.Runnable v := by
        intro plan hok
        induction hok with
        | nil => simp [ids]
        | snoc plan v h hv hn he hi ih =>
          intro w hw
          rw [ids_append] at hw
          rcases List.mem_append.1 hw with hw | hw
          · exact ih w hw
          · simp [ids] at hw
            subst hw
            exact .intro w hv (fun e hem hd => ih e.src (he e.src (mem_incoming.2 ⟨e, hem, hd, rfl⟩)))
      exact gen plan hok v
    · intro hr
      induction hr with
      | intro v hv hpar ih =>
        refine hsat v hv (fun p hp => ?_)
        obtain ⟨e, he, hd, rfl⟩ := mem_incoming.1 hp
        exact ih e he hd

example := C15_complete diamond (by decide) ⟨id, by decide⟩ (by
  rintro ⟨v, hv, h⟩
  have h1 := h ⟨0, 1, "a"⟩ (by decide)
  have h2 := h ⟨2, 3, "c"⟩ (by decide)
  have h3 := h ⟨0, 2, "a"⟩ (by decide)
  simp only [diamond] at *
  omega)

example : diamond.Acyclic := ⟨id, by decide⟩

/-! ### C16 Plan wires each input to its producer's slot -/

/-- The full statement: one slot per task, one input per incoming connection in declaration
order, each with the slot written by the connected producer and the declared message type.
Refuted below (parallel connections; producers with several message types). -/
def C16_statement : Prop :=
  ∀ (g : Graph) (plan : List Step), g.WF → computePlan g = .ok (some plan) →
    ∀ (k : Nat) (s : Step), plan[k]? = some s →
      (∃ ty, s.output = some (k, ty)) ∧
      s.inputs = (g.edges.filter (fun e => e.dst == s.nodeId)).map
        (fun e => ((plan.map Step.nodeId).idxOf e.src, e.msg))

/-- The slot of the `k`-th planned task is `k`: slots are distinct. -/
theorem C16_own_slot (g : Graph) (hg : g.WF) (plan : List Step)
    (h : computePlan g = .ok (some plan)) (k : Nat) (s : Step) (hk : plan[k]? = some s) :
    ∃ ty, s.output = some (k, ty) := by
  rcases computePlan_cases hg with ⟨_, h'⟩ | ⟨_, plan', h', hok, _⟩
  · rw [h'] at h; cases h
  · rw [h'] at h; cases h
    exact ⟨_, (hok.get hk).2.2.2.2.1⟩

/-- For every graph: the inputs of a task are, up to order, the slots of the producers of its
incoming connections, one input per connection. -/
theorem C16_inputs_perm_partial (g : Graph) (hg : g.WF) (plan : List Step)
    (h : computePlan g = .ok (some plan)) (k : Nat) (s : Step) (hk : plan[k]? = some s) :
    (s.inputs.map Prod.fst).Perm ((g.edges.filter (fun e => e.dst == s.nodeId)).map
        (fun e => (plan.map Step.nodeId).idxOf e.src)) ∧
    ∀ i ∈ s.inputs, ∃ p, plan[i.1]? = some p ∧ p.output = some i ∧
      ∃ e ∈ g.edges, e.src = p.nodeId ∧ e.dst = s.nodeId := by
  rcases computePlan_cases hg with ⟨_, h'⟩ | ⟨_, plan', h', hok, _⟩
  · rw [h'] at h; cases h
  · rw [h'] at h; cases h
    obtain ⟨hok', hen, _, _, _, hin⟩ := hok.get hk
    have hmap : (keyedInputs g (plan.take k) s.nodeId).map Prod.snd =
        (g.incoming s.nodeId).map (fun p => ((ids plan).idxOf p, outType g p)) := by
      unfold keyedInputs
      rw [List.map_map]
      apply List.map_congr_left
      intro p hp
      simp only [Function.comp_apply]
      rw [idxOf_take (hen p hp)]
    have hperm := sortByKey_perm (keyedInputs g (plan.take k) s.nodeId)
    rw [hmap, ← hin] at hperm
    constructor
    · refine (hperm.map Prod.fst).trans ?_
      rw [List.map_map]
      unfold Graph.incoming
      rw [List.map_map]
      exact (List.reverse_perm _).map _
    · intro i hi
      obtain ⟨p, hp, rfl⟩ := List.mem_map.1 (hperm.mem_iff.1 hi)
      have hpm : p ∈ ids plan := by
        have := hen p hp
        rw [ids_take] at this
        exact List.mem_of_mem_take this
      obtain ⟨st, h1, h2⟩ := PlanOk.getElem_idxOf hpm
      obtain ⟨_, _, _, _, hout, _⟩ := hok.get h1
      obtain ⟨e, he, hd, hs⟩ := mem_incoming.1 hp
      exact ⟨st, h1, by rw [hout, h2], e, he, by rw [h2, hs], hd⟩

/-- Without parallel connections and with one message type per producer, the full statement
holds: the inputs are in the order of the connections, with the declared types. -/
theorem C16_inputs_ordered_partial (g : Graph) (hg : g.WF) (hp : g.NoParallel)
    (hc : g.ConsistentTypes) (plan : List Step) (h : computePlan g = .ok (some plan)) (k : Nat)
    (s : Step) (hk : plan[k]? = some s) :
    s.inputs = (g.edges.filter (fun e => e.dst == s.nodeId)).map
        (fun e => ((plan.map Step.nodeId).idxOf e.src, e.msg)) := by
  rcases computePlan_cases hg with ⟨_, h'⟩ | ⟨_, plan', h', hok, _⟩
  · rw [h'] at h; cases h
  · rw [h'] at h; cases h
    obtain ⟨hok', hen, _, _, _, hin⟩ := hok.get hk
    rw [hin, sorted_inputs_eq hp]
    apply List.map_congr_left
    intro e he
    obtain ⟨hem, hd⟩ := List.mem_filter.1 he
    have := hen e.src (mem_incoming.2 ⟨e, hem, by simpa using hd, rfl⟩)
    rw [idxOf_take this, outType_eq hc hem]
    rfl

example : diamond.NoParallel ∧ diamond.ConsistentTypes := by decide

/-- Two connections from the same producer around another one: the inputs are reordered. -/
theorem C16_violated_parallel :
    computePlan ⟨3, [⟨0, 2, "a"⟩, ⟨1, 2, "b"⟩, ⟨0, 2, "a"⟩]⟩ =
      .ok (some [⟨0, .source, [], some (0, "a")⟩, ⟨1, .source, [], some (1, "b")⟩,
        ⟨2, .sink, [(1, "b"), (0, "a"), (0, "a")], some (2, "()")⟩]) := by decide +kernel

/-- A producer with two message types: the first consumer is wired with the type of the
second connection. -/
theorem C16_violated_types :
    computePlan ⟨3, [⟨0, 1, "a"⟩, ⟨0, 2, "b"⟩]⟩ =
      .ok (some [⟨0, .source, [], some (0, "b")⟩, ⟨2, .sink, [(0, "b")], some (1, "()")⟩,
        ⟨1, .sink, [(0, "b")], some (2, "()")⟩]) := by decide +kernel

theorem C16_violated_statement : ¬ C16_statement := by
  intro h
  have := (h ⟨3, [⟨0, 2, "a"⟩, ⟨1, 2, "b"⟩, ⟨0, 2, "a"⟩]⟩ _ (by decide) C16_violated_parallel 2 _ rfl).2
  revert this
  decide

/-! ### C17 Invalid graphs are rejected -/

/-- The full statement: a plan is only returned for acyclic graphs. -/
def C17_statement : Prop :=
  ∀ (g : Graph) (plan : List Step), g.WF → computePlan g = .ok (some plan) → g.Acyclic

/-- Refuted: a graph with a cycle is planned, silently without the tasks of the cycle. -/
theorem C17_violated_cycle :
    ¬ C17_statement ∧
    computePlan ⟨4, [⟨0, 1, "a"⟩, ⟨1, 2, "b"⟩, ⟨2, 1, "b"⟩, ⟨2, 3, "c"⟩]⟩ =
      .ok (some [⟨0, .source, [], some (0, "a")⟩]) := by
  have hw : computePlan ⟨4, [⟨0, 1, "a"⟩, ⟨1, 2, "b"⟩, ⟨2, 1, "b"⟩, ⟨2, 3, "c"⟩]⟩ =
      .ok (some [⟨0, .source, [], some (0, "a")⟩]) := by decide +kernel
  refine ⟨?_, hw⟩
  intro h
  obtain ⟨rank, hr⟩ := h _ _ (by decide) hw
  have h1 := hr ⟨1, 2, "b"⟩ (by decide)
  have h2 := hr ⟨2, 1, "b"⟩ (by decide)
  simp only at h1 h2
  omega

/-- Refuted: a graph with a task that is not connected makes the planner panic instead of
returning an error; this is exactly when it panics. -/
theorem C17_violated_isolated_panics (g : Graph) (hg : g.WF) :
    computePlan g = .panic ↔ ∃ v, g.Isolated v := by
  rcases computePlan_cases hg with ⟨h1, h2⟩ | ⟨h1, plan, h2, _⟩
  · simp [h1, h2]
  · simp only [h2, reduceCtorEq, false_iff]; exact h1

/-- What a caller can check: the plan has fewer tasks than the graph exactly when the graph has
a cycle. -/
theorem C17_truncated_iff_cyclic_partial (g : Graph) (hg : g.WF) (plan : List Step)
    (h : computePlan g = .ok (some plan)) :
    (∀ v, v < g.nodes → v ∈ plan.map Step.nodeId) ↔ g.Acyclic := by
  constructor
  · intro hall
    refine ⟨fun v => (plan.map Step.nodeId).idxOf v, ?_⟩
    intro e he
    have hd := hall e.dst (hg e he).2
    obtain ⟨st, h1, h2⟩ := PlanOk.getElem_idxOf (plan := plan) hd
    obtain ⟨j, s', hj, hs', heq⟩ := C14_producers_first g hg plan h _ st h1 e he h2.symm
    have hlen := (List.getElem?_eq_some_iff.1 hs').1
    have : (plan.map Step.nodeId).idxOf e.src ≤ j := by
      have hnd := ((C13_each_task_once g hg).2 plan h).1
      have hj2 : (plan.map Step.nodeId)[j]? = some e.src := by
        rw [List.getElem?_map, hs']; simp [heq]
      obtain ⟨hjl, hj3⟩ := List.getElem?_eq_some_iff.1 hj2
      rw [← hj3, hnd.idxOf_getElem]
      exact Nat.le_refl _
    exact Nat.lt_of_le_of_lt this hj
  · intro ha
    rcases computePlan_cases hg with ⟨h1, h2⟩ | ⟨h1, _⟩
    · rw [h2] at h; cases h
    · obtain ⟨plan', h2, h3⟩ := C15_complete g hg ha h1
      rw [h2] at h; cases h
      exact h3

example : ¬ (Graph.Acyclic ⟨2, [⟨0, 1, "a"⟩, ⟨1, 0, "b"⟩]⟩) := by
  rintro ⟨rank, hr⟩
  have h1 := hr ⟨0, 1, "a"⟩ (by decide)
  have h2 := hr ⟨1, 0, "b"⟩ (by decide)
  simp only at h1 h2
  omega

end Verif
