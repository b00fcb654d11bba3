import Verif.Spec.WhatIf
import Verif.Proofs.Simulated
import Verif.Proofs.Replay
/-! Lemmas: a replay computes what its log and its tasks determine. -/
namespace Verif
namespace Dataflow
open Clock CopperList Planner Verif.Runtime
variable {σ σ' S P Q : Type}

open Classical in
/-- The machines of turn `i` of a replay. -/
noncomputable def fedTasks (g : Graph) (m : Tasks S Q) (fed : Nat → Option Q) : Tasks S Q :=
  ⟨m.init, fun t s ins => if Inner g t then m.next t s ins else (s, fed t)⟩

theorem exists_fed {g : Graph} (ha : g.Acyclic) (m : Tasks S Q) (fed : Nat → Nat → Option Q) (x0 : Nat → S)
    (h0 : ∀ t, Inner g t → x0 t = m.init t) :
    ∃ x y, FedSolution g m fed x y ∧ x 0 = x0 ∧ ∀ n t, (x (n + 1) t, y n t) = (fedTasks g m (fed n)).next t (x n t)
      ((g.edges.filter (fun e => e.dst == t)).map (fun e => y n e.src)) := by
  let turn := fun (n : Nat) (x : Nat → S) => (exists_turn ha (fedTasks g m (fed n)) x).choose
  have hturn : ∀ n x t, turn n x t = ((fedTasks g m (fed n)).next t (x t) ((g.edges.filter (fun e => e.dst == t)).map
      (fun e => turn n x e.src))).2 := fun n x => (exists_turn ha (fedTasks g m (fed n)) x).choose_spec
  let x : Nat → Nat → S := fun n => Nat.rec x0
    (fun n x t => ((fedTasks g m (fed n)).next t (x t) ((g.edges.filter (fun e => e.dst == t)).map
      (fun e => turn n x e.src))).1) n
  have all : ∀ n t, (x (n + 1) t, turn n (x n) t) = (fedTasks g m (fed n)).next t (x n t)
      ((g.edges.filter (fun e => e.dst == t)).map (fun e => turn n (x n) e.src)) := by
    intro n t
    apply Prod.ext
    · rfl
    · exact hturn n (x n) t
  refine ⟨x, fun n => turn n (x n), ⟨h0, fun n t ht => ?_, fun n t ht => ?_⟩, rfl, all⟩
  · have := congrArg Prod.snd (all n t)
    have hn : ¬ Inner g t := fun h => by
      obtain ⟨⟨e, he, hd⟩, -⟩ := h
      exact ht.1 e he hd
    simpa only [fedTasks, if_neg hn] using this
  · have := all n t
    simpa only [fedTasks, if_pos ht] using this

theorem planned_not_isolated {g : Graph} {plan : List Step} (hp : Planned g plan) (t : Nat) (ht : t < g.nodes) :
    (∃ e ∈ g.edges, e.dst = t) ∨ ∃ e ∈ g.edges, e.src = t := by
  rcases computePlan_cases hp.wf with ⟨_, e⟩ | ⟨h, _⟩
  · rw [hp.eq] at e; cases e
  · apply Classical.byContradiction
    intro hn
    apply h
    refine ⟨t, ?_⟩
    have h1 : ∀ e ∈ g.edges, e.dst ≠ t := fun e he hd => hn (.inl ⟨e, he, hd⟩)
    have h2 : ∀ e ∈ g.edges, e.src ≠ t := fun e he hd => hn (.inr ⟨e, he, hd⟩)
    exact ⟨ht, fun e he => ⟨h2 e he, h1 e he⟩⟩

theorem planned_kinds {g : Graph} {plan : List Step} (hp : Planned g plan) {s : Step} (hs : s ∈ plan) :
    (s.taskType = .source → Sensor g s.nodeId) ∧ (s.taskType = .regular → Inner g s.nodeId) := by
  obtain ⟨k, hk, rfl⟩ := List.getElem_of_mem hs
  obtain ⟨-, -, hlt, htt, -, -⟩ := hp.ok.get (List.getElem?_eq_getElem hk)
  have hiso := planned_not_isolated hp _ hlt
  rw [htt]
  generalize plan[k].nodeId = t at hiso
  have hin : (g.incoming t).length = 0 ↔ ∀ e ∈ g.edges, e.dst ≠ t := by
    simp [Graph.incoming, List.filter_eq_nil_iff]
  have hout : (g.outgoing t).length = 0 ↔ ∀ e ∈ g.edges, e.src ≠ t := by
    simp [Graph.outgoing, List.filter_eq_nil_iff]
  unfold taskType
  constructor
  · intro h
    split at h
    · rename_i hz
      rw [hin] at hz
      refine ⟨hz, ?_⟩
      rcases hiso with ⟨e, he, hd⟩ | h
      · exact absurd hd (hz e he)
      · exact h
    · split at h <;> cases h
  · intro h
    split at h
    · cases h
    · split at h
      · cases h
      · rename_i h1 h2
        rw [hin] at h1
        rw [hout] at h2
        constructor
        · apply Classical.byContradiction
          intro hn
          exact h1 fun e he hd => hn ⟨e, he, hd⟩
        · apply Classical.byContradiction
          intro hn
          exact h2 fun e he hd => hn ⟨e, he, hd⟩

theorem replay_simulates {g : Graph} {r : Replayer σ P} (hp : Planned g r.app.plan) (hacc : SourcesReadable r.app.plan)
    {read : Msg P → Option Q} {view : σ → Nat → S} {m : Tasks S Q} (hb : Rebuilt read r view m)
    {cl : CL (List (Msg P))} {fed : Nat → Option Q}
    (hfed : ∀ t, Sensor g t → sentBy read r.app.plan t cl = some (fed t)) :
    Simulates read (r.app.withSim (resimCallback r.app.plan r.sinkOut cl.msgs)).env
      (resimCallback r.app.plan r.sinkOut cl.msgs) r.app.plan view (fedTasks g m fed) where
  runs := rfl
  calm := ⟨hb.calm.now, hb.calm.ignores, hb.calm.monCL, hb.calm.log⟩
  life ph t s hph := by
    refine ⟨rfl, ?_⟩
    simp only [resimCallback]
    by_cases h : kindOf r.app.plan t = .regular
    · right
      rw [if_pos h]
      exact ⟨rfl, fun s' => hb.life ph t s' hph⟩
    · left
      rw [if_neg h]
  process step hs ins out s hsrc := by
    have hn : (r.app.plan.map Step.nodeId).Nodup := ((C13_each_task_once g hp.wf).2 _ hp.eq).1
    have hk := kindOf_eq hn hs
    obtain ⟨hsens, hinner⟩ := planned_kinds hp hs
    have hupd : update (view s) step.nodeId (view s step.nodeId) = view s := by
      funext u
      unfold update
      split
      · rename_i h; rw [h]
      · rfl
    simp only [resimCallback, hk]
    cases ht : step.taskType with
    | source =>
      left
      have hS := hsens ht
      have hnI : ¬ Inner g step.nodeId := fun h => by
        obtain ⟨⟨e, he, hd⟩, -⟩ := h
        exact hS.1 e he hd
      simp only [fedTasks, if_neg hnI, hupd, simSent]
      refine ⟨by decide, trivial, fun _ => ?_⟩
      obtain ⟨k, hk', rfl⟩ := List.getElem_of_mem hs
      have hidx : (r.app.plan.map Step.nodeId).idxOf r.app.plan[k].nodeId = k := by
        have := List.Nodup.idxOf_getElem hn k (by simpa using hk')
        simpa using this
      have hf := hfed _ hS
      rw [sentBy, hidx] at hf
      rw [hacc k _ (List.getElem?_eq_getElem hk') ht]
      cases hm : cl.msgs[k]? with
      | none => rw [hm] at hf; cases hf
      | some o =>
        rw [hm] at hf
        simp only [Option.map_some, Option.some.injEq] at hf
        simpa [hm] using hf
    | sink =>
      left
      have hnI : ¬ Inner g step.nodeId := fun h => by
        obtain ⟨k, hk', rfl⟩ := List.getElem_of_mem hs
        obtain ⟨-, -, hlt, htt, -, -⟩ := hp.ok.get (List.getElem?_eq_getElem hk')
        rw [htt] at ht
        unfold taskType at ht
        split at ht
        · cases ht
        · split at ht
          · rename_i hz
            obtain ⟨-, e, he, hd⟩ := h
            have : e.dst ∈ g.outgoing r.app.plan[k].nodeId := by
              unfold Graph.outgoing
              rw [List.mem_map]
              exact ⟨e, by simp [he, hd], rfl⟩
            rw [List.length_eq_zero_iff.1 hz] at this
            cases this
          · cases ht
      simp only [fedTasks, if_neg hnI, hupd]
      exact ⟨by decide, trivial, fun h => absurd rfl h⟩
    | regular =>
      right
      refine ⟨rfl, rfl, ?_⟩
      have hI := hinner ht
      have := hb.process step hs ht
      intro ins' out' s'
      simp only [fedTasks, if_pos hI]
      exact this ins' out' s'

/-- The lists of a replay. -/
theorem replay_view {g : Graph} {r : Replayer σ P} (hp : Planned g r.app.plan) (hacc : SourcesReadable r.app.plan)
    {read : Msg P → Option Q} (hr : IgnoresTimes read) {view : σ → Nat → S} {m : Tasks S Q} (hb : Rebuilt read r view m)
    (hlog : r.app.env.log.isSome = true) {fed : Nat → Nat → Option Q} {x : Nat → Nat → S} {y : Nat → Nat → Option Q}
    (hxy : ∀ n t, (x (n + 1) t, y n t) = (fedTasks g m (fed n)).next t (x n t)
      ((g.edges.filter (fun e => e.dst == t)).map (fun e => y n e.src)))
    (cls : List (CL (List (Msg P)))) :
    ∀ (k : Nat) (rt rt' : Rt σ P), (∀ (i : Nat) cl, cls[i]? = some cl → ∀ t, Sensor g t →
        sentBy read r.app.plan t cl = some (fed (k + i) t)) → Idle r.app.plan.length rt.mgr →
      replayLoop r cls rt = .ok rt' → (∀ s ∈ r.app.plan, view rt.w.st s.nodeId = x k s.nodeId) →
      (∀ s ∈ r.app.plan, view rt'.w.st s.nodeId = x (k + cls.length) s.nodeId) ∧
      ∃ lists, loggedLists rt'.w.trace = loggedLists rt.w.trace ++ lists ∧ lists.length = cls.length ∧
        ∀ (i : Nat) (cl : CL (List (Msg P))), lists[i]? = some cl → ∀ (j : Nat) (s : Step),
          r.app.plan[j]? = some s → s.taskType ≠ .sink →
          ∃ mj : Msg P, cl.msgs[j]? = some mj ∧ read mj = y (k + i) s.nodeId := by
  induction cls with
  | nil =>
    intro k rt rt' _ _ h hv
    simp only [replayLoop, Rs.ok.injEq] at h
    subst h
    exact ⟨hv, [], by simp, rfl, by intro i cl hl; simp at hl⟩
  | cons c cls ih =>
    intro k rt rt' hfed hidle h hv
    rw [replayLoop] at h
    split at h
    · rename_i rt1 h1
      have hb1 := (replay_simulates hp hacc hb (cl := c) (fed := fed k) (hfed 0 c rfl)).behaves hr
      obtain ⟨a1, a2, -, t, msgs, a3, a4, a5⟩ := iteration_view
        (app := r.app.withSim (resimCallback r.app.plan r.sinkOut c.msgs)) hp hb1
        (fun t _ => hxy k t) (rt := { rt with w := { rt.w with st := r.setClock c.msgs rt.w.st } }) hidle h1
        (fun s hs => by rw [show view _ = _ from hb.clock c.msgs rt.w.st]; exact hv s hs)
      obtain ⟨b1, lists, b2, b3, b4⟩ := ih (k + 1) rt1 rt' (fun i cl hcl t ht => by
        rw [show k + 1 + i = k + (i + 1) by omega]
        exact hfed (i + 1) cl (by simpa using hcl) t ht) a2 h a1
      refine ⟨by rw [List.length_cons, show k + (cls.length + 1) = k + 1 + cls.length by omega]; exact b1,
        ⟨rt.mgr.currentClId, .beingSerialized, msgs⟩ :: lists, ?_, by simp [b3], ?_⟩
      · have hl : (r.app.withSim (resimCallback r.app.plan r.sinkOut c.msgs)).env.log.isSome = true := hlog
        rw [b2, a3, loggedLists_append, a4, if_pos hl]
        simp
      · intro i cl hl
        cases i with
        | zero =>
          simp only [List.getElem?_cons_zero, Option.some.injEq] at hl
          subst hl
          exact a5
        | succ i =>
          simp only [List.getElem?_cons_succ] at hl
          intro j s hj ht
          obtain ⟨mj, e1, e2⟩ := b4 i cl hl j s hj ht
          exact ⟨mj, e1, by rw [e2]; congr 1; omega⟩
    · cases h

/-- What is determined by the configuration is so given what its sensors send. -/
theorem Solution.fedBy {g : Graph} (hg : g.WF) {m : Tasks S Q} {x : Nat → Nat → S} {y : Nat → Nat → Option Q}
    (h : Solution g m x y) : FedSolution g m y x y where
  init t ht := by
    obtain ⟨⟨e, he, rfl⟩, -⟩ := ht
    exact h.init _ (hg e he).2
  fed _ _ _ := rfl
  turn n t ht := by
    obtain ⟨⟨e, he, rfl⟩, -⟩ := ht
    exact h.turn n _ (hg e he).2

/-- What is not behind a changed task is as it was. -/
theorem fed_same {g : Graph} (ha : g.Acyclic) {m m' : Tasks S Q} {changed : Nat → Prop}
    (hm : ∀ t, Inner g t → ¬ changed t → m'.init t = m.init t ∧ m'.next t = m.next t) {x x' : Nat → Nat → S}
    {y y' fed fed' : Nat → Nat → Option Q} (hs : FedSolution g m fed x y) (hs' : FedSolution g m' fed' x' y') {n : Nat}
    (hfed : ∀ i < n, ∀ t, Sensor g t → fed' i t = fed i t) :
    ∀ i ≤ n, (∀ t, Inner g t → ¬ Behind g changed t → x' i t = x i t) ∧
      (i < n → ∀ e ∈ g.edges, ¬ Behind g changed e.src → y' i e.src = y i e.src) := by
  obtain ⟨rank, hr⟩ := ha
  have hnot : ∀ t, ¬ Behind g changed t → ¬ changed t := fun t h hc => h ⟨t, hc, .self⟩
  have hup : ∀ e ∈ g.edges, ¬ Behind g changed e.dst → ¬ Behind g changed e.src := by
    rintro e he h ⟨u, hu, h'⟩
    exact h ⟨u, hu, .step h' he⟩
  have hin : ∀ i t, (∀ e ∈ g.edges, e.dst = t → y' i e.src = y i e.src) →
      (g.edges.filter (fun e => e.dst == t)).map (fun e => y' i e.src) =
        (g.edges.filter (fun e => e.dst == t)).map (fun e => y i e.src) := by
    intro i t h
    apply List.map_congr_left
    intro e he
    obtain ⟨he, hd⟩ := List.mem_filter.1 he
    exact h e he (by simpa using hd)
  have sends : ∀ i < n, (∀ t, Inner g t → ¬ Behind g changed t → x' i t = x i t) →
      ∀ k, ∀ e ∈ g.edges, rank e.src < k → ¬ Behind g changed e.src → y' i e.src = y i e.src := by
    intro i hi hx k
    induction k with
    | zero => intro e _ h; omega
    | succ k ih =>
      intro e he hk hb
      by_cases hd : ∃ e' ∈ g.edges, e'.dst = e.src
      · have hI : Inner g e.src := ⟨hd, e, he, rfl⟩
        have e1 := hs.turn i e.src hI
        have e2 := hs'.turn i e.src hI
        rw [(hm _ hI (hnot _ hb)).2, hx _ hI hb, hin i e.src (fun e' he' hd' =>
          ih e' he' (by have := hr e' he'; rw [hd'] at this; omega) (hup e' he' (hd' ▸ hb))), ← e1] at e2
        exact congrArg Prod.snd e2
      · have hS : Sensor g e.src := ⟨fun e' he' h => hd ⟨e', he', h⟩, e, he, rfl⟩
        rw [hs'.fed i _ hS, hs.fed i _ hS, hfed i hi _ hS]
  intro i
  induction i with
  | zero =>
    intro _
    have h0 : ∀ t, Inner g t → ¬ Behind g changed t → x' 0 t = x 0 t := fun t ht hb => by
      rw [hs.init t ht, hs'.init t ht, (hm t ht (hnot t hb)).1]
    exact ⟨h0, fun h e he hb => sends 0 h h0 _ e he (Nat.lt_succ_self _) hb⟩
  | succ i ih =>
    intro hi
    obtain ⟨hx, hy⟩ := ih (by omega)
    have h1 : ∀ t, Inner g t → ¬ Behind g changed t → x' (i + 1) t = x (i + 1) t := by
      intro t ht hb
      have e1 := hs.turn i t ht
      have e2 := hs'.turn i t ht
      rw [(hm t ht (hnot t hb)).2, hx t ht hb, hin i t (fun e he hd => hy (by omega) e he (hup e he (hd ▸ hb))),
        ← e1] at e2
      exact congrArg Prod.fst e2
    exact ⟨h1, fun h e he hb => sends (i + 1) h h1 _ e he (Nat.lt_succ_self _) hb⟩

end Dataflow
end Verif
