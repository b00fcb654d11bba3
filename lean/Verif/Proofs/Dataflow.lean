import Verif.Spec.Dataflow
import Verif.Proofs.RuntimePool
import Verif.Props.RuntimePool
/-!
Lemmas: an iteration of the generated code computes the solution of the configuration.
-/
namespace Verif
namespace Dataflow
open Clock CopperList Planner Verif.Runtime
variable {σ S P Q : Type}

/-! ### Solutions -/

/-- What task `t` sends, following at most `k` connections back. -/
def eval (g : Graph) (m : Tasks S P) (x : Nat → S) : Nat → Nat → Option P
  | 0, _ => none
  | k + 1, t => (m.next t (x t) ((g.edges.filter (fun e => e.dst == t)).map (fun e => eval g m x k e.src))).2

theorem eval_stable {g : Graph} {m : Tasks S P} {x : Nat → S} {rank : Nat → Nat}
    (hr : ∀ e ∈ g.edges, rank e.src < rank e.dst) :
    ∀ k t, rank t < k → ∀ k', rank t < k' → eval g m x k t = eval g m x k' t := by
  intro k
  induction k with
  | zero => intro t h; omega
  | succ k ih =>
    intro t h k' h'
    cases k' with
    | zero => omega
    | succ k' =>
      simp only [eval]
      congr 2
      apply List.map_congr_left
      intro e he
      obtain ⟨he, hd⟩ := List.mem_filter.1 he
      have hd : e.dst = t := by simpa using hd
      have := hr e he
      rw [hd] at this
      exact ih e.src (by omega) k' (by omega)

theorem exists_turn {g : Graph} (ha : g.Acyclic) (m : Tasks S P) (x : Nat → S) :
    ∃ y : Nat → Option P, ∀ t,
      y t = (m.next t (x t) ((g.edges.filter (fun e => e.dst == t)).map (fun e => y e.src))).2 := by
  obtain ⟨rank, hr⟩ := ha
  refine ⟨fun t => eval g m x (rank t + 1) t, fun t => ?_⟩
  show (m.next t (x t) _).2 = _
  congr 2
  apply List.map_congr_left
  intro e he
  obtain ⟨he, hd⟩ := List.mem_filter.1 he
  have hd : e.dst = t := by simpa using hd
  have := hr e he
  rw [hd] at this
  exact eval_stable hr _ _ this _ (by omega)

theorem exists_solution {g : Graph} (ha : g.Acyclic) (m : Tasks S P) : ∃ x y, Solution g m x y := by
  let turn := fun x : Nat → S => (exists_turn ha m x).choose
  have hturn : ∀ x t, turn x t = (m.next t (x t) ((g.edges.filter (fun e => e.dst == t)).map
      (fun e => turn x e.src))).2 := fun x => (exists_turn ha m x).choose_spec
  let x : Nat → Nat → S := fun n => Nat.rec m.init
    (fun _ x t => (m.next t (x t) ((g.edges.filter (fun e => e.dst == t)).map (fun e => turn x e.src))).1) n
  refine ⟨x, fun n => turn (x n), fun _ _ => rfl, fun n t _ => ?_⟩
  apply Prod.ext
  · rfl
  · exact hturn (x n) t

theorem solution_unique {g : Graph} (hg : g.WF) (ha : g.Acyclic) {m : Tasks S P} {x x' : Nat → Nat → S}
    {y y' : Nat → Nat → Option P} (h : Solution g m x y) (h' : Solution g m x' y') (n : Nat) :
    ∀ t < g.nodes, x n t = x' n t ∧ y n t = y' n t := by
  obtain ⟨rank, hr⟩ := ha
  have hy : ∀ n, (∀ t < g.nodes, x n t = x' n t) → ∀ k, ∀ t < g.nodes, rank t < k → y n t = y' n t := by
    intro n hx k
    induction k with
    | zero => intro t _ h; omega
    | succ k ih =>
      intro t ht hk
      have e1 := h.turn n t ht
      have e2 := h'.turn n t ht
      rw [hx t ht] at e1
      have : (g.edges.filter (fun e => e.dst == t)).map (fun e => y n e.src) =
          (g.edges.filter (fun e => e.dst == t)).map (fun e => y' n e.src) := by
        apply List.map_congr_left
        intro e he
        obtain ⟨he, hd⟩ := List.mem_filter.1 he
        have hd : e.dst = t := by simpa using hd
        have hlt := hr e he
        rw [hd] at hlt
        exact ih e.src (hg e he).1 (by omega)
      rw [this, ← e2] at e1
      exact congrArg Prod.snd e1
  have hx : ∀ n, ∀ t < g.nodes, x n t = x' n t := by
    intro n
    induction n with
    | zero => intro t ht; rw [h.init t ht, h'.init t ht]
    | succ n ih =>
      intro t ht
      have e1 := h.turn n t ht
      have e2 := h'.turn n t ht
      rw [ih t ht] at e1
      have : (g.edges.filter (fun e => e.dst == t)).map (fun e => y n e.src) =
          (g.edges.filter (fun e => e.dst == t)).map (fun e => y' n e.src) := by
        apply List.map_congr_left
        intro e he
        obtain ⟨he, _⟩ := List.mem_filter.1 he
        exact hy n ih _ e.src (hg e he).1 (Nat.lt_succ_self _)
      rw [this, ← e2] at e1
      exact congrArg Prod.fst e1
  intro t ht
  exact ⟨hx n t ht, hy n (hx n) _ t ht (Nat.lt_succ_self _)⟩

theorem rearranged_solution {g g' : Graph} {m m' : Tasks S P} {p : Nat → Nat} (h : Rearranged g g' m m' p)
    {x' : Nat → Nat → S} {y' : Nat → Nat → Option P} (hs : Solution g' m' x' y') :
    Solution g m (fun n t => x' n (p t)) (fun n t => y' n (p t)) := by
  refine ⟨fun t ht => ?_, fun n t ht => ?_⟩
  · rw [← (h.tasks t ht).1]
    exact hs.init _ (by rw [h.nodes]; exact h.lt t ht)
  · have := hs.turn n (p t) (by rw [h.nodes]; exact h.lt t ht)
    rw [(h.tasks t ht).2] at this
    rw [this]
    congr 1
    have e := congrArg (List.map (fun s => y' n s)) (h.edges t ht)
    simpa [List.map_map, Function.comp_def] using e

/-! ### The generated code -/

/-- What the lemmas need of the steps of the generated code: they do what the machines do. -/
structure Behaves (read : Msg P → Option Q) (plan : List Step) (env : Env σ P)
    (view : σ → Nat → S) (m : Tasks S Q) : Prop where
  life : ∀ ph t w, ph = .preprocess ∨ ph = .postprocess →
    ∃ w', lifeStep env ph t w = (w', .next) ∧ view w'.st = view w.st
  step : ∀ step ∈ plan, ∀ (ins : List (Msg P)) (out : Msg P) (w : World σ P), (step.taskType = .source → ins = []) →
    ∃ w' out', processStep env step ins out w = (w', out', .next) ∧
      view w'.st = update (view w.st) step.nodeId
        (m.next step.nodeId (view w.st step.nodeId) (ins.map read)).1 ∧
      (step.taskType ≠ .sink →
        read out' = (m.next step.nodeId (view w.st step.nodeId) (ins.map read)).2)
  monCL : ∀ md s, view (env.monCL md s).1 = view s
  log : ∀ f, env.log = some f → ∀ s cl s', f s cl = .ok s' → view s' = view s

theorem lifeAll_view {plan : List Step} {env : Env σ P} {view : σ → Nat → S} {m : Tasks S Q} {read : Msg P → Option Q}
    (hi : Behaves read plan env view m) {ph : Phase}
    (hph : ph = .preprocess ∨ ph = .postprocess) (ts : List Nat) (w : World σ P) :
    ∃ w', lifeAll env ph ts w = (w', .next) ∧ view w'.st = view w.st := by
  induction ts generalizing w with
  | nil => exact ⟨w, rfl, rfl⟩
  | cons t ts ih =>
    obtain ⟨w1, h1, h2⟩ := hi.life ph t w hph
    rw [lifeAll, h1]
    obtain ⟨w', e1, e2⟩ := ih w1
    exact ⟨w', e1, by rw [e2, h2]⟩

/-- A process step. -/
theorem implements_step {env : Env σ P} {view : σ → Nat → S} {m : Tasks S P} (hi : Implements env view m) (step : Step)
    (ins : List (Msg P)) (out : Msg P) (w : World σ P) (hsrc : step.taskType = .source → ins = []) :
    ∃ w' out', processStep env step ins out w = (w', out', .next) ∧
      view w'.st = update (view w.st) step.nodeId
        (m.next step.nodeId (view w.st step.nodeId) (ins.map Msg.payload)).1 ∧
      (step.taskType ≠ .sink →
        out'.payload = (m.next step.nodeId (view w.st step.nodeId) (ins.map Msg.payload)).2) := by
  have hcall : ∀ (o : Msg P) (s : σ),
      view (callProcess env step ins o s).1 = update (view s) step.nodeId
        (m.next step.nodeId (view s step.nodeId) (ins.map Msg.payload)).1 ∧
      (step.taskType ≠ .sink → sent (callProcess env step ins o s) =
        (m.next step.nodeId (view s step.nodeId) (ins.map Msg.payload)).2) := by
    intro o s
    unfold callProcess
    cases ht : step.taskType with
    | source =>
      rw [hsrc ht]
      exact ⟨(hi.source _ _ _).1, fun _ => (hi.source _ _ _).2⟩
    | regular => exact ⟨(hi.regular _ _ _ _).1, fun _ => (hi.regular _ _ _ _).2⟩
    | sink => exact ⟨hi.sink _ _ _, fun h => absurd rfl h⟩
  unfold processStep
  rw [hi.sim]
  simp only [execProcess, if_true]
  have h0 := hcall (out.setStart (env.now w.st).2) (env.now w.st).1
  rw [hi.now] at h0
  generalize callProcess env step ins (out.setStart (env.now w.st).2) (env.now w.st).1 = r at h0 ⊢
  obtain ⟨s, o, e⟩ := r
  obtain ⟨h1, h2⟩ := h0
  simp only at h1
  cases e with
  | none =>
    simp only [World.emit]
    refine ⟨_, _, rfl, ?_, fun h => ?_⟩
    · simp only [hi.now, h1]
    · rw [← h2 h]; rfl
  | some e =>
    obtain ⟨d1, d2⟩ := hi.ignores step.nodeId e (env.now s).1
    simp only [react, World.emit, d1]
    refine ⟨_, _, rfl, ?_, fun h => ?_⟩
    · simp only [d2, hi.now, h1]
    · rw [← h2 h]; rfl

theorem Implements.behaves {env : Env σ P} {view : σ → Nat → S} {m : Tasks S P} (hi : Implements env view m)
    (plan : List Step) : Behaves Msg.payload plan env view m where
  life ph t w hph := by
    obtain ⟨h1, h2⟩ := hi.life ph t w.st hph
    exact ⟨w.emit (env.life ph t w.st).1 (.called ph t [] none), by simp only [lifeStep, hi.sim, lifeCall, h1], h2⟩
  step step _ ins out w hsrc := implements_step hi step ins out w hsrc
  monCL := hi.monCL
  log := hi.log

theorem mapRs_payload {α : Type} {read : Msg P → Option Q} {f : α → Rs (Msg P)} {h : α → Option Q} :
    ∀ {l : List α}, (∀ a ∈ l, ∃ b, f a = .ok b ∧ read b = h a) →
      ∃ bs, mapRs f l = .ok bs ∧ bs.map read = l.map h := by
  intro l
  induction l with
  | nil => intro _; exact ⟨[], rfl, rfl⟩
  | cons a l ih =>
    intro hl
    obtain ⟨b, h1, h2⟩ := hl a (by simp)
    obtain ⟨bs, h3, h4⟩ := ih (fun a ha => hl a (by simp [ha]))
    exact ⟨b :: bs, by simp only [mapRs, h1, h3], by simp [h2, h4]⟩

/-- The graph, its plan, and the tasks planned. -/
structure Planned (g : Graph) (plan : List Step) : Prop where
  wf : g.WF
  noParallel : g.NoParallel
  types : g.ConsistentTypes
  eq : computePlan g = .ok (some plan)

theorem Planned.ok {g : Graph} {plan : List Step} (h : Planned g plan) : PlanOk g plan := by
  rcases computePlan_cases h.wf with ⟨_, e⟩ | ⟨_, plan', e, hok, _⟩
  · rw [h.eq] at e; cases e
  · rw [h.eq] at e; cases e; exact hok

/-- The process steps, the first `k` being done. -/
theorem plan_view {g : Graph} {plan : List Step} (hp : Planned g plan) {env : Env σ P} {view : σ → Nat → S}
    {m : Tasks S Q} {read : Msg P → Option Q} (hi : Behaves read plan env view m) {x x' : Nat → S} {y : Nat → Option Q}
    (hxy : ∀ t < g.nodes, (x' t, y t) = m.next t (x t) ((g.edges.filter (fun e => e.dst == t)).map (fun e => y e.src)))
    (steps : List Step) :
    ∀ (k : Nat) (w : World σ P) (msgs : List (Msg P)), plan.drop k = steps → msgs.length = plan.length →
      (∀ (j : Nat) (s : Step), plan[j]? = some s → view w.st s.nodeId = if j < k then x' s.nodeId else x s.nodeId) →
      (∀ (j : Nat) (s : Step), plan[j]? = some s → j < k → s.taskType ≠ .sink → ∃ mj : Msg P, msgs[j]? = some mj ∧ read mj = y s.nodeId) →
      ∃ w' msgs', planLoop env steps w msgs = .ok (w', msgs', .next) ∧
        (∀ s ∈ plan, view w'.st s.nodeId = x' s.nodeId) ∧
        (∀ (j : Nat) (s : Step), plan[j]? = some s → s.taskType ≠ .sink → ∃ mj : Msg P, msgs'[j]? = some mj ∧ read mj = y s.nodeId) := by
  induction steps with
  | nil =>
    intro k w msgs hk hlen hv hm
    have hk : plan.length ≤ k := List.drop_eq_nil_iff.1 hk
    refine ⟨w, msgs, rfl, fun s hs => ?_, fun j s hj ht => hm j s hj ?_ ht⟩
    · obtain ⟨j, hj, rfl⟩ := List.getElem_of_mem hs
      rw [hv j _ (List.getElem?_eq_getElem hj), if_pos (by omega)]
    · have := (List.getElem?_eq_some_iff.1 hj).1
      omega
  | cons s steps ih =>
    intro k w msgs hk hlen hv hm
    have hks : plan[k]? = some s := by
      have := congrArg (fun l => l[0]?) hk
      simpa using this
    have hklt := (List.getElem?_eq_some_iff.1 hks).1
    have hdrop : plan.drop (k + 1) = steps := by
      have := congrArg (List.drop 1) hk
      simpa [List.drop_drop, Nat.add_comm] using this
    obtain ⟨ty, hout⟩ := C16_own_slot g hp.wf plan hp.eq k s hks
    have hins := C16_inputs_ordered_partial g hp.wf hp.noParallel hp.types plan hp.eq k s hks
    obtain ⟨_, _, hlt, htt, _, _⟩ := hp.ok.get hks
    have hnodup := ((C13_each_task_once g hp.wf).2 plan hp.eq).1
    -- the inputs
    have hread : ∃ ins, mapRs (fun i => Rs.ofOption msgs[i.1]?) s.inputs = .ok ins ∧
        ins.map read = (g.edges.filter (fun e => e.dst == s.nodeId)).map (fun e => y e.src) := by
      rw [hins]
      have : ∀ l : List Edge, (∀ e ∈ l, e ∈ g.edges ∧ e.dst = s.nodeId) →
          ∃ ins, mapRs (fun i : Nat × String => Rs.ofOption msgs[i.1]?)
            (l.map (fun e => ((plan.map Step.nodeId).idxOf e.src, e.msg))) = .ok ins ∧
            ins.map read = l.map (fun e => y e.src) := by
        intro l
        induction l with
        | nil => intro _; exact ⟨[], rfl, rfl⟩
        | cons e l ihl =>
          intro hl
          obtain ⟨he, hd⟩ := hl e (by simp)
          obtain ⟨ins, h1, h2⟩ := ihl (fun e he => hl e (by simp [he]))
          obtain ⟨j, sj, hjk, hj, hsj⟩ := C14_producers_first g hp.wf plan hp.eq k s hks e he hd
          have hidx : (plan.map Step.nodeId).idxOf e.src = j := by
            have hj' : (plan.map Step.nodeId)[j]? = some e.src := by simp [hj, hsj]
            obtain ⟨hjl, hje⟩ := List.getElem?_eq_some_iff.1 hj'
            rw [← hje]
            exact List.Nodup.idxOf_getElem hnodup j hjl
          have hns : sj.taskType ≠ .sink := by
            rw [(hp.ok.get hj).2.2.2.1]
            unfold taskType
            split
            · simp
            · split
              · rename_i hz
                have : e.dst ∈ g.outgoing sj.nodeId := by
                  unfold Graph.outgoing
                  rw [List.mem_map]
                  exact ⟨e, by simp [he, hsj], rfl⟩
                rw [List.length_eq_zero_iff.1 hz] at this
                cases this
              · simp
          obtain ⟨mj, hmj, hpj⟩ := hm j sj hj hjk hns
          refine ⟨mj :: ins, ?_, ?_⟩
          · rw [List.map_cons, mapRs, h1]
            simp only [hidx, hmj, Rs.ofOption]
          · simp [h2, hpj, hsj]
      exact this _ (fun e he => ⟨(List.mem_filter.1 he).1, by simpa using (List.mem_filter.1 he).2⟩)
    obtain ⟨ins, hr1, hr2⟩ := hread
    have hget : msgs[k]? = some (msgs[k]'(by omega)) := List.getElem?_eq_getElem _
    have hsrc : s.taskType = .source → ins = [] := by
      intro ht
      rw [htt] at ht
      have hin : g.incoming s.nodeId = [] := by
        unfold taskType at ht
        split at ht
        · rename_i hz; exact List.length_eq_zero_iff.1 hz
        · split at ht <;> cases ht
      have hf : g.edges.filter (fun e => e.dst == s.nodeId) = [] := by
        unfold Graph.incoming at hin
        simpa using hin
      rw [hf] at hr2
      simpa using hr2
    obtain ⟨w1, o1, e1, e2, e3⟩ := hi.step s (List.mem_of_getElem? hks) ins (msgs[k]'(by omega)) w hsrc
    have hx := hxy s.nodeId hlt
    have hvk := hv k s hks
    rw [if_neg (Nat.lt_irrefl k)] at hvk
    rw [hvk, hr2, ← hx] at e2 e3
    simp only at e2 e3
    obtain ⟨w', msgs', f1, f2, f3⟩ := ih (k + 1) w1 (msgs.set k o1) hdrop (by simpa using hlen)
      (by
        intro j sj hj
        rw [e2]
        unfold update
        by_cases hjk : j = k
        · subst hjk
          rw [hks] at hj
          cases hj
          simp
        · have hne : sj.nodeId ≠ s.nodeId := by
            intro he
            apply hjk
            have a1 : (plan.map Step.nodeId)[j]? = some s.nodeId := by simp [hj, he]
            have a2 : (plan.map Step.nodeId)[k]? = some s.nodeId := by simp [hks]
            obtain ⟨b1, b2⟩ := List.getElem?_eq_some_iff.1 a1
            obtain ⟨c1, c2⟩ := List.getElem?_eq_some_iff.1 a2
            exact (List.getElem_inj hnodup).1 (b2.trans c2.symm)
          rw [if_neg hne, hv j sj hj]
          by_cases hlt : j < k
          · rw [if_pos hlt, if_pos (by omega)]
          · rw [if_neg hlt, if_neg (by omega)])
      (by
        intro j sj hj hjk ht
        by_cases he : j = k
        · subst he
          rw [hks] at hj
          cases hj
          exact ⟨o1, by rw [List.getElem?_set_self (by omega)], e3 ht⟩
        · obtain ⟨mj, a, b⟩ := hm j sj hj (by omega) ht
          exact ⟨mj, by rw [List.getElem?_set_ne (Ne.symm he)]; exact a, b⟩)
    refine ⟨w', msgs', ?_, f2, f3⟩
    rw [planLoop, hout]
    simp only
    rw [hr1, hget]
    simp only [e1]
    exact f1

theorem eopLoop_view {log : Logger σ (List (Msg P))} {view : σ → Nat → S}
    (hlog : ∀ f, log = some f → ∀ s cl s', f s cl = .ok s' → view s' = view s) {id : UInt32}
    (l : List (CL (List (Msg P)))) :
    ∀ (w : World σ P) (b : Bool) (nb : Nat) {w' : World σ P} {nb' : Nat} {out : List (CL (List (Msg P)))},
      eopLoop (tracedLog log) id w b nb l = .ok (w', nb', out) → view w'.st = view w.st := by
  induction l with
  | nil =>
    intro w b nb w' nb' out h
    simp only [eopLoop, Rs.ok.injEq, Prod.mk.injEq] at h
    rw [h.1]
  | cons c l ih =>
    intro w b nb w' nb' out h
    rw [eopLoop] at h
    split at h
    · cases h
    · rename_i s1 b1 n1 c1 hv
      split at h
      · cases h
      · rename_i s2 n2 c2 h2
        simp only [Rs.ok.injEq, Prod.mk.injEq] at h
        obtain ⟨rfl, -, -⟩ := h
        rw [ih _ _ _ h2]
        unfold eopVisit at hv
        simp only at hv
        generalize (if c.id = id ∧ c.state = .processing then { c with state := .doneProcessing } else c) = d at hv
        split at hv
        · cases log with
          | none =>
            simp only [tracedLog, Option.map_none, Rs.ok.injEq, Prod.mk.injEq] at hv
            rw [hv.1]
          | some f =>
            simp only [tracedLog, Option.map_some] at hv
            split at hv
            · cases hv
            · rename_i q hq
              split at hq
              · cases hq
              · rename_i st hst
                simp only [Rs.ok.injEq] at hq
                simp only [Rs.ok.injEq, Prod.mk.injEq] at hv
                rw [← hv.1, ← hq]
                exact hlog f rfl _ _ _ hst
        · simp only [Rs.ok.injEq, Prod.mk.injEq] at hv
          rw [hv.1]

theorem end_view {log : Logger σ (List (Msg P))} {view : σ → Nat → S}
    (hlog : ∀ f, log = some f → ∀ s cl s', f s cl = .ok s' → view s' = view s) {id : UInt32}
    {m m' : Manager (List (Msg P))} {w w' : World σ P}
    (h : endOfProcessing (tracedLog log) w m id = .ok (w', m')) : view w'.st = view w.st := by
  unfold endOfProcessing at h
  split at h
  · cases h
  · split at h
    · cases h
    · rename_i s1 nb out h1
      simp only at h
      split at h
      · cases h
      · simp only [Rs.ok.injEq, Prod.mk.injEq] at h
        rw [← h.1]
        exact eopLoop_view hlog _ _ _ _ h1

theorem finish_view {app : App σ P} {view : σ → Nat → S} {m : Tasks S Q} {read : Msg P → Option Q} (hi : Behaves read app.plan app.env view m)
    {id : UInt32} {msgs : List (Msg P)} {rt rt' : Rt σ P} (h : finishList app id msgs rt = .ok (rt', none)) :
    view rt'.w.st = view rt.w.st := by
  unfold finishList at h
  split at h
  · cases h
  · simp only at h
    split at h
    · simp at h
    · split at h
      · cases h
      · rename_i w' mgr' he
        simp only [Rs.ok.injEq, Prod.mk.injEq, and_true] at h
        rw [← h]
        simp only
        rw [end_view hi.log he]
        exact hi.monCL _ _

/-- One iteration. -/
theorem iteration_view {g : Graph} {app : App σ P} (hp : Planned g app.plan) {view : σ → Nat → S} {m : Tasks S Q} {read : Msg P → Option Q}
    (hi : Behaves read app.plan app.env view m) {x x' : Nat → S} {y : Nat → Option Q}
    (hxy : ∀ t < g.nodes, (x' t, y t) = m.next t (x t) ((g.edges.filter (fun e => e.dst == t)).map (fun e => y e.src)))
    {rt rt' : Rt σ P} (hidle : Idle app.plan.length rt.mgr) (h : runOneIteration app rt = .ok (rt', none))
    (hv : ∀ s ∈ app.plan, view rt.w.st s.nodeId = x s.nodeId) :
    (∀ s ∈ app.plan, view rt'.w.st s.nodeId = x' s.nodeId) ∧ Idle app.plan.length rt'.mgr ∧
    rt'.mgr.currentClId = rt.mgr.currentClId + 1 ∧
    ∃ t msgs, rt'.w.trace = rt.w.trace ++ t ∧
      loggedLists t = (if app.env.log.isSome then [⟨rt.mgr.currentClId, .beingSerialized, msgs⟩] else []) ∧
      ∀ (j : Nat) (s : Step), app.plan[j]? = some s → s.taskType ≠ .sink →
        ∃ mj : Msg P, msgs[j]? = some mj ∧ read mj = y s.nodeId := by
  obtain ⟨c, hc1, hc2⟩ := lifeAll_trace app.env .preprocess (List.range app.tasks) rt.w
  obtain ⟨w0, l1, l2⟩ := lifeAll_view hi (.inl rfl) (List.range app.tasks) rt.w
  unfold runOneIteration at h
  rw [l1] at h hc1 hc2
  simp only at h hc1 hc2
  by_cases hid : rt.mgr.currentClId ≠ 0xFFFFFFFF ∨ app.overflow = .wrapping
  case neg =>
    exfalso
    have hid' : rt.mgr.currentClId = 0xFFFFFFFF ∧ app.overflow = .checked := by
      refine ⟨Classical.byContradiction (fun h => hid (.inl h)), ?_⟩
      cases ho : app.overflow with
      | checked => rfl
      | wrapping => exact absurd (.inr ho) hid
    have hpan : rt.mgr.create app.overflow = .panic ∨
        ∃ m, rt.mgr.create app.overflow = .ok (m, none) := by
      unfold Manager.create
      split
      · exact .inr ⟨_, rfl⟩
      · split
        · exact .inl rfl
        · first
            | exact .inl rfl
            | exact .inl (if_pos hid')
            | (rename_i hne; exact absurd hid' hne)
    rcases hpan with hp | ⟨m, hp⟩
    · rw [hp] at h; cases h
    · rw [hp] at h; cases h
  obtain ⟨m1, cl, hcr, hcl, hclid, hcll, hwr⟩ := idle_create hidle hid
  rw [hcr] at h
  simp only [hcl] at h
  obtain ⟨w2, msgs, p1, p2, p3⟩ := plan_view hp hi hxy app.plan 0 (w0.emit w0.st (.created cl.id)) cl.msgs
    rfl hcll
    (by
      intro j s hj
      rw [if_neg (by omega)]
      show view w0.st s.nodeId = _
      rw [l2]
      exact hv s (List.mem_of_getElem? hj))
    (by intro j s _ hj; omega)
  rw [p1] at h
  simp only at h
  obtain ⟨c2, q1, q2⟩ := planLoop_trace _ _ _ _ p1
  have hml : msgs.length = app.plan.length := by rw [q2.length, hcll]
  obtain ⟨hb, -, hnid⟩ := hwr msgs hml
  split at h
  · cases h
  · split at h
    · cases h
    · split at h
      · cases h
      · simp at h
      · rename_i rt1 hfin
        obtain ⟨c4, k1, k2⟩ := lifeAll_trace app.env .postprocess (List.range app.tasks) rt1.w
        obtain ⟨w4, l3, l4⟩ := lifeAll_view hi (.inr rfl) (List.range app.tasks) rt1.w
        rw [l3] at h k1 k2
        simp only [Rs.ok.injEq, Prod.mk.injEq, and_true] at h k1 k2
        subst h
        have hfv := finish_view hi hfin
        rw [hclid] at hfin
        obtain ⟨f1, -, f3, c3, f4, -, -, -, f7⟩ := finish_pool app hb hfin
        refine ⟨fun s hs => ?_, f1, by rw [f3, hnid], c ++ [.created cl.id] ++ c2 ++ c3 ++ c4, msgs, ?_, ?_, p3⟩
        · show view w4.st s.nodeId = _
          rw [l4, hfv]
          exact p2 s hs
        · show w4.trace = _
          rw [k1, f4]
          simp only
          rw [q1]
          simp [World.emit, hc1]
        · have hl2 : loggedLists [Ev.created (P := P) cl.id] = [] := rfl
          simp only [loggedLists_append, (quiet_of_task hc2.ofTask).1, (quiet_of_task q2.ofTask).1, hl2, f7,
            (quiet_of_task k2.ofTask).1]
          simp

/-- The iteration ends well if it does not panic and the monitor reports no error. -/
theorem iteration_none {g : Graph} {app : App σ P} (hp : Planned g app.plan) {view : σ → Nat → S} {m : Tasks S Q} {read : Msg P → Option Q}
    (hi : Behaves read app.plan app.env view m) {x x' : Nat → S} {y : Nat → Option Q}
    (hxy : ∀ t < g.nodes, (x' t, y t) = m.next t (x t) ((g.edges.filter (fun e => e.dst == t)).map (fun e => y e.src)))
    (hmon : ∀ md s, (app.env.monCL md s).2 = none)
    {rt rt' : Rt σ P} {e : Option Err} (hidle : Idle app.plan.length rt.mgr)
    (hid : rt.mgr.currentClId ≠ 0xFFFFFFFF ∨ app.overflow = .wrapping) (h : runOneIteration app rt = .ok (rt', e))
    (hv : ∀ s ∈ app.plan, view rt.w.st s.nodeId = x s.nodeId) : e = none := by
  obtain ⟨w0, l1, l2⟩ := lifeAll_view hi (.inl rfl) (List.range app.tasks) rt.w
  unfold runOneIteration at h
  rw [l1] at h
  simp only at h
  obtain ⟨m1, cl, hcr, hcl, hclid, hcll, hwr⟩ := idle_create hidle hid
  rw [hcr] at h
  simp only [hcl] at h
  obtain ⟨w2, msgs, p1, p2, p3⟩ := plan_view hp hi hxy app.plan 0 (w0.emit w0.st (.created cl.id)) cl.msgs
    rfl hcll
    (by
      intro j s hj
      rw [if_neg (by omega)]
      show view w0.st s.nodeId = _
      rw [l2]
      exact hv s (List.mem_of_getElem? hj))
    (by intro j s _ hj; omega)
  rw [p1] at h
  simp only at h
  split at h
  · cases h
  · split at h
    · cases h
    · split at h
      · cases h
      · rename_i rt1 e1 hfin
        unfold finishList at hfin
        split at hfin
        · cases hfin
        · simp only [hmon] at hfin
          split at hfin
          · cases hfin
          · simp at hfin
      · rename_i rt1 hfin
        obtain ⟨w4, l3, l4⟩ := lifeAll_view hi (.inr rfl) (List.range app.tasks) rt1.w
        rw [l3] at h
        simp only [Rs.ok.injEq, Prod.mk.injEq] at h
        exact h.2.symm

theorem loop_total {g : Graph} (ha : g.Acyclic) (hn : 0 < g.nodes) {app : App σ P} (hp : Planned g app.plan)
    {view : σ → Nat → S} {m : Tasks S Q} {read : Msg P → Option Q}
    (hi : Behaves read app.plan app.env view m) {x : Nat → Nat → S} {y : Nat → Nat → Option Q} (hs : Solution g m x y)
    (hmon : ∀ md s, (app.env.monCL md s).2 = none) (hdecl : ProducersFirst g ∨ app.overflow = .wrapping)
    (T : σ → Nat) (hc : MonotoneClock app.env T) (hk : KeepsStart app.env) (hlog : LogAccepts app.env.log) (n : Nat) :
    ∀ (k : Nat) (rt : Rt σ P), Idle app.plan.length rt.mgr →
      (rt.mgr.currentClId.toNat + n ≤ 0xFFFFFFFF ∨ app.overflow = .wrapping) →
      (∀ s ∈ app.plan, view rt.w.st s.nodeId = x k s.nodeId) → ∃ rt', runLoop app n rt = .ok (rt', none) := by
  induction n with
  | zero => intro k rt _ _ _; exact ⟨rt, rfl⟩
  | succ n ih =>
    intro k rt hidle hid hv
    have hid' : rt.mgr.currentClId ≠ 0xFFFFFFFF ∨ app.overflow = .wrapping := by
      rcases hid with h | h
      · left
        intro h1
        rw [h1] at h
        have : (0xFFFFFFFF : UInt32).toNat = 0xFFFFFFFF := rfl
        omega
      · exact .inr h
    obtain ⟨⟨rt1, e⟩, h1⟩ := C52_no_panic_partial g hp.wf ha hn app hp.eq hdecl T hc hk hlog rt hidle hid'
    have he := iteration_none hp hi (hs.turn k) hmon hidle hid' h1 hv
    subst he
    obtain ⟨a1, a2, a3, -⟩ := iteration_view hp hi (hs.turn k) hidle h1 hv
    simp only [runLoop, h1]
    refine ih (k + 1) rt1 a2 ?_ a1
    rcases hid with h | h
    · left
      rw [a3]
      have := UInt32.toNat_add rt.mgr.currentClId 1
      have h4 : (1 : UInt32).toNat = 1 := rfl
      rw [this, h4]
      omega
    · exact .inr h

/-- Any number of iterations. -/
theorem loop_view {g : Graph} {app : App σ P} (hp : Planned g app.plan) {view : σ → Nat → S} {m : Tasks S Q} {read : Msg P → Option Q}
    (hi : Behaves read app.plan app.env view m) {x : Nat → Nat → S} {y : Nat → Nat → Option Q} (hs : Solution g m x y)
    (hlog : app.env.log.isSome = true) (n : Nat) :
    ∀ (k : Nat) (rt rt' : Rt σ P), Idle app.plan.length rt.mgr → runLoop app n rt = .ok (rt', none) →
      (∀ s ∈ app.plan, view rt.w.st s.nodeId = x k s.nodeId) →
      (∀ s ∈ app.plan, view rt'.w.st s.nodeId = x (k + n) s.nodeId) ∧
      ∃ lists, loggedLists rt'.w.trace = loggedLists rt.w.trace ++ lists ∧ lists.length = n ∧
        ∀ (i : Nat) (cl : CL (List (Msg P))), lists[i]? = some cl → ∀ (j : Nat) (s : Step),
          app.plan[j]? = some s → s.taskType ≠ .sink →
          ∃ mj : Msg P, cl.msgs[j]? = some mj ∧ read mj = y (k + i) s.nodeId := by
  induction n with
  | zero =>
    intro k rt rt' _ h hv
    simp only [runLoop, Rs.ok.injEq, Prod.mk.injEq, and_true] at h
    subst h
    exact ⟨hv, [], by simp, rfl, by intro i cl hl; simp at hl⟩
  | succ n ih =>
    intro k rt rt' hidle h hv
    rw [runLoop] at h
    split at h
    · cases h
    · simp at h
    · rename_i rt1 h1
      obtain ⟨a1, a2, -, t, msgs, a3, a4, a5⟩ := iteration_view hp hi (hs.turn k) hidle h1 hv
      obtain ⟨b1, lists, b2, b3, b4⟩ := ih (k + 1) rt1 rt' a2 h a1
      refine ⟨by rw [show k + (n + 1) = k + 1 + n by omega]; exact b1,
        ⟨rt.mgr.currentClId, .beingSerialized, msgs⟩ :: lists, ?_, by simp [b3], ?_⟩
      · rw [b2, a3, loggedLists_append, a4, if_pos hlog]
        simp
      · intro i cl hl
        cases i with
        | zero =>
          simp only [List.getElem?_cons_zero, Option.some.injEq] at hl
          subst hl
          exact a5
        | succ i =>
          simp only [List.getElem?_cons_succ] at hl
          intro j s hj ht
          obtain ⟨mj, e1, e2⟩ := b4 i cl hl j s hj ht
          exact ⟨mj, e1, by rw [e2]; congr 1; omega⟩

end Dataflow
end Verif
