import Verif.Proofs.Dataflow
/-!
C89: an application computes what its configuration describes.
-/
namespace Verif
namespace Dataflow
open Clock CopperList Planner Verif.Runtime
variable {σ S P Q : Type}

/-- A configuration without cycles determines what every task sends in every turn. -/
theorem C89_meaning {g : Graph} (hg : g.WF) (ha : g.Acyclic) (m : Tasks S P) :
    (∃ x y, Solution g m x y) ∧
    ∀ x y x' y', Solution g m x y → Solution g m x' y' → ∀ n, ∀ t < g.nodes, x n t = x' n t ∧ y n t = y' n t :=
  ⟨exists_solution ha m, fun _ _ _ _ h h' n => solution_unique hg ha h h' n⟩

theorem behaves_run {g : Graph} (hg : g.WF) (ha : g.Acyclic) (hpar : g.NoParallel) (hty : g.ConsistentTypes)
    {app : App σ P} (hp : computePlan g = .ok (some app.plan)) {view : σ → Nat → S} {m : Tasks S Q} {read : Msg P → Option Q}
    (hi : Behaves read app.plan app.env view m) (hlog : app.env.log.isSome = true) {x : Nat → Nat → S} {y : Nat → Nat → Option Q}
    (hs : Solution g m x y) {rt rt' : Rt σ P} (hidle : Idle app.plan.length rt.mgr)
    (hinit : ∀ t < g.nodes, view rt.w.st t = m.init t) {n : Nat} (h : runLoop app n rt = .ok (rt', none)) :
    (∀ t < g.nodes, view rt'.w.st t = x n t) ∧
    ∃ lists, loggedLists rt'.w.trace = loggedLists rt.w.trace ++ lists ∧ lists.length = n ∧
      ∀ (i : Nat) (cl : CL (List (Msg P))), lists[i]? = some cl →
        ∀ e ∈ g.edges, sentBy read app.plan e.src cl = some (y i e.src) := by
  have hpl : Planned g app.plan := ⟨hg, hpar, hty, hp⟩
  have hni : ¬ ∃ v, g.Isolated v := by
    rcases computePlan_cases hg with ⟨_, e⟩ | ⟨h, _⟩
    · rw [hp] at e; cases e
    · exact h
  obtain ⟨plan', hp', hall⟩ := C15_complete g hg ha hni
  rw [hp] at hp'
  cases hp'
  obtain ⟨a1, lists, a2, a3, a4⟩ := loop_view hpl hi hs hlog n 0 rt rt' hidle h (by
    intro s hs'
    have hlt := ((C13_each_task_once g hg).2 _ hp).2 s.nodeId (List.mem_map.2 ⟨s, hs', rfl⟩)
    rw [hinit _ hlt, hs.init _ hlt])
  refine ⟨fun t ht => ?_, lists, a2, a3, fun i cl hcl e he => ?_⟩
  · obtain ⟨s, hs', rfl⟩ := List.mem_map.1 (hall t ht)
    rw [a1 s hs', Nat.zero_add]
  · obtain ⟨s, hs1, hs2⟩ := PlanOk.getElem_idxOf (plan := app.plan) (hall e.src (hg e he).1)
    have hns : s.taskType ≠ .sink := by
      rw [(hpl.ok.get hs1).2.2.2.1, hs2]
      unfold taskType
      split
      · simp
      · split
        · rename_i hz
          have : e.dst ∈ g.outgoing e.src := by
            unfold Graph.outgoing
            rw [List.mem_map]
            exact ⟨e, by simp [he], rfl⟩
          rw [List.length_eq_zero_iff.1 hz] at this
          cases this
        · simp
    obtain ⟨mj, b1, b2⟩ := a4 i cl hcl _ s hs1 hns
    rw [sentBy]
    unfold ids at b1
    rw [b1, Option.map_some, b2, hs2, Nat.zero_add]

/-- And the application sends just that: after `n` turns every task is in the state the configuration says, and the
log has `n` more lists, in each of which every task that sends anything has left what the configuration says. -/
theorem C89_run_partial {g : Graph} (hg : g.WF) (ha : g.Acyclic) (hpar : g.NoParallel) (hty : g.ConsistentTypes)
    {app : App σ P} (hp : computePlan g = .ok (some app.plan)) {view : σ → Nat → S} {m : Tasks S P}
    (hi : Implements app.env view m) (hlog : app.env.log.isSome = true) {x : Nat → Nat → S} {y : Nat → Nat → Option P}
    (hs : Solution g m x y) {rt rt' : Rt σ P} (hidle : Idle app.plan.length rt.mgr)
    (hinit : ∀ t < g.nodes, view rt.w.st t = m.init t) {n : Nat} (h : runLoop app n rt = .ok (rt', none)) :
    (∀ t < g.nodes, view rt'.w.st t = x n t) ∧
    ∃ lists, loggedLists rt'.w.trace = loggedLists rt.w.trace ++ lists ∧ lists.length = n ∧
      ∀ (i : Nat) (cl : CL (List (Msg P))), lists[i]? = some cl →
        ∀ e ∈ g.edges, payloadOf app.plan e.src cl = some (y i e.src) :=
  behaves_run hg ha hpar hty hp (hi.behaves _) hlog hs hidle hinit h

/-- It does run: if the tasks are declared producers first, or the build does not check for overflow, the clock does
not go back, the log takes the lists and the monitor does not complain, there are as many turns as there are ids. -/
theorem C89_total_partial {g : Graph} (hg : g.WF) (ha : g.Acyclic) (hn : 0 < g.nodes) (hpar : g.NoParallel)
    (hty : g.ConsistentTypes) {app : App σ P} (hp : computePlan g = .ok (some app.plan)) {view : σ → Nat → S}
    {m : Tasks S P} (hi : Implements app.env view m) (hmon : ∀ md s, (app.env.monCL md s).2 = none)
    (hdecl : (∀ e ∈ g.edges, e.src < e.dst) ∨ app.overflow = .wrapping) {T : σ → Nat} (hc : MonotoneClock app.env T)
    (hk : KeepsStart app.env) (hlog : LogAccepts app.env.log) {rt : Rt σ P} (hidle : Idle app.plan.length rt.mgr)
    (hinit : ∀ t < g.nodes, view rt.w.st t = m.init t) {n : Nat}
    (hid : rt.mgr.currentClId.toNat + n ≤ 0xFFFFFFFF ∨ app.overflow = .wrapping) :
    ∃ rt', runLoop app n rt = .ok (rt', none) := by
  obtain ⟨x, y, hs⟩ := exists_solution ha m
  refine loop_total ha hn ⟨hg, hpar, hty, hp⟩ (hi.behaves _) hs hmon hdecl T hc hk hlog n 0 rt hidle hid ?_
  intro s hs'
  have hlt := ((C13_each_task_once g hg).2 _ hp).2 s.nodeId (List.mem_map.2 ⟨s, hs', rfl⟩)
  rw [hinit _ hlt, hs.init _ hlt]

/-- The order in which the tasks and the connections are written in the configuration does not matter, as long as
those into each task stay in their order: what the two applications compute and log is the same. -/
theorem C89_order_partial {σ' : Type} {g g' : Graph} (hg : g.WF) (ha : g.Acyclic) (hpar : g.NoParallel)
    (hty : g.ConsistentTypes) (hg' : g'.WF) (ha' : g'.Acyclic) (hpar' : g'.NoParallel) (hty' : g'.ConsistentTypes)
    {m m' : Tasks S P} {p : Nat → Nat} (hr : Rearranged g g' m m' p)
    {app : App σ P} {app' : App σ' P} (hp : computePlan g = .ok (some app.plan))
    (hp' : computePlan g' = .ok (some app'.plan)) {view : σ → Nat → S} {view' : σ' → Nat → S}
    (hi : Implements app.env view m) (hi' : Implements app'.env view' m') (hlog : app.env.log.isSome = true)
    (hlog' : app'.env.log.isSome = true) {rt rt1 : Rt σ P} {rt' rt1' : Rt σ' P}
    (hidle : Idle app.plan.length rt.mgr) (hidle' : Idle app'.plan.length rt'.mgr)
    (hinit : ∀ t < g.nodes, view rt.w.st t = m.init t) (hinit' : ∀ t < g'.nodes, view' rt'.w.st t = m'.init t)
    {n : Nat} (h : runLoop app n rt = .ok (rt1, none)) (h' : runLoop app' n rt' = .ok (rt1', none)) :
    (∀ t < g.nodes, view rt1.w.st t = view' rt1'.w.st (p t)) ∧
    ∃ lists lists', loggedLists rt1.w.trace = loggedLists rt.w.trace ++ lists ∧
      loggedLists rt1'.w.trace = loggedLists rt'.w.trace ++ lists' ∧ lists.length = n ∧ lists'.length = n ∧
      ∀ (i : Nat) (cl cl' : CL (List (Msg P))), lists[i]? = some cl → lists'[i]? = some cl' →
        ∀ e ∈ g.edges, payloadOf app.plan e.src cl = payloadOf app'.plan (p e.src) cl' := by
  obtain ⟨x', y', hs'⟩ := exists_solution ha' m'
  have hs := rearranged_solution hr hs'
  obtain ⟨a1, lists, a2, a3, a4⟩ := C89_run_partial hg ha hpar hty hp hi hlog hs hidle hinit h
  obtain ⟨b1, lists', b2, b3, b4⟩ := C89_run_partial hg' ha' hpar' hty' hp' hi' hlog' hs' hidle' hinit' h'
  refine ⟨fun t ht => ?_, lists, lists', a2, b2, a3, b3, fun i cl cl' hl hl' e he => ?_⟩
  · rw [a1 t ht, b1 (p t) (by rw [hr.nodes]; exact hr.lt t ht)]
  · rw [a4 i cl hl e he]
    have hd := (hg e he).2
    have : p e.src ∈ (g'.edges.filter (fun e' => e'.dst == p e.dst)).map Edge.src := by
      rw [hr.edges e.dst hd]
      exact List.mem_map.2 ⟨e, by simp [he], rfl⟩
    obtain ⟨e', he', hse⟩ := List.mem_map.1 this
    have := b4 i cl' hl' e' (List.mem_filter.1 he').1
    rw [hse] at this
    exact this.symm

/-- A task has an influence on those its messages lead to, and on no other: when another task takes its place, what
every task sends that is not behind it is the same. -/
theorem C89_influence {g : Graph} (hg : g.WF) (ha : g.Acyclic) {m m' : Tasks S P} (u : Nat)
    (hm : ∀ t, t ≠ u → m'.init t = m.init t ∧ m'.next t = m.next t) {x x' : Nat → Nat → S}
    {y y' : Nat → Nat → Option P} (hs : Solution g m x y) (hs' : Solution g m' x' y') (n : Nat) :
    ∀ t < g.nodes, ¬ Reaches g u t → x n t = x' n t ∧ y n t = y' n t := by
  obtain ⟨rank, hr⟩ := ha
  have hup : ∀ e ∈ g.edges, ¬ Reaches g u e.dst → ¬ Reaches g u e.src := fun e he h h' => h (.step h' he)
  have hne : ∀ t, ¬ Reaches g u t → t ≠ u := by
    rintro t h rfl
    exact h .self
  have hin : ∀ n t, (∀ e ∈ g.edges, e.dst = t → y n e.src = y' n e.src) →
      (g.edges.filter (fun e => e.dst == t)).map (fun e => y n e.src) =
        (g.edges.filter (fun e => e.dst == t)).map (fun e => y' n e.src) := by
    intro n t h
    apply List.map_congr_left
    intro e he
    obtain ⟨he, hd⟩ := List.mem_filter.1 he
    exact h e he (by simpa using hd)
  have hy : ∀ n, (∀ t < g.nodes, ¬ Reaches g u t → x n t = x' n t) →
      ∀ k, ∀ t < g.nodes, rank t < k → ¬ Reaches g u t → y n t = y' n t := by
    intro n hx k
    induction k with
    | zero => intro t _ h; omega
    | succ k ih =>
      intro t ht hk hn
      have e1 := hs.turn n t ht
      have e2 := hs'.turn n t ht
      rw [(hm t (hne t hn)).2] at e2
      rw [hx t ht hn, hin n t (fun e he hd => by
        subst hd
        have := hr e he
        exact ih e.src (hg e he).1 (by omega) (hup e he hn)), ← e2] at e1
      exact congrArg Prod.snd e1
  have hx : ∀ n, ∀ t < g.nodes, ¬ Reaches g u t → x n t = x' n t := by
    intro n
    induction n with
    | zero => intro t ht hn; rw [hs.init t ht, hs'.init t ht, (hm t (hne t hn)).1]
    | succ n ih =>
      intro t ht hn
      have e1 := hs.turn n t ht
      have e2 := hs'.turn n t ht
      rw [(hm t (hne t hn)).2] at e2
      rw [ih t ht hn, hin n t (fun e he hd => by
        subst hd
        exact hy n ih _ e.src (hg e he).1 (Nat.lt_succ_self _) (hup e he hn)), ← e2] at e1
      exact congrArg Prod.fst e1
  intro t ht hn
  exact ⟨hx n t ht hn, hy n (hx n) _ t ht (Nat.lt_succ_self _) hn⟩

/-! ### Two connections between the same tasks -/

/-- Tasks that send the name they have, and one that keeps what it receives. -/
def names : Tasks (List (Option Nat)) Nat := ⟨fun _ => [], fun t _ ins => (ins, some t)⟩

/-- The runtime of such machines: the state, and the clock. -/
def host (m : Tasks S P) : Env ((Nat → S) × Nat) P where
  now s := ((s.1, s.2 + 1), ⟨UInt64.ofNat s.2⟩)
  life _ _ s := (s, none)
  source t out s := let r := m.next t (s.1 t) []; ((update s.1 t r.1, s.2), { out with payload := r.2 }, none)
  regular t ins out s :=
    let r := m.next t (s.1 t) (ins.map Msg.payload); ((update s.1 t r.1, s.2), { out with payload := r.2 }, none)
  sink t ins s := ((update s.1 t (m.next t (s.1 t) (ins.map Msg.payload)).1, s.2), none)
  onError _ _ _ s := (s, .ignore)
  monCL _ s := (s, none)
  monStart s := (s, none)
  monStop s := (s, none)
  log := some (fun s _ => .ok s)
  sim := none

theorem host_implements (m : Tasks S P) : Implements (host m) Prod.fst m where
  sim := rfl
  now _ := rfl
  life _ _ _ _ := ⟨rfl, rfl⟩
  source _ _ _ := ⟨rfl, rfl⟩
  regular _ _ _ _ := ⟨rfl, rfl⟩
  sink _ _ _ := rfl
  ignores _ _ _ := ⟨rfl, rfl⟩
  monCL _ _ := rfl
  log f hf s cl s' h := by cases hf; cases h; rfl

/-- An application of these machines. -/
def hosted (g : Graph) (m : Tasks S P) : App ((Nat → S) × Nat) P :=
  ⟨g.nodes, match computePlan g with | .ok (some p) => p | _ => [], host m, .checked⟩

def hostedStart (g : Graph) (m : Tasks S P) : Rt ((Nat → S) × Nat) P :=
  ⟨⟨(m.init, 0), []⟩, Manager.new 2 (List.replicate g.nodes (Msg.new none))⟩

/-- With two connections between the same tasks, and one from another between them, a task receives its messages
in another order than that of its connections: here it is given those of 1, 0 and 0, where the connections say
0, 1 and 0. -/
theorem C89_run_violated : ∃ g : Graph, g.WF ∧ g.Acyclic ∧ g.ConsistentTypes ∧
    computePlan g = .ok (some (hosted g names).plan) ∧ Idle (hosted g names).plan.length (hostedStart g names).mgr ∧
    (∀ x y, Solution g names x y → x 1 2 = [some 0, some 1, some 0]) ∧
    ∃ rt', runLoop (hosted g names) 1 (hostedStart g names) = .ok (rt', none) ∧
      rt'.w.st.1 2 = [some 1, some 0, some 0] := by
  refine ⟨⟨3, [⟨0, 2, "a"⟩, ⟨1, 2, "b"⟩, ⟨0, 2, "a"⟩]⟩, by decide, ⟨id, by decide⟩, by decide, by decide +kernel,
    ⟨rfl, rfl, by decide, by decide, by decide +kernel⟩, ?_, ?_⟩
  · intro x y hs
    have h0 := congrArg Prod.snd (hs.turn 0 0 (by decide))
    have h1 := congrArg Prod.snd (hs.turn 0 1 (by decide))
    have h2 := congrArg Prod.fst (hs.turn 0 2 (by decide))
    simp only [names] at h0 h1 h2
    rw [h2]
    simp [h0, h1]
  · have : ((runLoop (hosted ⟨3, [⟨0, 2, "a"⟩, ⟨1, 2, "b"⟩, ⟨0, 2, "a"⟩]⟩ names) 1
        (hostedStart ⟨3, [⟨0, 2, "a"⟩, ⟨1, 2, "b"⟩, ⟨0, 2, "a"⟩]⟩ names)).map' (fun r => (r.2, r.1.w.st.1 2))) =
        .ok (none, [some 1, some 0, some 0]) := by decide +kernel
    generalize runLoop (hosted ⟨3, [⟨0, 2, "a"⟩, ⟨1, 2, "b"⟩, ⟨0, 2, "a"⟩]⟩ names) 1
        (hostedStart ⟨3, [⟨0, 2, "a"⟩, ⟨1, 2, "b"⟩, ⟨0, 2, "a"⟩]⟩ names) = r at this
    rcases r with ⟨rt', e⟩ | _
    · simp only [Rs.map', Rs.ok.injEq, Prod.mk.injEq] at this
      obtain ⟨rfl, h⟩ := this
      exact ⟨rt', rfl, h⟩
    · cases this

/-! ### The hypotheses are met -/

/-- A counter, what is added up of it, and one who subtracts the first from the second. -/
def sums : Tasks Int Int :=
  ⟨fun _ => 0, fun t s ins => match t, ins with
    | 0, _ => (s + 1, some (s + 1))
    | 1, [some a] => (s + a, some (s + a))
    | 2, [some a, some b] => (a - b, some (a - b))
    | _, _ => (s, none)⟩

/-- The same declared the other way round: the counter is 3. -/
def sumsBack : Tasks Int Int := ⟨fun _ => 0, fun t => sums.next (3 - t)⟩

def sumsGraph : Graph := ⟨4, [⟨0, 1, "a"⟩, ⟨1, 2, "b"⟩, ⟨0, 2, "a"⟩, ⟨2, 3, "c"⟩]⟩
def sumsBackGraph : Graph := ⟨4, [⟨1, 0, "c"⟩, ⟨2, 1, "b"⟩, ⟨3, 2, "a"⟩, ⟨3, 1, "a"⟩]⟩

example : sumsGraph.WF ∧ sumsGraph.Acyclic ∧ sumsGraph.NoParallel ∧ sumsGraph.ConsistentTypes ∧
    computePlan sumsGraph = .ok (some (hosted sumsGraph sums).plan) ∧ Implements (host sums) Prod.fst sums ∧
    Idle (hosted sumsGraph sums).plan.length (hostedStart sumsGraph sums).mgr :=
  ⟨by decide, ⟨id, by decide⟩, by decide, by decide, by decide +kernel, host_implements _,
    ⟨rfl, rfl, by decide, by decide, by decide +kernel⟩⟩

example : sumsBackGraph.WF ∧ sumsBackGraph.Acyclic ∧ sumsBackGraph.NoParallel ∧ sumsBackGraph.ConsistentTypes ∧
    computePlan sumsBackGraph = .ok (some (hosted sumsBackGraph sumsBack).plan) ∧
    Idle (hosted sumsBackGraph sumsBack).plan.length (hostedStart sumsBackGraph sumsBack).mgr :=
  ⟨by decide, ⟨fun t => 3 - t, by decide⟩, by decide, by decide, by decide +kernel,
    ⟨rfl, rfl, by decide, by decide, by decide +kernel⟩⟩

example : Rearranged sumsGraph sumsBackGraph sums sumsBack (fun t => 3 - t) where
  nodes := rfl
  lt t ht := by simp only [sumsGraph] at ht ⊢; omega
  inj t ht u hu h := by simp only [sumsGraph] at ht hu; omega
  tasks t ht := by
    simp only [sumsGraph] at ht
    refine ⟨rfl, ?_⟩
    show sums.next (3 - (3 - t)) = _
    rw [show 3 - (3 - t) = t by omega]
  edges := by decide

/-- In a build with overflow checks the order may matter: declared the other way round, the application panics. -/
theorem C89_order_violated : ∃ (g g' : Graph) (m m' : Tasks Int Int) (p : Nat → Nat), g.WF ∧ g'.WF ∧ g'.Acyclic ∧
    g'.NoParallel ∧ g'.ConsistentTypes ∧ (∀ t < 4, p t < 4 ∧ p (p t) = t) ∧ m'.init = m.init ∧
    (∀ t < 4, m'.next (p t) = m.next t) ∧ (∀ t < 4, (g'.edges.filter (fun e => e.dst == p t)).map Edge.src =
      (g.edges.filter (fun e => e.dst == t)).map (fun e => p e.src)) ∧
    (∃ r, runLoop (hosted g m) 3 (hostedStart g m) = .ok r) ∧
    runLoop (hosted g' m') 3 (hostedStart g' m') = .panic := by
  refine ⟨sumsGraph, sumsBackGraph, sums, sumsBack, fun t => 3 - t, by decide, by decide, ⟨fun t => 3 - t, by decide⟩,
    by decide, by decide, ?_, rfl, ?_, by decide, ?_, ?_⟩
  · intro t ht; simp only; omega
  · intro t ht
    show sums.next (3 - (3 - t)) = _
    rw [show 3 - (3 - t) = t by omega]
  · have : (runLoop (hosted sumsGraph sums) 3 (hostedStart sumsGraph sums)).map' (fun _ => ()) = .ok () := by
      decide +kernel
    generalize runLoop (hosted sumsGraph sums) 3 (hostedStart sumsGraph sums) = r at this
    cases r with
    | panic => cases this
    | ok r => exact ⟨r, rfl⟩
  · have : (runLoop (hosted sumsBackGraph sumsBack) 3 (hostedStart sumsBackGraph sumsBack)).map' (fun _ => ()) =
        .panic := by decide +kernel
    generalize runLoop (hosted sumsBackGraph sumsBack) 3 (hostedStart sumsBackGraph sumsBack) = r at this
    cases r with
    | panic => rfl
    | ok r => cases this

/-- What is logged: both have computed the same. -/
example :
    (runLoop (hosted sumsGraph sums) 3 (hostedStart sumsGraph sums)).map' (fun r => (r.2, (loggedLists r.1.w.trace).map
      (fun cl => [0, 1, 2].map (fun t => payloadOf (hosted sumsGraph sums).plan t cl)))) =
      .ok (none, [[some (some 1), some (some 1), some (some 0)], [some (some 2), some (some 3), some (some 1)],
        [some (some 3), some (some 6), some (some 3)]]) ∧
    (runLoop { hosted sumsBackGraph sumsBack with overflow := .wrapping } 3 (hostedStart sumsBackGraph sumsBack)).map'
      (fun r => (r.2, (loggedLists r.1.w.trace).map
      (fun cl => [3, 2, 1].map (fun t => payloadOf (hosted sumsBackGraph sumsBack).plan t cl)))) =
      .ok (none, [[some (some 1), some (some 1), some (some 0)], [some (some 2), some (some 3), some (some 1)],
        [some (some 3), some (some 6), some (some 3)]]) :=
  ⟨by decide +kernel, by decide +kernel⟩

example : ¬ Reaches sumsGraph 2 1 := by
  intro h
  have gen : ∀ t, Reaches sumsGraph 2 t → t = 2 ∨ t = 3 := by
    intro t h
    induction h with
    | self => exact .inl rfl
    | step h he ih =>
      simp only [sumsGraph, List.mem_cons, List.not_mem_nil, or_false] at he
      rcases he with rfl | rfl | rfl | rfl <;> simp at ih ⊢
  have := gen 1 h
  omega

end Dataflow
end Verif
