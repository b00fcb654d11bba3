import Verif.Proofs.WhatIf
import Verif.Props.Simulated
import Verif.Props.Replay
/-!
C123: replaying a log with changed tasks changes only what is behind them.
-/
namespace Verif
namespace Dataflow
open Clock CopperList Planner Verif.Runtime
variable {σ σ' S P Q : Type}

/-- What the sensors send and what the tasks behind them are determines what is sent in every turn of a replay. -/
theorem C123_meaning {g : Graph} (ha : g.Acyclic) (m : Tasks S Q) (fed : Nat → Nat → Option Q) :
    (∃ x y, FedSolution g m fed x y) ∧
    ∀ x y x' y', FedSolution g m fed x y → FedSolution g m fed x' y' →
      ∀ n, (∀ t, Inner g t → x n t = x' n t) ∧ ∀ e ∈ g.edges, y n e.src = y' n e.src := by
  refine ⟨?_, fun x y x' y' h h' n => ?_⟩
  · obtain ⟨x, y, h, -⟩ := exists_fed ha m fed m.init fun _ _ => rfl
    exact ⟨x, y, h⟩
  · have none : ∀ t, ¬ Behind g (fun _ => False) t := fun t ⟨_, h, _⟩ => h
    have key := fed_same ha (changed := fun _ => False) (fun _ _ _ => ⟨rfl, rfl⟩) h' h (n := n + 1)
      (fun _ _ _ _ => rfl) n (by omega)
    exact ⟨fun t ht => key.1 t ht (none t), fun e he => key.2 (by omega) e he (none _)⟩

/-- A replay computes just that, whatever lists it is given, if the sensors are read in them: after the last one the
tasks are in the states that are determined by what the sensors sent, and the log of the replay has as many more lists,
in each of which every task that sends anything has left what is determined so.

Missing: two connections between the same tasks (`C89_run_violated`); sensors whose accessor reads another task's message
(`C58_violated_accessor`). -/
theorem C123_replay_partial {read : Msg P → Option Q} (hr : IgnoresTimes read) {g : Graph} (hg : g.WF) (ha : g.Acyclic)
    (hpar : g.NoParallel) (hty : g.ConsistentTypes) {r : Replayer σ P} (hp : computePlan g = .ok (some r.app.plan))
    (hacc : SourcesReadable r.app.plan) {view : σ → Nat → S} {m : Tasks S Q} (hb : Rebuilt read r view m)
    (hlog : r.app.env.log.isSome = true) {fed : Nat → Nat → Option Q} {x : Nat → Nat → S} {y : Nat → Nat → Option Q}
    (hs : FedSolution g m fed x y) {cls : List (CL (List (Msg P)))}
    (hfed : ∀ (i : Nat) cl, cls[i]? = some cl → ∀ t, Sensor g t → sentBy read r.app.plan t cl = some (fed i t))
    {rt rt' : Rt σ P} (hidle : Idle r.app.plan.length rt.mgr) (hinit : ∀ t, Inner g t → view rt.w.st t = m.init t)
    (h : replayLoop r cls rt = .ok rt') :
    (∀ t, Inner g t → view rt'.w.st t = x cls.length t) ∧
    ∃ lists, loggedLists rt'.w.trace = loggedLists rt.w.trace ++ lists ∧ lists.length = cls.length ∧
      ∀ (i : Nat) (cl : CL (List (Msg P))), lists[i]? = some cl →
        ∀ e ∈ g.edges, sentBy read r.app.plan e.src cl = some (y i e.src) := by
  have hpl : Planned g r.app.plan := ⟨hg, hpar, hty, hp⟩
  have hni : ¬ ∃ v, g.Isolated v := by
    rcases computePlan_cases hg with ⟨_, e⟩ | ⟨h, _⟩
    · rw [hp] at e; cases e
    · exact h
  obtain ⟨plan', hp', hall⟩ := C15_complete g hg ha hni
  rw [hp] at hp'
  cases hp'
  obtain ⟨x', y', hs', h0, hall'⟩ := exists_fed ha m fed (view rt.w.st) hinit
  have key := (C123_meaning ha m fed).2 _ _ _ _ hs hs'
  obtain ⟨a1, lists, a2, a3, a4⟩ := replay_view hpl hacc hr hb hlog hall' cls 0 rt rt'
    (by simpa only [Nat.zero_add] using hfed) hidle h (fun s _ => by rw [h0])
  refine ⟨fun t ht => ?_, lists, a2, a3, fun i cl hcl e he => ?_⟩
  · have hlt : t < g.nodes := by
      obtain ⟨⟨e, he, rfl⟩, -⟩ := ht
      exact (hg e he).2
    obtain ⟨s, hs', rfl⟩ := List.mem_map.1 (hall t hlt)
    rw [a1 s hs', Nat.zero_add, (key _).1 _ ht]
  · obtain ⟨s, hs1, hs2⟩ := PlanOk.getElem_idxOf (plan := r.app.plan) (hall e.src (hg e he).1)
    have hns : s.taskType ≠ .sink := by
      rw [(hpl.ok.get hs1).2.2.2.1, hs2]
      unfold taskType
      split
      · simp
      · split
        · rename_i hz
          have : e.dst ∈ g.outgoing e.src := by
            unfold Graph.outgoing
            rw [List.mem_map]
            exact ⟨e, by simp [he], rfl⟩
          rw [List.length_eq_zero_iff.1 hz] at this
          cases this
        · simp
    obtain ⟨mj, b1, b2⟩ := a4 i cl hcl _ s hs1 hns
    rw [sentBy]
    unfold ids at b1
    rw [b1, Option.map_some, b2, hs2, Nat.zero_add, (key i).2 e he]

/-- The robot ran and logged; its log is replayed by an application some of whose tasks were changed.  In every turn
every task that is not behind a changed one sends what it sent on the robot, and it ends in the same state.

Missing: as in `C123_replay_partial`. -/
theorem C123_changed_partial {read : Msg P → Option Q} (hr : IgnoresTimes read) {g : Graph} (hg : g.WF) (ha : g.Acyclic)
    (hpar : g.NoParallel) (hty : g.ConsistentTypes) {robot : App σ P} {r : Replayer σ' P}
    (hp : computePlan g = .ok (some robot.plan)) (hplan : r.app.plan = robot.plan) (hacc : SourcesReadable robot.plan)
    {view : σ → Nat → S} {view' : σ' → Nat → S} {m m' : Tasks S Q} (hi : Drives read robot.env robot.plan view m)
    (hb : Rebuilt read r view' m') {changed : Nat → Prop}
    (hm : ∀ t, Inner g t → ¬ changed t → m'.init t = m.init t ∧ m'.next t = m.next t)
    (hlog : robot.env.log.isSome = true) (hlog' : r.app.env.log.isSome = true)
    {rt rt1 : Rt σ P} {rt' rt1' : Rt σ' P} (hfresh : loggedLists rt.w.trace = []) (hfresh' : loggedLists rt'.w.trace = [])
    (hidle : Idle robot.plan.length rt.mgr) (hidle' : Idle robot.plan.length rt'.mgr)
    (hinit : ∀ t < g.nodes, view rt.w.st t = m.init t) (hinit' : ∀ t, Inner g t → view' rt'.w.st t = m'.init t)
    {n : Nat} (h : runLoop robot n rt = .ok (rt1, none))
    (h' : replayLoop r (loggedLists rt1.w.trace) rt' = .ok rt1') :
    (∀ t, Inner g t → ¬ Behind g changed t → view' rt1'.w.st t = view rt1.w.st t) ∧
    (loggedLists rt1.w.trace).length = n ∧
    Pointwise (fun cl cl' => ∀ e ∈ g.edges, ¬ Behind g changed e.src →
        sentBy read robot.plan e.src cl = sentBy read robot.plan e.src cl')
      (loggedLists rt1.w.trace) (loggedLists rt1'.w.trace) := by
  obtain ⟨x, y, hs⟩ := exists_solution ha m
  obtain ⟨x', y', hs'⟩ := (C123_meaning ha m' y).1
  obtain ⟨a1, lists, a2, a3, a4⟩ := C89_read_partial hr hg ha hpar hty hp hi hlog hs hidle hinit h
  rw [hfresh, List.nil_append] at a2
  rw [a2] at h' ⊢
  obtain ⟨b1, lists', b2, b3, b4⟩ := C123_replay_partial hr hg ha hpar hty (hplan ▸ hp) (hplan ▸ hacc) hb hlog' hs'
    (by rintro i cl hcl t ⟨-, e, he, rfl⟩; rw [hplan]; exact a4 i cl hcl e he) (hplan ▸ hidle') hinit' h'
  rw [hfresh', List.nil_append] at b2
  rw [hplan] at b4
  rw [b2]
  have key := fed_same ha hm (hs.fedBy hg) hs' (n := n) (fun _ _ _ _ => rfl)
  refine ⟨fun t ht hn => ?_, a3, pointwise_of_at (by omega) fun i hl hl' e he hn => ?_⟩
  · have hlt : t < g.nodes := by
      obtain ⟨⟨e, he, rfl⟩, -⟩ := ht
      exact (hg e he).2
    rw [b1 t ht, a1 t hlt, a3]
    exact (key n (Nat.le_refl _)).1 t ht hn
  · rw [a4 i _ (List.getElem?_eq_getElem hl) e he, b4 i _ (List.getElem?_eq_getElem hl') e he,
      (key i (by omega)).2 (by omega) e he hn]

/-- The same from the files: the robot is started and runs, the log it wrote is opened, its copper lists are read to
the end, in reads of any sizes, decoded, and replayed.

Missing: as in `C123_replay_partial`. -/
theorem C123_from_log_partial {page slabSize : Nat} (hz : ULog.SizesOk page slabSize) (hist : σ → List ULog.LogOp)
    (strm : Nat) (slots : List (Bincode.Codec P)) (pieces : CL (List (Msg P)) → List Bytes)
    {read : Msg P → Option Q} (hr : IgnoresTimes read) {g : Graph} (hg : g.WF) (ha : g.Acyclic)
    (hpar : g.NoParallel) (hty : g.ConsistentTypes) {robot : App σ P} {r : Replayer σ' P}
    (hl : LogsTo robot.env hist strm pieces) (hpieces : ∀ cl, (pieces cl).flatten = (Wire.clCodec slots).enc cl)
    (hp : computePlan g = .ok (some robot.plan)) (hplan : r.app.plan = robot.plan) (hacc : SourcesReadable robot.plan)
    {view : σ → Nat → S} {view' : σ' → Nat → S} {m m' : Tasks S Q} (hi : Drives read robot.env robot.plan view m)
    (hb : Rebuilt read r view' m') {changed : Nat → Prop}
    (hm : ∀ t, Inner g t → ¬ changed t → m'.init t = m.init t ∧ m'.next t = m.next t)
    (hlog' : r.app.env.log.isSome = true) {rt rt1 : Rt σ P} {rt' rt1' : Rt σ' P} (hfresh : rt.w.trace = [])
    (hfresh' : rt'.w.trace = []) (hidle : Idle robot.plan.length rt.mgr) (hidle' : Idle robot.plan.length rt'.mgr)
    (hinit : ∀ t < g.nodes, view (startAll robot rt).1.w.st t = m.init t)
    (hinit' : ∀ t, Inner g t →
      view' (startAll (r.app.withSim (defaultCallback r.app.plan)) rt').1.w.st t = m'.init t)
    (h0 : StreamReady strm [] (hist rt.w.st)) {n : Nat} (h : record robot n rt = .ok rt1)
    (hops : ULog.HistoryOk page slabSize [] (hist rt1.w.st))
    (htyped : ∀ cl ∈ loggedLists rt1.w.trace, Typed slots cl) {ns : List Nat} (hn : ∀ b ∈ ns, 0 < b) :
    ∃ files reader ds, ULog.writeLog slabSize page (hist rt1.w.st) = .ok files ∧
      ULog.Reader.new files = .ok reader ∧ (ULog.IOReader.new reader).reads files .copperList ns = .ok ds ∧
      ([] ∈ ds → replay r (@dumpObjects _ (Wire.clCodec slots) ds.flatten) rt' = .ok rt1' →
        (∀ t, Inner g t → ¬ Behind g changed t → view' rt1'.w.st t = view rt1.w.st t) ∧
        (loggedLists rt1.w.trace).length = n ∧
        Pointwise (fun cl cl' => ∀ e ∈ g.edges, ¬ Behind g changed e.src →
            sentBy read robot.plan e.src cl = sentBy read robot.plan e.src cl')
          (loggedLists rt1.w.trace) (loggedLists rt1'.w.trace)) := by
  have hq := startAll_quiet robot rt
  have hg1 := startAll_mgr robot rt
  have hrun : run robot n rt = .ok (rt1, .running) ∧ runLoop robot n (startAll robot rt).1 = .ok (rt1, none) := by
    unfold record at h
    unfold run
    generalize startAll robot rt = q at h ⊢
    obtain ⟨rta, e⟩ := q
    cases e with
    | some e => cases h
    | none =>
      simp only at h ⊢
      split at h
      · rename_i rtb hb
        simp only [Rs.ok.injEq] at h
        subst h
        rw [hb]
        exact ⟨rfl, rfl⟩
      · cases h
  obtain ⟨t, files, reader, ds, h1, h2, h3, h4, h5⟩ :=
    C23_dump hz robot hist strm slots pieces hl hpieces n rt rt1 _ h0 hrun.1 hops htyped ns hn
  rw [hfresh, List.nil_append] at h1
  refine ⟨files, reader, ds, h2, h3, h4, fun he hrep => ?_⟩
  rw [h5 he, ← h1] at hrep
  have hlog : robot.env.log.isSome = true := by obtain ⟨f, hf, _⟩ := hl.log; rw [hf]; rfl
  have hq' := startAll_quiet (r.app.withSim (defaultCallback r.app.plan)) rt'
  have hg2 := startAll_mgr (r.app.withSim (defaultCallback r.app.plan)) rt'
  have hloop : replayLoop r (loggedLists rt1.w.trace) (startAll (r.app.withSim (defaultCallback r.app.plan)) rt').1 =
      .ok rt1' := by
    unfold replay at hrep
    generalize startAll (r.app.withSim (defaultCallback r.app.plan)) rt' = q at hrep ⊢
    obtain ⟨rta, e⟩ := q
    cases e with
    | some e => cases hrep
    | none => exact hrep
  have none : ∀ {τ : Type} {a b : Rt τ P}, (∃ t, b.w.trace = a.w.trace ++ t ∧ loggedLists t = []) → a.w.trace = [] →
      loggedLists b.w.trace = [] := by
    rintro τ a b ⟨t, e1, e2⟩ e3
    rw [e1, e3, List.nil_append, e2]
  exact C123_changed_partial hr hg ha hpar hty hp hplan hacc hi hb hm hlog hlog' (none hq hfresh) (none hq' hfresh')
    (hg1 ▸ hidle) (hg2 ▸ hidle') hinit hinit' hrun.2 hloop

/-! ### A robot that counts, replayed with another task -/

/-- Task 2 was changed: it adds what it gets instead of subtracting. -/
def sumsNew : Tasks Int Int :=
  ⟨fun _ => 0, fun t s ins => match t, ins with
    | 2, [some a, some b] => (s + 1, some (a + b))
    | 0, _ => (s, some 1000)
    | t, ins => sums.next t s ins⟩

def sumsReplayer : Replayer ((Nat → Int) × Nat) Int where
  app := hosted sumsGraph sumsNew
  sinkOut _ _ out := out
  setClock _ s := (s.1, 0)

theorem sums_rebuilt : Rebuilt Msg.payload sumsReplayer Prod.fst sumsNew where
  calm := ⟨fun _ => rfl, fun _ _ _ => ⟨rfl, rfl⟩, fun _ _ => rfl, fun f hf s cl s' h => by cases hf; cases h; rfl⟩
  life _ _ _ _ := ⟨rfl, rfl⟩
  process _ _ _ _ _ _ := ⟨rfl, rfl⟩
  clock _ _ := rfl

theorem sums_drives : Drives Msg.payload (hosted sumsGraph sums).env (hosted sumsGraph sums).plan Prod.fst sums where
  runs := rfl
  calm := ⟨fun _ => rfl, fun _ _ _ => ⟨rfl, rfl⟩, fun _ _ => rfl, fun f hf s cl s' h => by cases hf; cases h; rfl⟩
  life _ _ _ _ := ⟨rfl, rfl⟩
  process step _ := by
    cases step.taskType with
    | source => exact fun _ _ => ⟨rfl, rfl⟩
    | regular => exact fun _ _ _ => ⟨rfl, rfl⟩
    | sink => exact fun _ _ => rfl

theorem sums_readable : SourcesReadable (hosted sumsGraph sums).plan := by
  have h : ∀ k < 4, ∀ s, (hosted sumsGraph sums).plan[k]? = some s → s.taskType = .source →
      accessorIndex (hosted sumsGraph sums).plan s.nodeId = some k := by
    have : ∀ k < 4, ((hosted sumsGraph sums).plan[k]?.all fun s =>
        s.taskType != .source || accessorIndex (hosted sumsGraph sums).plan s.nodeId == some k) = true := by
      decide +kernel
    intro k hk s hs ht
    have := this k hk
    rw [hs] at this
    simpa [ht] using this
  intro k s hs
  exact h k (by have := (List.getElem?_eq_some_iff.1 hs).1; exact this) s hs

/-- A robot and a replay of three of its turns. -/
def sumsRan : Rt ((Nat → Int) × Nat) Int :=
  match runLoop (hosted sumsGraph sums) 3 (hostedStart sumsGraph sums) with
  | .ok (rt, _) => rt
  | .panic => hostedStart sumsGraph sums

def sumsAgain : Rs (Rt ((Nat → Int) × Nat) Int) :=
  replayLoop sumsReplayer (loggedLists sumsRan.w.trace) (hostedStart sumsGraph sumsNew)

/-- By computation: task 1 sends the same as on the robot, task 2 something else. -/
example :
    (loggedLists sumsRan.w.trace).map (fun cl => [0, 1, 2].map (fun t => payloadOf (hosted sumsGraph sums).plan t cl)) =
      [[some (some 1), some (some 1), some (some 0)], [some (some 2), some (some 3), some (some 1)],
        [some (some 3), some (some 6), some (some 3)]] ∧
    sumsAgain.map' (fun rt => (loggedLists rt.w.trace).map
      (fun cl => [0, 1, 2].map (fun t => payloadOf (hosted sumsGraph sums).plan t cl))) =
      .ok [[some (some 1), some (some 1), some (some 2)], [some (some 2), some (some 3), some (some 5)],
        [some (some 3), some (some 6), some (some 9)]] :=
  ⟨by decide +kernel, by decide +kernel⟩

theorem sums_unchanged (t : Nat) (ht : Inner sumsGraph t) (h2 : ¬ t = 2) :
    sumsNew.init t = sums.init t ∧ sumsNew.next t = sums.next t := by
  refine ⟨rfl, ?_⟩
  obtain ⟨⟨e, he, rfl⟩, e', he', h⟩ := ht
  simp only [sumsGraph, List.mem_cons, List.not_mem_nil, or_false] at he he'
  rcases he with rfl | rfl | rfl | rfl
  · rfl
  · simp at h2
  · simp at h2
  · rcases he' with rfl | rfl | rfl | rfl <;> simp at h

theorem sums_not_behind : ¬ Behind sumsGraph (fun t => t = 2) 1 := by
  rintro ⟨u, rfl, hu⟩
  have : ∀ t, Reaches sumsGraph 2 t → t = 2 ∨ t = 3 := by
    intro t ht
    induction ht with
    | self => exact .inl rfl
    | step _ he ih =>
      simp only [sumsGraph, List.mem_cons, List.not_mem_nil, or_false] at he
      rcases he with rfl | rfl | rfl | rfl <;> simp_all
  simpa using this 1 hu

/-- By the theorem, for any number of turns: the memory of task 1 is what it was on the robot. -/
example {n : Nat} {rt1 rt1' : Rt ((Nat → Int) × Nat) Int}
    (h : runLoop (hosted sumsGraph sums) n (hostedStart sumsGraph sums) = .ok (rt1, none))
    (h' : replayLoop sumsReplayer (loggedLists rt1.w.trace) (hostedStart sumsGraph sumsNew) = .ok rt1') :
    rt1'.w.st.1 1 = rt1.w.st.1 1 := by
  refine (C123_changed_partial payload_ignoresTimes (g := sumsGraph) (robot := hosted sumsGraph sums) (r := sumsReplayer)
    (m := sums) (m' := sumsNew) (changed := fun t => t = 2) (by decide) ⟨id, by decide⟩ (by decide) (by decide)
    (by decide +kernel) rfl sums_readable sums_drives sums_rebuilt sums_unchanged rfl rfl rfl rfl
    ⟨rfl, rfl, by decide, by decide, by decide +kernel⟩ ⟨rfl, rfl, by decide, by decide, by decide +kernel⟩
    (fun _ _ => rfl) (fun _ _ => rfl) h h').1 1 (by simp [Inner, sumsGraph]) sums_not_behind

/-! ### The same from its log -/

/-- The robot with a unified log, whose only stream is that of its copper lists. -/
def sumsSlots : List (Bincode.Codec Int) :=
  List.replicate 4 ⟨fun n => Bincode.enc (UInt64.ofNat n.toNat), do let x ← (Bincode.dec : Dec UInt64); pure x.toNat⟩
def sumsPieces (cl : CL (List (Msg Int))) : List Bytes := [(Wire.clCodec sumsSlots).enc cl]

def sumsLoggedEnv : Env (((Nat → Int) × Nat) × List ULog.LogOp) Int where
  now s := ((((host sums).now s.1).1, s.2), ((host sums).now s.1).2)
  life _ _ s := (s, none)
  source t out s := ((((host sums).source t out s.1).1, s.2), ((host sums).source t out s.1).2)
  regular t ins out s := ((((host sums).regular t ins out s.1).1, s.2), ((host sums).regular t ins out s.1).2)
  sink t ins s := ((((host sums).sink t ins s.1).1, s.2), ((host sums).sink t ins s.1).2)
  onError _ _ _ s := (s, .ignore)
  monCL _ s := (s, none)
  monStart s := (s, none)
  monStop s := (s, none)
  log := some (fun s cl => .ok (s.1, s.2 ++ [.log 0 (sumsPieces cl)]))
  sim := none

def sumsLogged : App (((Nat → Int) × Nat) × List ULog.LogOp) Int :=
  ⟨4, (hosted sumsGraph sums).plan, sumsLoggedEnv, .checked⟩

def sumsLoggedStart : Rt (((Nat → Int) × Nat) × List ULog.LogOp) Int :=
  ⟨⟨((sums.init, 0), [.openStream .copperList 64]), []⟩, (hostedStart sumsGraph sums).mgr⟩

def sumsLoggedEnd : Rt (((Nat → Int) × Nat) × List ULog.LogOp) Int :=
  match record sumsLogged 3 sumsLoggedStart with
  | .ok rt => rt
  | .panic => sumsLoggedStart

theorem sumsLogged_logsTo : LogsTo sumsLogged.env (fun s => s.2) 0 sumsPieces := by
  have h : ∀ l : List ULog.LogOp, Leaves 0 l l := fun l => ⟨[], by simp, by simp, by simp⟩
  exact ⟨⟨_, rfl, fun s cl s' hs => by cases hs; rfl⟩, fun s => h s.2, fun _ _ s => h s.2, fun _ _ s => h s.2,
    fun _ _ _ s => h s.2, fun _ _ s => h s.2, fun _ _ _ s => h s.2, fun _ s => h s.2, fun s => h s.2,
    fun s => h s.2, fun _ hs => by simp [sumsLogged, sumsLoggedEnv] at hs,
    fun _ hs => by simp [sumsLogged, sumsLoggedEnv] at hs⟩

theorem sumsLogged_drives : Drives Msg.payload sumsLogged.env sumsLogged.plan (fun s => s.1.1) sums where
  runs := rfl
  calm := ⟨fun _ => rfl, fun _ _ _ => ⟨rfl, rfl⟩, fun _ _ => rfl, fun f hf s cl s' h => by cases hf; cases h; rfl⟩
  life _ _ _ _ := ⟨rfl, rfl⟩
  process step _ := by
    cases step.taskType with
    | source => exact fun _ _ => ⟨rfl, rfl⟩
    | regular => exact fun _ _ _ => ⟨rfl, rfl⟩
    | sink => exact fun _ _ => rfl

theorem sumsLogged_typed : ∀ cl ∈ loggedLists sumsLoggedEnd.w.trace, Typed sumsSlots cl := by
  have h : ∀ cl ∈ loggedLists sumsLoggedEnd.w.trace, cl.msgs.length = 4 ∧
      ∀ m ∈ cl.msgs, (∀ p ∈ m.payload, 0 ≤ p ∧ p < 18446744073709551616) ∧
        m.md.statusTxt.utf8ByteSize < 18446744073709551616 := by decide +kernel
  intro cl hcl
  obtain ⟨h1, h2⟩ := h cl hcl
  unfold Typed
  generalize cl.msgs = l at h1 h2
  have hone : ∀ m ∈ l, ∀ p, m.payload = some p → ((UInt64.ofNat p.toNat).toNat : Int) = p := by
    intro m hm p hp
    obtain ⟨a, b⟩ := (h2 m hm).1 p (by simpa using hp)
    simp only [UInt64.toNat_ofNat']
    omega
  match l, h1 with
  | [a, b, c, d], _ =>
    refine .cons ⟨fun p hp rest => ?_, (h2 _ (by simp)).2⟩ (.cons ⟨fun p hp rest => ?_, (h2 _ (by simp)).2⟩
      (.cons ⟨fun p hp rest => ?_, (h2 _ (by simp)).2⟩ (.cons ⟨fun p hp rest => ?_, (h2 _ (by simp)).2⟩ .nil))) <;>
    · simp only
      rw [Dec.bind_ok (Bincode.rt_u64 _ _)]
      rw [hone _ (by simp) p hp]
      rfl

theorem sumsLogged_history : ULog.HistoryOk 256 2048 [] sumsLoggedEnd.w.st.2 := by
  have h : sumsLoggedEnd.w.st.2 = [.openStream .copperList 64,
      .log 0 [[0, 4, 1, 1, 0, 1, 0, 0, 1, 1, 2, 3, 0, 0, 1, 0, 4, 5, 0, 0, 0, 6, 7, 0, 0]],
      .log 0 [[1, 4, 1, 2, 8, 9, 0, 0, 1, 3, 10, 11, 0, 0, 1, 1, 12, 13, 0, 0, 0, 14, 15, 0, 0]],
      .log 0 [[2, 4, 1, 3, 16, 17, 0, 0, 1, 6, 18, 19, 0, 0, 1, 3, 20, 21, 0, 0, 0, 22, 23, 0, 0]]] := by
    decide +kernel
  rw [h]
  simp only [ULog.HistoryOk]
  refine ⟨by decide, by decide, by simp, ⟨by decide, by decide, by decide⟩, ?_⟩
  simp

/-- What task 1 kept is kept again, whatever the sizes of the reads. -/
example {ns : List Nat} (hn : ∀ b ∈ ns, 0 < b) :
    ∃ files reader ds, ULog.writeLog 2048 256 sumsLoggedEnd.w.st.2 = .ok files ∧ ULog.Reader.new files = .ok reader ∧
      (ULog.IOReader.new reader).reads files .copperList ns = .ok ds ∧
      ([] ∈ ds → ∀ rt1', replay sumsReplayer (@dumpObjects _ (Wire.clCodec sumsSlots) ds.flatten)
        (hostedStart sumsGraph sumsNew) = .ok rt1' → rt1'.w.st.1 1 = 6) := by
  have hrec : record sumsLogged 3 sumsLoggedStart = .ok sumsLoggedEnd := by
    have h : (record sumsLogged 3 sumsLoggedStart).map' (fun _ => ()) = .ok () := by decide +kernel
    unfold sumsLoggedEnd
    cases hr : record sumsLogged 3 sumsLoggedStart with
    | ok rt => rfl
    | panic => rw [hr] at h; cases h
  have main := fun rt1' => C123_from_log_partial (page := 256) (slabSize := 2048) ⟨by decide, by decide, by decide⟩
    (fun s => s.2) 0 sumsSlots sumsPieces payload_ignoresTimes (g := sumsGraph) (robot := sumsLogged) (r := sumsReplayer)
    (m := sums) (m' := sumsNew) (changed := fun t => t = 2) (by decide) ⟨id, by decide⟩ (by decide) (by decide)
    sumsLogged_logsTo (fun cl => by simp [sumsPieces]) (by decide +kernel) rfl sums_readable sumsLogged_drives
    sums_rebuilt sums_unchanged rfl (rt := sumsLoggedStart) (rt1 := sumsLoggedEnd)
    (rt' := hostedStart sumsGraph sumsNew) (rt1' := rt1') rfl rfl ⟨rfl, rfl, by decide, by decide, by decide +kernel⟩
    ⟨rfl, rfl, by decide, by decide, by decide +kernel⟩ (fun _ _ => rfl) (fun _ _ => rfl)
    (show StreamReady 0 [] [.openStream .copperList 64] from ⟨64, rfl⟩) hrec sumsLogged_history sumsLogged_typed hn
  obtain ⟨files, reader, ds, h1, h2, h3, -⟩ := main (hostedStart sumsGraph sumsNew)
  refine ⟨files, reader, ds, h1, h2, h3, fun he rt1' hr => ?_⟩
  obtain ⟨files', reader', ds', k1, k2, k3, k4⟩ := main rt1'
  rw [h1] at k1
  cases k1
  rw [h2] at k2
  cases k2
  rw [h3] at k3
  cases k3
  have h6 : sumsLoggedEnd.w.st.1.1 1 = 6 := by decide +kernel
  rw [← h6]
  exact (k4 he hr).1 1 (by simp [Inner, sumsGraph]) sums_not_behind

end Dataflow
end Verif
