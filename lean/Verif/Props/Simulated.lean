import Verif.Proofs.Simulated
import Verif.Props.Dataflow
/-!
C122: what is computed in simulation is what is computed on the robot.
-/
namespace Verif
namespace Dataflow
open Clock CopperList Planner Verif.Runtime
variable {σ σ' S P Q : Type}

/-- As `C89_run_partial`, for tasks which look at all of the messages they receive but the times noted by the runtime,
or at whatever is read of them. -/
theorem C89_read_partial {read : Msg P → Option Q} (hr : IgnoresTimes read) {g : Graph} (hg : g.WF) (ha : g.Acyclic)
    (hpar : g.NoParallel) (hty : g.ConsistentTypes)
    {app : App σ P} (hp : computePlan g = .ok (some app.plan)) {view : σ → Nat → S} {m : Tasks S Q}
    (hi : Drives read app.env app.plan view m) (hlog : app.env.log.isSome = true) {x : Nat → Nat → S}
    {y : Nat → Nat → Option Q} (hs : Solution g m x y) {rt rt' : Rt σ P} (hidle : Idle app.plan.length rt.mgr)
    (hinit : ∀ t < g.nodes, view rt.w.st t = m.init t) {n : Nat} (h : runLoop app n rt = .ok (rt', none)) :
    (∀ t < g.nodes, view rt'.w.st t = x n t) ∧
    ∃ lists, loggedLists rt'.w.trace = loggedLists rt.w.trace ++ lists ∧ lists.length = n ∧
      ∀ (i : Nat) (cl : CL (List (Msg P))), lists[i]? = some cl →
        ∀ e ∈ g.edges, sentBy read app.plan e.src cl = some (y i e.src) :=
  behaves_run hg ha hpar hty hp (hi.behaves hr) hlog hs hidle hinit h

/-- A simulated application sends what its configuration says, the machine of each task being what the callback and
the task behind it do together: after `n` turns every task is in the state the configuration says, and the log has `n`
more lists, in each of which every task that sends anything has left what the configuration says. -/
theorem C122_run_partial {read : Msg P → Option Q} (hr : IgnoresTimes read) {g : Graph}
    (hg : g.WF) (ha : g.Acyclic) (hpar : g.NoParallel) (hty : g.ConsistentTypes)
    {app : App σ P} (hp : computePlan g = .ok (some app.plan)) {view : σ → Nat → S} {m : Tasks S Q} {sim : Sim σ P}
    (hi : Simulates read app.env sim app.plan view m) (hlog : app.env.log.isSome = true) {x : Nat → Nat → S}
    {y : Nat → Nat → Option Q} (hs : Solution g m x y) {rt rt' : Rt σ P} (hidle : Idle app.plan.length rt.mgr)
    (hinit : ∀ t < g.nodes, view rt.w.st t = m.init t) {n : Nat} (h : runLoop app n rt = .ok (rt', none)) :
    (∀ t < g.nodes, view rt'.w.st t = x n t) ∧
    ∃ lists, loggedLists rt'.w.trace = loggedLists rt.w.trace ++ lists ∧ lists.length = n ∧
      ∀ (i : Nat) (cl : CL (List (Msg P))), lists[i]? = some cl →
        ∀ e ∈ g.edges, sentBy read app.plan e.src cl = some (y i e.src) :=
  behaves_run hg ha hpar hty hp (hi.behaves hr) hlog hs hidle hinit h

/-- It does run, under the conditions of `C89_total_partial`, the callback being one of those who may not set the clock
back. -/
theorem C122_total_partial {read : Msg P → Option Q} (hr : IgnoresTimes read) {g : Graph}
    (hg : g.WF) (ha : g.Acyclic) (hn : 0 < g.nodes) (hpar : g.NoParallel)
    (hty : g.ConsistentTypes) {app : App σ P} (hp : computePlan g = .ok (some app.plan)) {view : σ → Nat → S}
    {m : Tasks S Q} {sim : Sim σ P} (hi : Simulates read app.env sim app.plan view m)
    (hmon : ∀ md s, (app.env.monCL md s).2 = none)
    (hdecl : (∀ e ∈ g.edges, e.src < e.dst) ∨ app.overflow = .wrapping) {T : σ → Nat} (hc : MonotoneClock app.env T)
    (hk : KeepsStart app.env) (hlog : LogAccepts app.env.log) {rt : Rt σ P} (hidle : Idle app.plan.length rt.mgr)
    (hinit : ∀ t < g.nodes, view rt.w.st t = m.init t) {n : Nat}
    (hid : rt.mgr.currentClId.toNat + n ≤ 0xFFFFFFFF ∨ app.overflow = .wrapping) :
    ∃ rt', runLoop app n rt = .ok (rt', none) := by
  obtain ⟨x, y, hs⟩ := exists_solution ha m
  refine loop_total ha hn ⟨hg, hpar, hty, hp⟩ (hi.behaves hr) hs hmon hdecl T hc hk hlog n 0 rt hidle hid ?_
  intro s hs'
  have hlt := ((C13_each_task_once g hg).2 _ hp).2 s.nodeId (List.mem_map.2 ⟨s, hs', rfl⟩)
  rw [hinit _ hlt, hs.init _ hlt]

/-- The robot and its simulation have the same tasks but for those that only send and those that only receive, which
are drivers on the robot and the callback in the simulation.  If in every turn the simulated sensors send what those of
the robot send, then all tasks send the same in every turn, and those in between are in the same states.

Missing: two connections between the same tasks (`C89_run_violated`). -/
theorem C122_fidelity_partial {read : Msg P → Option Q} (hr : IgnoresTimes read) {g : Graph}
    (hg : g.WF) (ha : g.Acyclic) (hpar : g.NoParallel) (hty : g.ConsistentTypes)
    {robot : App σ P} {simulated : App σ' P} (hp : computePlan g = .ok (some robot.plan))
    (hplan : simulated.plan = robot.plan) {view : σ → Nat → S} {view' : σ' → Nat → S} {m m' : Tasks S Q}
    {sim : Sim σ' P} (hi : Drives read robot.env robot.plan view m) (hi' : Simulates read simulated.env sim simulated.plan view' m')
    (hm : ∀ t, Inner g t → m'.init t = m.init t ∧ m'.next t = m.next t)
    (hlog : robot.env.log.isSome = true) (hlog' : simulated.env.log.isSome = true)
    {rt rt1 : Rt σ P} {rt' rt1' : Rt σ' P} (hfresh : rt.w.trace = []) (hfresh' : rt'.w.trace = [])
    (hidle : Idle robot.plan.length rt.mgr) (hidle' : Idle robot.plan.length rt'.mgr)
    (hinit : ∀ t < g.nodes, view rt.w.st t = m.init t) (hinit' : ∀ t < g.nodes, view' rt'.w.st t = m'.init t)
    {n : Nat} (h : runLoop robot n rt = .ok (rt1, none)) (h' : runLoop simulated n rt' = .ok (rt1', none))
    (hsense : Pointwise (fun cl cl' => ∀ t, Sensor g t → sentBy read robot.plan t cl = sentBy read robot.plan t cl')
      (loggedLists rt1.w.trace) (loggedLists rt1'.w.trace)) :
    (∀ t, Inner g t → view rt1.w.st t = view' rt1'.w.st t) ∧ (loggedLists rt1.w.trace).length = n ∧
    Pointwise (fun cl cl' => ∀ e ∈ g.edges, sentBy read robot.plan e.src cl = sentBy read robot.plan e.src cl')
      (loggedLists rt1.w.trace) (loggedLists rt1'.w.trace) := by
  obtain ⟨x, y, hs⟩ := exists_solution ha m
  obtain ⟨x', y', hs'⟩ := exists_solution ha m'
  obtain ⟨a1, lists, a2, a3, a4⟩ := behaves_run hg ha hpar hty hp (hi.behaves hr) hlog hs hidle hinit h
  obtain ⟨b1, lists', b2, b3, b4⟩ := C122_run_partial hr hg ha hpar hty (hplan ▸ hp) hi' hlog' hs' (hplan ▸ hidle') hinit' h'
  rw [hfresh] at a2
  rw [hfresh'] at b2
  simp only [show loggedLists ([] : List (Ev P)) = [] from rfl, List.nil_append] at a2 b2
  rw [hplan] at b4
  rw [a2, b2] at hsense ⊢
  have key := solution_inner hg ha hs hs' hm (n := n) (by
    rintro i hin t ⟨hnot, e, he, rfl⟩
    have hl : i < lists.length := by omega
    have hl' : i < lists'.length := by omega
    have := pointwise_at hsense i hl hl' e.src ⟨hnot, e, he, rfl⟩
    rw [a4 i _ (List.getElem?_eq_getElem hl) e he, b4 i _ (List.getElem?_eq_getElem hl') e he] at this
    exact Option.some.inj this)
  refine ⟨fun t ht => ?_, a3, pointwise_of_at (by omega) fun i hl hl' e he => ?_⟩
  · have hlt : t < g.nodes := by
      obtain ⟨⟨e, he, rfl⟩, -⟩ := ht
      exact (hg e he).2
    rw [a1 t hlt, b1 t hlt]
    exact (key n (Nat.le_refl _)).1 t ht
  · rw [a4 i _ (List.getElem?_eq_getElem hl) e he, b4 i _ (List.getElem?_eq_getElem hl') e he,
      (key i (by omega)).2 (by omega) e he]

/-! ### A robot which counts, and its simulation -/

/-- The simulated sensor counts down and sends what is missing to one; what the actuator does is nothing. -/
def sumsSim : Tasks Int Int :=
  ⟨fun _ => 0, fun t s ins => match t with
    | 0 => (s - 1, some (1 - s))
    | 3 => (s, none)
    | t => sums.next t s ins⟩

/-- The callback stands for the sensor and the actuator, the runtime runs the others. -/
def sumsCallback : Sim ((Nat → Int) × Nat) Int where
  life _ _ s := (s, .executedBySim)
  process t ins out s :=
    if t = 0 ∨ t = 3 then
      let r := sumsSim.next t (s.1 t) (ins.map Msg.payload)
      ((update s.1 t r.1, s.2), { out with payload := r.2 }, .executedBySim)
    else (s, out, .executeByRuntime)

def sumsSimulated : App ((Nat → Int) × Nat) Int :=
  { hosted sumsGraph sumsSim with env := { host sumsSim with sim := some sumsCallback } }

theorem sums_simulates : Simulates Msg.payload sumsSimulated.env sumsCallback sumsSimulated.plan Prod.fst sumsSim where
  runs := rfl
  calm := ⟨fun _ => rfl, fun _ _ _ => ⟨rfl, rfl⟩, fun _ _ => rfl, fun f hf s cl s' h => by cases hf; cases h; rfl⟩
  life _ _ _ _ := ⟨rfl, .inl rfl⟩
  process step _ ins out s _ := by
    by_cases h : step.nodeId = 0 ∨ step.nodeId = 3
    · left
      simp only [sumsCallback, if_pos h]
      exact ⟨by decide, trivial, fun _ => rfl⟩
    · right
      simp only [sumsCallback, if_neg h]
      refine ⟨trivial, trivial, ?_⟩
      cases step.taskType with
      | source => exact fun _ _ => ⟨rfl, rfl⟩
      | regular => exact fun _ _ _ => ⟨rfl, rfl⟩
      | sink => exact fun _ _ => rfl

theorem sums_inner (t : Nat) (ht : Inner sumsGraph t) :
    sumsSim.init t = sums.init t ∧ sumsSim.next t = sums.next t := by
  refine ⟨rfl, ?_⟩
  obtain ⟨⟨e, he, rfl⟩, e', he', h⟩ := ht
  simp only [sumsGraph, List.mem_cons, List.not_mem_nil, or_false] at he he'
  rcases he with rfl | rfl | rfl | rfl
  · rfl
  · rfl
  · rfl
  · rcases he' with rfl | rfl | rfl | rfl <;> simp at h

/-- What the robot and the simulation log: the sensor of the simulation is another one, what is sent is the same. -/
example :
    (runLoop (hosted sumsGraph sums) 3 (hostedStart sumsGraph sums)).map' (fun r => (r.2, (loggedLists r.1.w.trace).map
      (fun cl => [0, 1, 2].map (fun t => payloadOf (hosted sumsGraph sums).plan t cl)))) =
      .ok (none, [[some (some 1), some (some 1), some (some 0)], [some (some 2), some (some 3), some (some 1)],
        [some (some 3), some (some 6), some (some 3)]]) ∧
    (runLoop sumsSimulated 3 (hostedStart sumsGraph sumsSim)).map' (fun r => (r.2, r.1.w.st.1 0,
      (loggedLists r.1.w.trace).map (fun cl => [0, 1, 2].map (fun t => payloadOf sumsSimulated.plan t cl)))) =
      .ok (none, -3, [[some (some 1), some (some 1), some (some 0)], [some (some 2), some (some 3), some (some 1)],
        [some (some 3), some (some 6), some (some 3)]]) :=
  ⟨by decide +kernel, by decide +kernel⟩

example : sumsSimulated.plan = (hosted sumsGraph sums).plan ∧ Idle sumsSimulated.plan.length (hostedStart sumsGraph sumsSim).mgr ∧
    Sensor sumsGraph 0 ∧ Inner sumsGraph 1 ∧ Inner sumsGraph 2 ∧ ¬ Inner sumsGraph 3 := by
  refine ⟨rfl, ⟨rfl, rfl, by decide, by decide, by decide +kernel⟩, ?_, ?_, ?_, ?_⟩ <;>
    simp [Sensor, Inner, sumsGraph]

/-! ### A task that uses the time of validity of what it receives -/

/-- All of a message but the times the runtime notes. -/
def whole (o : Msg P) : Option (Option P × Tov × String) := some (o.payload, o.md.tov, o.md.statusTxt)

theorem payload_ignoresTimes : IgnoresTimes (Msg.payload (P := P)) := ⟨fun _ _ => rfl, fun _ _ => rfl⟩
theorem whole_ignoresTimes : IgnoresTimes (whole (P := P)) := ⟨fun _ _ => rfl, fun _ _ => rfl⟩

/-- Writing all of it. -/
def Msg.writeWhole (o : Msg P) (w : Option (Option P × Tov × String)) : Msg P :=
  let c := w.getD (none, .none, "")
  ⟨c.1, { o.md with tov := c.2.1, statusTxt := c.2.2 }⟩

theorem whole_write (o : Msg P) (c : Option P × Tov × String) : whole (Msg.writeWhole o (some c)) = some c := rfl

/-- A sensor at times 10, 20, 30 and so on, and a task that divides what it senses by the time since it was called
last: its state is the time of validity of what it had then.  An actuator that keeps what it was told. -/
def speeds : Tasks Nat (Option Nat × Tov × String) :=
  ⟨fun _ => 0, fun t s ins => match t, ins with
    | 0, _ => (s + 1, some (some ((s + 1) * (s + 1) * 100), .time ⟨UInt64.ofNat ((s + 1) * 10)⟩, ""))
    | 1, [some (some a, .time v, _)] => (v.ns.toNat, some (some (a / (v.ns.toNat - s)), .time v, "speed"))
    | 2, [some (some a, _, _)] => (a, some (none, .none, ""))
    | _, _ => (s, some (none, .none, ""))⟩

/-- The simulated sensor holds the time in ns instead of the number of turns; the actuator adds up. -/
def speedsSim : Tasks Nat (Option Nat × Tov × String) :=
  ⟨fun _ => 0, fun t s ins => match t, ins with
    | 0, _ => (s + 10, some (some ((s + 10) * (s + 10)), .time ⟨UInt64.ofNat (s + 10)⟩, ""))
    | 2, [some (some a, _, _)] => (s + a, some (none, .none, ""))
    | t, ins => speeds.next t s ins⟩

/-- They all send something. -/
theorem speeds_some (t s : Nat) (ins : List (Option (Option Nat × Tov × String))) :
    ∃ c, (speeds.next t s ins).2 = some c := by
  simp only [speeds]
  split <;> exact ⟨_, rfl⟩

theorem speedsSim_some (t s : Nat) (ins : List (Option (Option Nat × Tov × String))) :
    ∃ c, (speedsSim.next t s ins).2 = some c := by
  simp only [speedsSim]
  split
  · exact ⟨_, rfl⟩
  · exact ⟨_, rfl⟩
  · exact speeds_some _ _ _

/-- The runtime of such machines. -/
def hostWhole (m : Tasks Nat (Option Nat × Tov × String)) : Env ((Nat → Nat) × Nat) Nat where
  now s := ((s.1, s.2 + 1), ⟨UInt64.ofNat s.2⟩)
  life _ _ s := (s, none)
  source t out s := let r := m.next t (s.1 t) []; ((update s.1 t r.1, s.2), Msg.writeWhole out r.2, none)
  regular t ins out s :=
    let r := m.next t (s.1 t) (ins.map whole); ((update s.1 t r.1, s.2), Msg.writeWhole out r.2, none)
  sink t ins s := ((update s.1 t (m.next t (s.1 t) (ins.map whole)).1, s.2), none)
  onError _ _ _ s := (s, .ignore)
  monCL _ s := (s, none)
  monStart s := (s, none)
  monStop s := (s, none)
  log := some (fun s _ => .ok s)
  sim := none

theorem hostWhole_calm (m : Tasks Nat (Option Nat × Tov × String)) (sim : Option (Sim ((Nat → Nat) × Nat) Nat)) :
    Calm { hostWhole m with sim := sim } Prod.fst :=
  ⟨fun _ => rfl, fun _ _ _ => ⟨rfl, rfl⟩, fun _ _ => rfl, fun f hf s cl s' h => by cases hf; cases h; rfl⟩

theorem hostWhole_runsAs {m : Tasks Nat (Option Nat × Tov × String)} (hm : ∀ t s ins, ∃ c, (m.next t s ins).2 = some c)
    (sim : Option (Sim ((Nat → Nat) × Nat) Nat)) (k : TaskType) (t : Nat) :
    RunsAs whole { hostWhole m with sim := sim } Prod.fst m k t := by
  have key : ∀ (o : Msg Nat) s ins, whole (Msg.writeWhole o (m.next t s ins).2) = (m.next t s ins).2 := by
    intro o s ins
    obtain ⟨c, hc⟩ := hm t s ins
    rw [hc]
    rfl
  cases k with
  | source => exact fun out s => ⟨rfl, key _ _ _⟩
  | regular => exact fun ins out s => ⟨rfl, key _ _ _⟩
  | sink => exact fun ins s => rfl

def speedsGraph : Graph := ⟨3, [⟨0, 1, "a"⟩, ⟨1, 2, "b"⟩]⟩
def speedsPlan : List Step := match computePlan speedsGraph with | .ok (some p) => p | _ => []

def speedsRobot : App ((Nat → Nat) × Nat) Nat := ⟨3, speedsPlan, hostWhole speeds, .checked⟩

/-- The callback stands for the sensor and the actuator. -/
def speedsCallback : Sim ((Nat → Nat) × Nat) Nat where
  life _ _ s := (s, .executeByRuntime)
  process t ins out s :=
    if t = 1 then (s, out, .executeByRuntime)
    else
      let r := speedsSim.next t (s.1 t) (ins.map whole)
      ((update s.1 t r.1, s.2), Msg.writeWhole out r.2, .executedBySim)

def speedsSimulated : App ((Nat → Nat) × Nat) Nat :=
  ⟨3, speedsPlan, { hostWhole speedsSim with sim := some speedsCallback }, .checked⟩

def speedsStart : Rt ((Nat → Nat) × Nat) Nat := ⟨⟨(fun _ => 0, 0), []⟩, Manager.new 2 (List.replicate 3 (Msg.new none))⟩

theorem speeds_drives : Drives whole speedsRobot.env speedsRobot.plan Prod.fst speeds where
  runs := rfl
  calm := hostWhole_calm _ none
  life _ _ _ _ := ⟨rfl, rfl⟩
  process _ _ := hostWhole_runsAs speeds_some none _ _

theorem speeds_simulates : Simulates whole speedsSimulated.env speedsCallback speedsSimulated.plan Prod.fst speedsSim where
  runs := rfl
  calm := hostWhole_calm _ _
  life _ _ _ _ := ⟨rfl, .inr ⟨rfl, fun _ => ⟨rfl, rfl⟩⟩⟩
  process step _ ins out s _ := by
    by_cases h : step.nodeId = 1
    · right
      simp only [speedsCallback, if_pos h]
      exact ⟨trivial, trivial, hostWhole_runsAs speedsSim_some _ _ _⟩
    · left
      simp only [speedsCallback, if_neg h]
      refine ⟨by decide, trivial, fun _ => ?_⟩
      obtain ⟨c, hc⟩ := speedsSim_some step.nodeId (s.1 step.nodeId) (ins.map whole)
      simp only [simSent, hc]
      rfl

/-- What a task sends: payload and time of validity. -/
def speedsSent (t : Nat) (r : Rs (Rt ((Nat → Nat) × Nat) Nat × Option Err)) : List (Option Nat × Option Nat) :=
  match r with
  | .ok (rt, none) => (loggedLists rt.w.trace).map (fun cl => match sentBy whole speedsPlan t cl with
    | some (some (p, .time v, _)) => (p, some v.ns.toNat)
    | _ => (none, none))
  | _ => []

/-- Robot and simulation, by computation and by the theorem: the state of the task in between is the same. -/
example : speedsSent 0 (runLoop speedsRobot 3 speedsStart) = speedsSent 0 (runLoop speedsSimulated 3 speedsStart) ∧
    speedsSent 1 (runLoop speedsRobot 3 speedsStart) = [(some 10, some 10), (some 40, some 20), (some 90, some 30)] ∧
    speedsSent 1 (runLoop speedsSimulated 3 speedsStart) = [(some 10, some 10), (some 40, some 20), (some 90, some 30)] := by
  refine ⟨?_, ?_, ?_⟩ <;> decide +kernel

example {rt rt' : Rt ((Nat → Nat) × Nat) Nat} {n : Nat} (h : runLoop speedsRobot n speedsStart = .ok (rt, none))
    (h' : runLoop speedsSimulated n speedsStart = .ok (rt', none))
    (hsense : Pointwise (fun cl cl' => ∀ t, Sensor speedsGraph t →
      sentBy whole speedsPlan t cl = sentBy whole speedsPlan t cl') (loggedLists rt.w.trace) (loggedLists rt'.w.trace)) :
    rt.w.st.1 1 = rt'.w.st.1 1 := by
  refine (C122_fidelity_partial whole_ignoresTimes (g := speedsGraph) (robot := speedsRobot)
    (simulated := speedsSimulated) (m := speeds) (m' := speedsSim) (rt := speedsStart) (rt' := speedsStart) (by decide) ⟨id, by decide⟩ (by decide) (by decide)
    (by decide +kernel) rfl speeds_drives speeds_simulates ?_ rfl rfl rfl rfl
    ⟨rfl, rfl, by decide, by decide, by decide +kernel⟩ ⟨rfl, rfl, by decide, by decide, by decide +kernel⟩
    (fun _ _ => rfl) (fun _ _ => rfl) h h' hsense).1 1 (by simp [Inner, speedsGraph])
  intro t ht
  simp only [Inner, speedsGraph, List.mem_cons, List.not_mem_nil, or_false] at ht
  obtain ⟨⟨e, rfl | rfl, rfl⟩, e', rfl | rfl, he⟩ := ht
  · simp at he
  · exact ⟨rfl, rfl⟩
  · simp at he
  · simp at he

/-! ### A callback that sends nothing -/

/-- In its first turn the simulated sensor sends, afterwards it does nothing. -/
def onceCallback : Sim ((Nat → Int) × Nat) Int where
  life _ _ s := (s, .executedBySim)
  process t _ out s :=
    if t = 0 then
      if s.1 0 = 0 then ((update s.1 0 1, s.2), { out with payload := some 7 }, .executedBySim)
      else (s, out, .executedBySim)
    else (s, out, .executeByRuntime)

/-- A callback that does not touch the message of a sensor sends what was in it: here what it sent in its first turn is
received and logged in all further ones. -/
theorem C122_stale_violated :
    (∀ ins out (s : (Nat → Int) × Nat), s.1 0 ≠ 0 → onceCallback.process 0 ins out s = (s, out, .executedBySim)) ∧
    (runLoop { sumsSimulated with env := { host sums with sim := some onceCallback } } 3 (hostedStart sumsGraph sums)).map'
      (fun r => (r.2, r.1.w.st.1 1, (loggedLists r.1.w.trace).map (fun cl => payloadOf sumsSimulated.plan 0 cl))) =
      .ok (none, 21, [some (some 7), some (some 7), some (some 7)]) := by
  refine ⟨fun ins out s h => ?_, by decide +kernel⟩
  simp only [onceCallback, if_true, if_neg h]

end Dataflow
end Verif
