import Verif.Proofs.RuntimeSafe
import Verif.Spec.DemoApp
import Verif.Props.Runtime
/-!
The generated loop, its copper list pool and its log: C11 (complete log), C12 (no slot is leaked),
C24 (accessors and metadata), C52 (no panic), C53 (no stale message in the log).
-/
namespace Verif
namespace Runtime
open Planner CopperList Clock
variable {σ P : Type}

/-! ### C12 -/

/-- An iteration that returns `Ok` (also after an `Abort`) gives its slot back: when no list was in
use before, none is afterwards.  Missing: iterations that return an error, see
`C12_violated_shutdown`. -/
theorem C12_iteration_partial (app : App σ P) (rt rt' : Rt σ P) (k : Nat) (hi : Idle k rt.mgr)
    (h : runOneIteration app rt = .ok (rt', none)) :
    Idle k rt'.mgr ∧ rt'.mgr.cap = rt.mgr.cap :=
  ⟨(iteration_pool app rt hi h).1, (iteration_pool app rt hi h).2.1⟩

theorem runLoop_idle (app : App σ P) (k : Nat) : ∀ (n : Nat) (rt rt' : Rt σ P), Idle k rt.mgr →
    runLoop app n rt = .ok (rt', none) → Idle k rt'.mgr ∧ rt'.mgr.cap = rt.mgr.cap
  | 0, rt, rt', hi, h => by
    simp only [runLoop, Rs.ok.injEq, Prod.mk.injEq, and_true] at h
    subst h; exact ⟨hi, rfl⟩
  | n + 1, rt, rt', hi, h => by
    simp only [runLoop] at h
    split at h
    · cases h
    · simp at h
    · rename_i rt1 h1
      obtain ⟨h2, h3⟩ := C12_iteration_partial app rt rt1 k hi h1
      obtain ⟨h4, h5⟩ := runLoop_idle app k n rt1 rt' h2 h
      exact ⟨h4, h5.trans h3⟩

theorem startAll_mgr (app : App σ P) (rt : Rt σ P) : (startAll app rt).1.mgr = rt.mgr := by
  unfold startAll
  generalize lifeAll app.env .start (List.range app.tasks) rt.w = q
  obtain ⟨w, f⟩ := q
  cases f <;> rfl

/-- However many iterations a run makes, while it is running all its copper lists are free between
two iterations. -/
theorem C12_run_partial (app : App σ P) (n : Nat) (rt rt' : Rt σ P) (k : Nat) (hi : Idle k rt.mgr)
    (h : run app n rt = .ok (rt', .running)) :
    Idle k rt'.mgr ∧ rt'.mgr.cap = rt.mgr.cap := by
  have hm := startAll_mgr app rt
  unfold run at h
  generalize startAll app rt = q at h hm
  obtain ⟨rt1, r1⟩ := q
  simp only at hm
  cases r1 with
  | some e => simp at h
  | none =>
    simp only at h
    split at h
    · cases h
    · rename_i rt2 h2
      simp only [Rs.ok.injEq, Prod.mk.injEq, and_true] at h
      subst h
      obtain ⟨h3, h4⟩ := runLoop_idle app k n rt1 rt2 (by rw [hm]; exact hi) h2
      exact ⟨h3, by rw [h4, hm]⟩
    · split at h <;> simp at h

/-- The demo application starts with an idle pool and runs. -/
example : Idle 3 demoStart.mgr ∧ ∃ rt', run (demoApp (fun _ _ => false) (fun _ _ => .ignore) none) 4
    demoStart = .ok (rt', .running) := by
  refine ⟨⟨rfl, rfl, by decide, by decide, by decide⟩, _, rfl⟩

/-- An iteration ended by the monitor's `Shutdown` does not give its slot back: after as many of
them as there are copper lists, the next iteration panics.  (`run` ends at the first one; an
application calling `run_one_iteration` itself, as simulations do, meets it.) -/
theorem C12_violated_shutdown :
    ∃ (app : App Nat Nat) (rt rt1 rt2 : Rt Nat Nat) (e : Err), Idle 3 rt.mgr ∧ rt.mgr.cap = 2 ∧
      runOneIteration app rt = .ok (rt1, some e) ∧ runOneIteration app rt1 = .ok (rt2, some e) ∧
      runOneIteration app rt2 = .panic := by
  refine ⟨demoApp (fun ph t => ph == .process && t == 1) (fun _ _ => .shutdown) none, demoStart, _, _,
    "regular", ⟨rfl, rfl, by decide, by decide, by decide⟩, rfl, rfl, rfl, ?_⟩
  decide +kernel

/-! ### C11 and C53: what the log holds -/

/-- An undisturbed iteration (nothing aborted, no shutdown, no error of the monitor) of the
application of any task graph that has all its tasks in its plan, with task logging enabled, logs
exactly one copper list: it carries the id it was taken with and exactly the messages the tasks
left in this iteration, in plan order. -/
theorem C11_iteration_logged (g : Graph) (hg : g.WF) (app : App σ P)
    (hp : computePlan g = .ok (some app.plan)) (hlog : app.env.log.isSome = true)
    (rt rt' : Rt σ P) (hi : Idle app.plan.length rt.mgr)
    (h : runOneIteration app rt = .ok (rt', none)) :
    ∃ t, rt'.w.trace = rt.w.trace ++ t ∧
      ((∀ ev ∈ t, ev.stops = false) →
        createdIds t = [rt.mgr.currentClId] ∧
        loggedLists t = [⟨rt.mgr.currentClId, .beingSerialized, (lefts t).map Prod.snd⟩] ∧
        (lefts t).map Prod.fst = callOrder app.plan) := by
  have hw := wired_of_plan hg hp
  obtain ⟨_, _, t, h1, h2⟩ := iteration_pool app rt hi h
  refine ⟨t, h1, ?_⟩
  intro hns
  rcases h2 with ⟨_, _, _, _, ev, hev, hs⟩ | ⟨_, h3, msgs, h4, _, h5, h6⟩
  · rw [hns ev hev] at hs; cases hs
  · rw [if_pos hlog] at h5
    have h7 := (h6 hw rfl).2 hns
    refine ⟨h3, by rw [h5, h7], ?_⟩
    obtain ⟨t', h8, h9⟩ := iteration_trace app rt h
    have : t' = t := List.append_cancel_left (h8.symm.trans h1)
    subst this
    obtain ⟨_, h10⟩ := h9.flow hw
    refine h10.eq_of_length ?_
    have := congrArg List.length h7
    simp only [List.length_map] at this ⊢
    omega

/-- In general (also when the monitor aborts the iteration): the list logged is the one taken, and
at most one is. -/
theorem C11_iteration_at_most_once (app : App σ P) (rt rt' : Rt σ P) (k : Nat) (hi : Idle k rt.mgr)
    (h : runOneIteration app rt = .ok (rt', none)) :
    ∃ t, rt'.w.trace = rt.w.trace ++ t ∧
      (app.env.log.isSome = true → (loggedLists t).map CL.id = createdIds t) ∧
      (app.env.log.isSome = false → loggedLists t = []) ∧
      (createdIds t = [] ∨ createdIds t = [rt.mgr.currentClId]) := by
  obtain ⟨_, _, t, h1, h2⟩ := iteration_pool app rt hi h
  refine ⟨t, h1, ?_⟩
  rcases h2 with ⟨_, h3, h4, _⟩ | ⟨_, h3, msgs, _, _, h5, _⟩
  · exact ⟨fun _ => by rw [h3, h4]; rfl, fun _ => h4, .inl h3⟩
  · refine ⟨fun hl => ?_, fun hl => ?_, .inr h3⟩
    · rw [h5, h3, if_pos hl]; rfl
    · rw [h5, hl]; rfl

/-- The iterations of an undisturbed run (observed after `n` iterations): the log gets one list
per iteration, with consecutive ids, holding the messages of that iteration. -/
theorem C11_run_logged (g : Graph) (hg : g.WF) (app : App σ P)
    (hp : computePlan g = .ok (some app.plan)) (hlog : app.env.log.isSome = true) :
    ∀ (n : Nat) (rt rt' : Rt σ P), Idle app.plan.length rt.mgr →
      runLoop app n rt = .ok (rt', none) →
      ∃ its : List (List (Ev P)), rt'.w.trace = rt.w.trace ++ its.flatten ∧ its.length = n ∧
        ((∀ t ∈ its, ∀ ev ∈ t, ev.stops = false) →
          loggedLists its.flatten = its.zipIdx.map (fun ti =>
            ⟨rt.mgr.currentClId + UInt32.ofNat ti.2, .beingSerialized, (lefts ti.1).map Prod.snd⟩) ∧
          ∀ t ∈ its, (lefts t).map Prod.fst = callOrder app.plan)
  | 0, rt, rt', hi, h => by
    simp only [runLoop, Rs.ok.injEq, Prod.mk.injEq, and_true] at h
    subst h; exact ⟨[], by simp, rfl, by simp [loggedLists]⟩
  | n + 1, rt, rt', hi, h => by
    simp only [runLoop] at h
    split at h
    · cases h
    · simp at h
    · rename_i rt1 h1
      have hw := wired_of_plan hg hp
      obtain ⟨h2, _, t, h3, h4⟩ := iteration_pool app rt hi h1
      obtain ⟨its, h5, h6, h7⟩ := C11_run_logged g hg app hp hlog n rt1 rt' h2 h
      obtain ⟨t', h11, h12⟩ := C11_iteration_logged g hg app hp hlog rt rt1 hi h1
      have : t' = t := List.append_cancel_left (h11.symm.trans h3)
      subst this
      refine ⟨t' :: its, by rw [h5, h3]; simp, by simp [h6], ?_⟩
      intro hns
      have hnt := hns t' (by simp)
      rcases h4 with ⟨_, _, _, _, ev, hev, hs⟩ | ⟨hid, h3, msgs, _, _, h8, h9⟩
      · rw [hnt ev hev] at hs; cases hs
      · rw [if_pos hlog, (h9 hw rfl).2 hnt] at h8
        obtain ⟨h10, h13⟩ := h7 (fun t ht => hns t (by simp [ht]))
        refine ⟨?_, by
          intro t ht
          rcases List.mem_cons.1 ht with rfl | ht
          · exact (h12 hnt).2.2
          · exact h13 t ht⟩
        rw [List.flatten_cons, loggedLists_append, h8, h10, hid]
        simp only [List.zipIdx_cons, List.map_cons, List.cons_append, List.nil_append, List.cons.injEq]
        refine ⟨by simp, ?_⟩
        rw [List.zipIdx_succ, List.map_map]
        apply List.map_congr_left
        intro x _
        simp only [Function.comp]
        congr 1
        rw [UInt32.ofNat_add, UInt32.add_comm (UInt32.ofNat x.2), UInt32.add_assoc]
        rfl

/-- Two iterations of the demo application log two lists of three messages, ids 0 and 1. -/
example : demoGraph.WF ∧ Idle 3 demoStart.mgr ∧
    ∃ rt', runLoop (demoApp (fun _ _ => false) (fun _ _ => .ignore) none) 2 demoStart = .ok (rt', none) ∧
      (∀ ev ∈ rt'.w.trace, ev.stops = false) ∧
      (loggedLists rt'.w.trace).map (fun c => (c.id, c.msgs.map Msg.payload)) =
        [(0, [some 6, some 1006, none]), (1, [some 12, some 1012, none])] := by
  refine ⟨by decide, ⟨rfl, rfl, by decide, by decide, by decide⟩, _, rfl, ?_, ?_⟩ <;> decide +kernel

/-- C53, undisturbed iterations (those the monitor does not abort): every message of a logged list
was left by a task in this very iteration.  Missing: aborted iterations, see
`C53_violated_after_abort`. -/
theorem C53_only_own_messages_partial (g : Graph) (hg : g.WF) (app : App σ P)
    (hp : computePlan g = .ok (some app.plan)) (rt rt' : Rt σ P)
    (hi : Idle app.plan.length rt.mgr) (h : runOneIteration app rt = .ok (rt', none)) :
    ∃ t, rt'.w.trace = rt.w.trace ++ t ∧
      ((∀ ev ∈ t, ev.stops = false) → ∀ cl ∈ loggedLists t, ∀ m ∈ cl.msgs, ∃ v, (v, m) ∈ lefts t) := by
  have hw := wired_of_plan hg hp
  obtain ⟨_, _, t, h1, h2⟩ := iteration_pool app rt hi h
  refine ⟨t, h1, ?_⟩
  intro hns cl hcl m hm
  rcases h2 with ⟨_, _, _, _, ev, hev, hs⟩ | ⟨_, h3, msgs, h4, _, h5, h6⟩
  · rw [hns ev hev] at hs; cases hs
  · rw [(h6 hw rfl).2 hns] at h5
    rw [h5] at hcl
    split at hcl
    · simp only [List.mem_singleton] at hcl
      subst hcl
      obtain ⟨x, hx, rfl⟩ := List.mem_map.1 hm
      exact ⟨x.1, hx⟩
    · cases hcl

/-- Reads the state out of an iteration that returned. -/
def after (r : Rs (Rt Nat Nat × Option Err)) : Rt Nat Nat :=
  match r with
  | .ok (rt, _) => rt
  | .panic => demoStart

/-- The demo application with a source that fails late and a monitor that aborts. -/
def abortApp : App Nat Nat :=
  let a := demoApp (fun _ _ => false) (fun _ _ => .abort) none
  { a with env := { a.env with
      source := fun tid out s =>
        (s, out.setPayload (100 * tid + s), if 10 ≤ s then some "late" else none) } }

def abort1 : Rt Nat Nat := after (runOneIteration abortApp demoStart)
def abort2 : Rt Nat Nat := after (runOneIteration abortApp abort1)

/-- After an abort, the list is logged although the tasks behind did not run: it holds a message of
the *previous* iteration.  Here the source fails in the second iteration and the monitor decides to
abort; the logged list 1 contains the payload 1006 computed by task 1 in iteration 0. -/
theorem C53_violated_after_abort :
    computePlan demoGraph = .ok (some abortApp.plan) ∧ Idle 3 demoStart.mgr ∧
    runOneIteration abortApp demoStart = .ok (abort1, none) ∧
    runOneIteration abortApp abort1 = .ok (abort2, none) ∧
    ∃ (t : List (Ev Nat)) (cl : CL (List (Msg Nat))) (m : Msg Nat),
      abort2.w.trace = abort1.w.trace ++ t ∧ loggedLists t = [cl] ∧ m ∈ cl.msgs ∧
      m.payload = some 1006 ∧ lefts t = [] ∧ (1, m) ∈ lefts abort1.w.trace := by
  refine ⟨by decide +kernel, ⟨rfl, rfl, by decide, by decide, by decide⟩, by decide +kernel,
    by decide +kernel, abort2.w.trace.drop abort1.w.trace.length,
    ⟨1, .beingSerialized, (abort2.mgr.data.map CL.msgs).head!⟩,
    ⟨some 1006, ⟨⟨⟨⟨7⟩⟩, ⟨⟨8⟩⟩⟩, .none, ""⟩⟩, ?_, ?_, ?_, rfl, ?_, ?_⟩ <;> decide +kernel

/-! ### C24 -/

/-- The call order of the tasks is its own inverse (in particular: tasks declared in call order). -/
def SelfInverse (order : List Nat) : Prop := ∀ k t : Nat, order[k]? = some t → order[t]? = some k

/-- If the call order of the tasks is its own inverse, then in the list logged by an undisturbed
iteration the accessor generated for a task reads the message this task left, and position `tid`
of the metadata shown to the monitor is the metadata of the message left by task `tid`.  Missing:
other call orders, see `C24_wrong_otherwise` and `C24_violated`. -/
theorem C24_accessors_partial (g : Graph) (hg : g.WF) (app : App σ P)
    (hp : computePlan g = .ok (some app.plan)) (hinv : SelfInverse (callOrder app.plan))
    (hlog : app.env.log.isSome = true) (rt rt' : Rt σ P)
    (hi : Idle app.plan.length rt.mgr) (h : runOneIteration app rt = .ok (rt', none)) :
    ∃ t, rt'.w.trace = rt.w.trace ++ t ∧
      ((∀ ev ∈ t, ev.stops = false) →
        ∃ cl md, loggedLists t = [cl] ∧ shownMetadata t = [md] ∧
          ∀ v m, (v, m) ∈ lefts t →
            (∃ i, accessorIndex app.plan v = some i ∧ cl.msgs[i]? = some m) ∧ md[v]? = some m.md) := by
  have hw := wired_of_plan hg hp
  obtain ⟨t0, h0, h0'⟩ := C11_iteration_logged g hg app hp hlog rt rt' hi h
  obtain ⟨_, _, t, h1, h2⟩ := iteration_pool app rt hi h
  have : t0 = t := List.append_cancel_left (h0.symm.trans h1)
  subst this
  refine ⟨t0, h1, ?_⟩
  intro hns
  obtain ⟨_, hl, hf⟩ := h0' hns
  rcases h2 with ⟨_, _, _, _, ev, hev, hs⟩ | ⟨_, h3, msgs, h4, ⟨md, h7, h8⟩, h5, h6⟩
  · rw [hns ev hev] at hs; cases hs
  · have hms := (h6 hw rfl).2 hns
    refine ⟨_, md, hl, h8, ?_⟩
    intro v m hvm
    obtain ⟨i, hi1, hi2⟩ := List.getElem_of_mem hvm
    have hi3 : (lefts t0)[i]? = some (v, m) := by rw [List.getElem?_eq_getElem hi1, hi2]
    have hi4 : (callOrder app.plan)[i]? = some v := by rw [← hf, List.getElem?_map, hi3]; rfl
    have hi5 := hinv i v hi4
    refine ⟨⟨i, hi5, by simp [hi3]⟩, ?_⟩
    rw [((collectMetadata_get h7).2 v i hi5).1, hms]
    simp [hi3]

/-- Whenever the call order is not its own inverse, the accessor of some task reads a message at
the position of another task. -/
theorem C24_wrong_otherwise (g : Graph) (hg : g.WF) (ha : g.Acyclic) (plan : List Step)
    (hp : computePlan g = .ok (some plan)) (hinv : ¬ SelfInverse (callOrder plan)) :
    ∃ v i other, v < g.nodes ∧ accessorIndex plan v = some i ∧
      (callOrder plan)[i]? = some other ∧ other ≠ v := by
  have hni : ¬ ∃ v, g.Isolated v := by
    intro hiso
    rcases computePlan_cases hg with ⟨_, h'⟩ | ⟨h', _⟩
    · rw [h'] at hp; cases hp
    · exact h' hiso
  obtain ⟨plan', hp', hall⟩ := C15_complete g hg ha hni
  rw [hp] at hp'
  simp only [Rs.ok.injEq, Option.some.injEq] at hp'
  subst hp'
  obtain ⟨hnd, hlt⟩ := (C13_each_task_once g hg).2 plan hp
  have hlen : (callOrder plan).length = g.nodes := by
    have h1 : (callOrder plan).length ≤ (List.range g.nodes).length :=
      hnd.length_le_of_subset (fun x hx => List.mem_range.2 (hlt x hx))
    have h2 : (List.range g.nodes).length ≤ (callOrder plan).length :=
      List.nodup_range.length_le_of_subset (fun x hx => hall x (List.mem_range.1 hx))
    simp only [List.length_range] at h1 h2
    omega
  unfold SelfInverse at hinv
  simp only [Classical.not_forall] at hinv
  obtain ⟨k, t, hk, hne⟩ := hinv
  have hkl := (List.getElem?_eq_some_iff.1 hk).1
  have htl : t < g.nodes := hlt t (List.mem_of_getElem? hk)
  have ht : (callOrder plan)[t]? = some ((callOrder plan)[t]'(by omega)) := List.getElem?_eq_getElem _
  exact ⟨k, t, _, by omega, hk, ht, fun he => hne (by rw [ht, he])⟩

/-- sink declared first, then the source, then the task between them. -/
def rotatedGraph : Graph := ⟨3, [⟨1, 2, "a"⟩, ⟨2, 0, "b"⟩]⟩

def rotatedPlan : List Step :=
  [⟨1, .source, [], some (0, "a")⟩, ⟨2, .regular, [(0, "a")], some (1, "b")⟩,
   ⟨0, .sink, [(1, "b")], some (2, "()")⟩]

def rotatedApp (o : Overflow) : App Nat Nat :=
  ⟨3, rotatedPlan, demoEnv (fun _ _ => false) (fun _ _ => .ignore) none, o⟩

def rotated1 : Rt Nat Nat := after (runOneIteration (rotatedApp .wrapping) demoStart)

/-- The accessors and the metadata are wrong for an application whose tasks are declared in another
order: `get_<source>_output` returns the (empty) message of the sink, and the metadata at the
source's position is that of the sink's message. -/
theorem C24_violated :
    rotatedGraph.WF ∧ computePlan rotatedGraph = .ok (some rotatedPlan) ∧
    runOneIteration (rotatedApp .wrapping) demoStart = .ok (rotated1, none) ∧
    (∀ ev ∈ rotated1.w.trace, ev.failed = false) ∧
    accessorIndex rotatedPlan 1 = some 2 ∧
    (loggedLists rotated1.w.trace).map (fun cl => cl.msgs.map Msg.payload) =
      [[some 106, some 2106, none]] ∧
    (lefts rotated1.w.trace).map (fun x => (x.1, x.2.payload)) =
      [(1, some 106), (2, some 2106), (0, none)] ∧
    (shownMetadata rotated1.w.trace).map (fun md => md[1]?) =
      [((lefts rotated1.w.trace)[2]?.map (fun x => x.2.md))] ∧
    (lefts rotated1.w.trace)[2]?.map (fun x => x.2.md) ≠
      (lefts rotated1.w.trace)[0]?.map (fun x => x.2.md) := by
  refine ⟨by decide, ?_, ?_, ?_, ?_, ?_, ?_, ?_, ?_⟩ <;> decide +kernel

/-- The demo application declares its tasks in call order. -/
example : SelfInverse (callOrder demoPlan) ∧ ¬ SelfInverse (callOrder rotatedPlan) := by
  constructor
  · intro k t h
    have hk : k < 3 := (List.getElem?_eq_some_iff.1 h).1
    match k, hk with
    | 0, _ | 1, _ | 2, _ => simp [callOrder, demoPlan] at h; subst h; rfl
  · intro h
    have := h 0 1 rfl
    revert this
    decide

/-! ### C52 -/

/-- Tasks declared producers first: every connection goes from an earlier to a later task. -/
def ProducersFirst (g : Graph) : Prop := ∀ e ∈ g.edges, e.src < e.dst

/-- An iteration cannot panic: for every acyclic graph of connected tasks, with tasks declared
producers first, a monotone clock, a log stream that accepts the lists and at most 2^32 - 1
iterations before.  Missing: other declaration orders in debug builds, see
`C52_violated_declaration_order` (they are covered for release builds). -/
theorem C52_no_panic_partial (g : Graph) (hg : g.WF) (ha : g.Acyclic) (hn : 0 < g.nodes)
    (app : App σ P) (hp : computePlan g = .ok (some app.plan))
    (hdecl : ProducersFirst g ∨ app.overflow = .wrapping)
    (T : σ → Nat) (hc : MonotoneClock app.env T) (hk : KeepsStart app.env)
    (hlog : LogAccepts app.env.log) (rt : Rt σ P) (hi : Idle app.plan.length rt.mgr)
    (hid : rt.mgr.currentClId ≠ 0xFFFFFFFF ∨ app.overflow = .wrapping) :
    ∃ r, runOneIteration app rt = .ok r := by
  have hw := wired_of_plan hg hp
  have hni : ¬ ∃ v, g.Isolated v := by
    intro hiso
    rcases computePlan_cases hg with ⟨_, h'⟩ | ⟨h', _⟩
    · rw [h'] at hp; cases hp
    · exact h' hiso
  obtain ⟨plan', hp', hall⟩ := C15_complete g hg ha hni
  rw [hp] at hp'
  simp only [Rs.ok.injEq, Option.some.injEq] at hp'
  subst hp'
  obtain ⟨hnd, hlt⟩ := (C13_each_task_once g hg).2 _ hp
  have hlen : app.plan.length = g.nodes := by
    have h1 : (callOrder app.plan).length ≤ (List.range g.nodes).length :=
      hnd.length_le_of_subset (fun x hx => List.mem_range.2 (hlt x hx))
    have h2 : (List.range g.nodes).length ≤ (callOrder app.plan).length :=
      List.nodup_range.length_le_of_subset (fun x hx => hall x (List.mem_range.1 hx))
    simp only [List.length_range, callOrder, List.length_map] at h1 h2
    omega
  have hlat : LatencyOk app := by
    rcases hdecl with hd | hd
    · right
      intro f l hf hl
      have h0 : (0 : Nat) ∈ sources g := by
        have : g.incoming 0 = [] := by
          rw [incoming_eq_nil_iff]
          intro e he h0
          have := hd e he
          omega
        simp [sources, hn, taskType, this]
      have hs : ∃ tl, sources g = 0 :: tl := by
        have : List.range g.nodes = 0 :: (List.range (g.nodes - 1)).map Nat.succ := by
          rw [← List.range_succ_eq_map]; congr 1; omega
        unfold sources at h0 ⊢
        rw [this] at h0 ⊢
        rw [List.filter_cons] at h0 ⊢
        split
        · exact ⟨_, rfl⟩
        · rename_i hneg
          rw [if_neg hneg] at h0
          simp at h0
      obtain ⟨tl, hs⟩ := hs
      have := computePlan_head hg hp hs
      unfold callOrder at hf
      rw [show app.plan.map Step.nodeId = ids app.plan from rfl, this] at hf
      cases hf
      exact Nat.zero_le _
    · exact .inl hd
  exact iteration_safe app rt hw (by intro h; rw [h] at hlen; simp at hlen; omega)
    (by rw [hlen]; exact hlt) hc hk hlat hlog hi hid

/-- Hence a whole run (started normally or not) never panics, as long as the id counter lasts. -/
theorem C52_run_no_panic_partial (g : Graph) (hg : g.WF) (ha : g.Acyclic) (hn : 0 < g.nodes)
    (app : App σ P) (hp : computePlan g = .ok (some app.plan))
    (hdecl : ProducersFirst g ∨ app.overflow = .wrapping)
    (T : σ → Nat) (hc : MonotoneClock app.env T) (hk : KeepsStart app.env)
    (hlog : LogAccepts app.env.log) (n : Nat) (rt : Rt σ P) (hi : Idle app.plan.length rt.mgr)
    (hid : rt.mgr.currentClId.toNat + n ≤ 0xFFFFFFFF ∨ app.overflow = .wrapping) :
    ∃ r, run app n rt = .ok r := by
  have loop : ∀ (n : Nat) (rt : Rt σ P), Idle app.plan.length rt.mgr →
      (rt.mgr.currentClId.toNat + n ≤ 0xFFFFFFFF ∨ app.overflow = .wrapping) →
      ∃ r, runLoop app n rt = .ok r := by
    intro n
    induction n with
    | zero => intro rt _ _; exact ⟨_, rfl⟩
    | succ n ih =>
      intro rt hi hid
      have hid' : rt.mgr.currentClId ≠ 0xFFFFFFFF ∨ app.overflow = .wrapping := by
        rcases hid with h | h
        · left
          intro h1
          rw [h1] at h
          have : (0xFFFFFFFF : UInt32).toNat = 0xFFFFFFFF := rfl
          omega
        · exact .inr h
      obtain ⟨⟨rt1, r⟩, h1⟩ := C52_no_panic_partial g hg ha hn app hp hdecl T hc hk hlog rt hi hid'
      simp only [runLoop, h1]
      cases r with
      | some e => exact ⟨_, rfl⟩
      | none =>
        simp only
        obtain ⟨h2, _, t, _, h3⟩ := iteration_pool app rt hi h1
        refine ih rt1 h2 ?_
        rcases hid with h | h
        · left
          rcases h3 with ⟨h3, _⟩ | ⟨h3, _⟩
          · rw [h3]; omega
          · rw [h3]
            have := UInt32.toNat_add rt.mgr.currentClId 1
            have h4 : (1 : UInt32).toNat = 1 := rfl
            rw [this, h4]
            omega
        · exact .inr h
  have hm := startAll_mgr app rt
  unfold run
  generalize startAll app rt = q at hm
  obtain ⟨rt1, r1⟩ := q
  simp only at hm
  cases r1 with
  | some e => exact ⟨_, rfl⟩
  | none =>
    obtain ⟨⟨rt2, r2⟩, h2⟩ := loop n rt1 (by rw [hm]; exact hi) (by rw [hm]; exact hid)
    simp only [h2]
    cases r2 with
    | none => exact ⟨_, rfl⟩
    | some e => simp only; split <;> exact ⟨_, rfl⟩

/-- The hypotheses hold of the demo application (its clock is shown monotone beside C22). -/
example : demoGraph.WF ∧ demoGraph.Acyclic ∧ ProducersFirst demoGraph ∧
    Idle demoPlan.length demoStart.mgr ∧
    LogAccepts (demoApp (fun _ _ => false) (fun _ _ => .ignore) none).env.log := by
  have : ProducersFirst demoGraph := by unfold ProducersFirst; decide
  refine ⟨by decide, ⟨fun x => x, this⟩, this, ⟨rfl, rfl, by decide, by decide, by decide⟩, ?_⟩
  intro f hf s cl
  simp only [demoApp, demoEnv, Option.some.injEq] at hf
  subst hf
  exact ⟨_, rfl⟩

/-- With the sink declared first, the very first iteration of a debug build panics although no task
fails: the end to end latency is computed backwards. -/
theorem C52_violated_declaration_order :
    rotatedGraph.WF ∧ computePlan rotatedGraph = .ok (some (rotatedApp .checked).plan) ∧
    Idle 3 demoStart.mgr ∧ runOneIteration (rotatedApp .checked) demoStart = .panic := by
  refine ⟨by decide, by decide +kernel, ⟨rfl, rfl, by decide, by decide, by decide⟩, by decide +kernel⟩

end Runtime
end Verif
