import Verif.Proofs.RuntimeRun
import Verif.Spec.DemoApp
/-!
C18 (lifecycle ordering), C19 (monitor decisions), C20 (simulation override) about the generated
application loop (core/cu29_derive/src/lib.rs).
-/
namespace Verif
namespace Runtime
open Planner CopperList Clock
variable {σ P : Type}

/-! ### C18 Lifecycle ordering -/

/-- One iteration, whatever the tasks, the monitor, the simulation and the clock do: the steps
reached are a prefix of the schedule (every preprocess, the processes in plan order, every
postprocess), each reached once.  If nothing reports an error it is the whole schedule and the
iteration returns `Ok`. -/
theorem C18_iteration (app : App σ P) (rt rt' : Rt σ P) (r : Option Err)
    (h : runOneIteration app rt = .ok (rt', r)) :
    ∃ t, rt'.w.trace = rt.w.trace ++ t ∧
      visits app.env.sim.isSome t <+: schedule app.tasks app.plan ∧
      ((∀ ev ∈ t, ev.failed = false) →
        visits app.env.sim.isSome t = schedule app.tasks app.plan ∧ r = none) := by
  obtain ⟨t, h1, h2⟩ := iteration_trace app rt h
  refine ⟨t, h1, h2.order.1, fun hf => h2.order.2 ?_⟩
  intro ev hev
  cases hs : ev.stops with
  | false => rfl
  | true =>
    obtain ⟨ev', h3, h4⟩ := h2.simOk.cause ⟨ev, hev, hs⟩
    rw [hf ev' h3] at h4; cases h4

example : ∃ rt', runOneIteration (demoApp (fun _ _ => false) (fun _ _ => .ignore) none) demoStart =
      .ok (rt', none) ∧ (∀ ev ∈ rt'.w.trace, ev.failed = false) ∧
    visits false rt'.w.trace = [(.preprocess, 0), (.preprocess, 1), (.preprocess, 2), (.process, 0),
      (.process, 1), (.process, 2), (.postprocess, 0), (.postprocess, 1), (.postprocess, 2)] := by
  refine ⟨_, rfl, ?_, ?_⟩ <;> decide

/-- A whole run, observed after at most `n` iterations.  Start is called on the tasks first, at
most once each and in declaration order, and on all of them unless something fails; then come
complete iterations; stop is called only after the last iteration, at most once each, and on all
of them unless something fails.  While the run is going on no stop is called. -/
theorem C18_run (app : App σ P) (n : Nat) (rt rt' : Rt σ P) (r : RunResult)
    (h : run app n rt = .ok (rt', r)) :
    ∃ (starts : List (Ev P)) (iterations : List (List (Ev P))) (stops : List (Ev P)),
      rt'.w.trace = rt.w.trace ++ starts ++ iterations.flatten ++ stops ∧
      visits app.env.sim.isSome starts <+: everyTask .start app.tasks ∧
      ((∀ ev ∈ starts, ev.failed = false) →
        visits app.env.sim.isSome starts = everyTask .start app.tasks) ∧
      (∀ t ∈ iterations, visits app.env.sim.isSome t <+: schedule app.tasks app.plan) ∧
      (∀ t ∈ iterations, (∀ ev ∈ t, ev.failed = false) →
        visits app.env.sim.isSome t = schedule app.tasks app.plan) ∧
      visits app.env.sim.isSome stops <+: everyTask .stop app.tasks ∧
      (r = .running → iterations.length = n ∧ stops = []) ∧
      (r ≠ .running → iterations ≠ [] → (∀ ev ∈ stops, ev.failed = false) →
        visits app.env.sim.isSome stops = everyTask .stop app.tasks) := by
  have noStop : ∀ {t : List (Ev P)}, SimOk app.env.sim.isSome t → (∀ ev ∈ t, ev.failed = false) →
      ∀ ev ∈ t, ev.stops = false := by
    intro t hs hf ev hev
    cases hs' : ev.stops with
    | false => rfl
    | true =>
      obtain ⟨ev', h3, h4⟩ := hs.cause ⟨ev, hev, hs'⟩
      rw [hf ev' h3] at h4; cases h4
  obtain ⟨ts, hs1, hs2⟩ := startAll_trace app rt
  unfold run at h
  generalize startAll app rt = q at h hs1 hs2
  obtain ⟨rt1, r1⟩ := q
  cases r1 with
  | some e =>
    simp only [Rs.ok.injEq, Prod.mk.injEq] at h
    obtain ⟨rfl, rfl⟩ := h
    refine ⟨ts, [], [], by simpa using hs1, hs2.order, ?_, by simp, by simp, by simp [visits], by simp,
      by simp⟩
    intro hf
    exact (hs2.full (noStop hs2.sim hf)).1
  | none =>
    simp only at h
    have hstart : (∀ ev ∈ ts, ev.failed = false) →
        visits app.env.sim.isSome ts = everyTask .start app.tasks :=
      fun hf => (hs2.full (noStop hs2.sim hf)).1
    have hit : ∀ {t : List (Ev P)} {r : Option Err},
        IterTrace app.env.sim.isSome app.tasks app.plan t r →
        visits app.env.sim.isSome t <+: schedule app.tasks app.plan ∧
        ((∀ ev ∈ t, ev.failed = false) →
          visits app.env.sim.isSome t = schedule app.tasks app.plan) :=
      fun h => ⟨h.order.1, fun hf => (h.order.2 (noStop h.simOk hf)).1⟩
    cases hl : runLoop app n rt1 with
    | panic => rw [hl] at h; cases h
    | ok q =>
      obtain ⟨rt2, r2⟩ := q
      rw [hl] at h
      obtain ⟨its, h1, h2, h3⟩ := runLoop_trace app n rt1 hl
      cases r2 with
      | none =>
        simp only [Rs.ok.injEq, Prod.mk.injEq] at h
        obtain ⟨rfl, rfl⟩ := h
        obtain ⟨h4, h5⟩ := h2 rfl
        exact ⟨ts, its, [], by simp only at hs1; rw [h1, hs1]; simp, hs2.order, hstart,
          fun t ht => (hit (h5 t ht)).1, fun t ht => (hit (h5 t ht)).2, by simp [visits],
          fun _ => ⟨h4, rfl⟩, by simp⟩
      | some e =>
        obtain ⟨before, last, h4, h5, h6, h7⟩ := h3 e rfl
        have hall : ∀ t ∈ its, ∃ r, IterTrace app.env.sim.isSome app.tasks app.plan t r := by
          intro t ht
          rw [h4] at ht
          rcases List.mem_append.1 ht with ht | ht
          · exact ⟨none, h6 t ht⟩
          · simp only [List.mem_singleton] at ht; subst ht; exact ⟨some e, h7⟩
        obtain ⟨tp, hp1, hp2⟩ := stopAll_trace app rt2
        simp only at h
        generalize stopAll app rt2 = q at h hp1 hp2
        obtain ⟨rt3, r3⟩ := q
        have hfin : rt3.w.trace = rt.w.trace ++ ts ++ its.flatten ++ tp := by
          simp only at hp1 hs1; rw [hp1, h1, hs1]
        cases r3 <;>
        · simp only [Rs.ok.injEq, Prod.mk.injEq] at h
          obtain ⟨rfl, rfl⟩ := h
          exact ⟨ts, its, tp, hfin, hs2.order, hstart,
            fun t ht => (hit (hall t ht).choose_spec).1, fun t ht => (hit (hall t ht).choose_spec).2,
            hp2.order, by simp, fun _ _ hf => (hp2.full (noStop hp2.sim hf)).1⟩

/-- A run of three iterations without errors, and one that ends in its second iteration. -/
example : (∃ rt', run (demoApp (fun _ _ => false) (fun _ _ => .ignore) none) 3 demoStart =
      .ok (rt', .running) ∧ (visits false rt'.w.trace).length = 3 + 3 * 9) ∧
    (∃ rt', run (demoApp (fun ph t => ph == .postprocess && t == 1) (fun _ _ => .shutdown) none) 3
      demoStart = .ok (rt', .ended "lifecycle") ∧
      visits false rt'.w.trace = everyTask .start 3 ++ (schedule 3 demoPlan).take 8 ++
        everyTask .stop 3) := by
  refine ⟨⟨_, rfl, by decide +kernel⟩, ⟨_, rfl, by decide +kernel⟩⟩

/-! ### C19 Monitor decisions are honoured -/

/-- In every iteration, every error reported by a task (or emulated by the simulation) is submitted
to the monitor, and every decision of the monitor is followed exactly (`decisionOk`). -/
theorem C19_iteration (app : App σ P) (rt rt' : Rt σ P) (r : Option Err)
    (h : runOneIteration app rt = .ok (rt', r)) :
    ∃ t, rt'.w.trace = rt.w.trace ++ t ∧
      Throughout failureReported t ∧ Throughout (decisionOk r) t ∧
      visits app.env.sim.isSome t <+: schedule app.tasks app.plan ∧
      ((∀ ev ∈ t, ev.stops = false) →
        visits app.env.sim.isSome t = schedule app.tasks app.plan ∧ r = none) := by
  obtain ⟨t, h1, h2⟩ := iteration_trace app rt h
  exact ⟨t, h1, h2.simOk.rep, h2.obeyed, h2.order⟩

/-- A failing regular task that is ignored: the iteration goes on to the end with an empty
message; aborted: the sink is not reached and the result is `Ok`; shut down: an error. -/
example :
    (∃ rt', runOneIteration (demoApp (fun ph t => ph == .process && t == 1) (fun _ _ => .ignore) none)
      demoStart = .ok (rt', none) ∧ visits false rt'.w.trace = schedule 3 demoPlan) ∧
    (∃ rt', runOneIteration (demoApp (fun ph t => ph == .process && t == 1) (fun _ _ => .abort) none)
      demoStart = .ok (rt', none) ∧ visits false rt'.w.trace = (schedule 3 demoPlan).take 5) ∧
    (∃ rt', runOneIteration (demoApp (fun ph t => ph == .process && t == 1) (fun _ _ => .shutdown) none)
      demoStart = .ok (rt', some "regular") ∧ visits false rt'.w.trace = (schedule 3 demoPlan).take 5) := by
  refine ⟨⟨_, rfl, ?_⟩, ⟨_, rfl, ?_⟩, ⟨_, rfl, ?_⟩⟩ <;> decide +kernel

/-- The same for starting and for stopping all the tasks. -/
theorem C19_start_stop (app : App σ P) (rt : Rt σ P) :
    (∃ t, (startAll app rt).1.w.trace = rt.w.trace ++ t ∧ Throughout failureReported t ∧
      Throughout (decisionOk (startAll app rt).2) t) ∧
    (∃ t, (stopAll app rt).1.w.trace = rt.w.trace ++ t ∧ Throughout failureReported t ∧
      Throughout (decisionOk (stopAll app rt).2) t) := by
  obtain ⟨t, h1, h2⟩ := startAll_trace app rt
  obtain ⟨t', h3, h4⟩ := stopAll_trace app rt
  exact ⟨⟨t, h1, h2.sim.rep, h2.obeyed⟩, ⟨t', h3, h4.sim.rep, h4.obeyed⟩⟩

/-- A `Shutdown` decision (or an error of the monitor) ends `run`: it stops the tasks and returns
an error; an iteration that returns `Ok` lets it go on. -/
theorem C19_run_ends_iff (app : App σ P) (n : Nat) (rt rt' : Rt σ P) (r : Option Err)
    (h : runLoop app (n + 1) rt = .ok (rt', r)) :
    ∃ rt1 r1, runOneIteration app rt = .ok (rt1, r1) ∧
      match r1 with
      | some e => r = some e ∧ rt' = rt1
      | none => runLoop app n rt1 = .ok (rt', r) := by
  unfold runLoop at h
  cases hi : runOneIteration app rt with
  | panic => rw [hi] at h; cases h
  | ok q =>
    obtain ⟨rt1, r1⟩ := q
    refine ⟨rt1, r1, rfl, ?_⟩
    rw [hi] at h
    cases r1 with
    | none => exact h
    | some e =>
      simp only [Rs.ok.injEq, Prod.mk.injEq] at h
      exact ⟨h.2.symm, h.1.symm⟩

/-! ### C20 Simulation override is honoured -/

/-- Over a whole run of an application built for simulation, the calls of the tasks' own code are
exactly the steps for which the callback answered `ExecuteByRuntime`, in the same order (and with
the same inputs); an answer `Errored` is submitted to the monitor like an error of the task (and
the decision is followed, see C19).  In a normal build the callback is never asked. -/
theorem C20_override (app : App σ P) (n : Nat) (rt rt' : Rt σ P) (r : RunResult)
    (h : run app n rt = .ok (rt', r)) :
    ∃ t, rt'.w.trace = rt.w.trace ++ t ∧
      (app.env.sim.isSome = true → realCalls t = delegated t) ∧
      Throughout failureReported t ∧
      (app.env.sim.isSome = false → ∀ ev ∈ t, ∀ ph tid ins o, ev ≠ .asked ph tid ins o) := by
  suffices hs : ∃ t, rt'.w.trace = rt.w.trace ++ t ∧ SimOk app.env.sim.isSome t by
    obtain ⟨t, h1, h2⟩ := hs
    exact ⟨t, h1, h2.real, h2.rep, h2.noSim⟩
  obtain ⟨ts, hs1, hs2⟩ := startAll_trace app rt
  unfold run at h
  generalize startAll app rt = q at h hs1 hs2
  obtain ⟨rt1, r1⟩ := q
  cases r1 with
  | some e =>
    simp only [Rs.ok.injEq, Prod.mk.injEq] at h
    obtain ⟨rfl, rfl⟩ := h
    exact ⟨ts, hs1, hs2.sim⟩
  | none =>
    simp only at h hs1
    cases hl : runLoop app n rt1 with
    | panic => rw [hl] at h; cases h
    | ok q =>
      obtain ⟨rt2, r2⟩ := q
      rw [hl] at h
      obtain ⟨its, h1, h2, h3⟩ := runLoop_trace app n rt1 hl
      have hflat : ∀ l : List (List (Ev P)), (∀ t ∈ l, SimOk app.env.sim.isSome t) →
          SimOk app.env.sim.isSome l.flatten := by
        intro l
        induction l with
        | nil => intro _; exact .nil
        | cons a l ih =>
          intro hl
          exact (hl a (by simp)).append (ih (fun t ht => hl t (by simp [ht])))
      cases r2 with
      | none =>
        simp only [Rs.ok.injEq, Prod.mk.injEq] at h
        obtain ⟨rfl, rfl⟩ := h
        refine ⟨ts ++ its.flatten, by rw [h1, hs1]; simp, hs2.sim.append (hflat _ ?_)⟩
        exact fun t ht => ((h2 rfl).2 t ht).simOk
      | some e =>
        obtain ⟨before, last, h4, h5, h6, h7⟩ := h3 e rfl
        have hits : SimOk app.env.sim.isSome its.flatten := by
          refine hflat _ ?_
          intro t ht
          rw [h4] at ht
          rcases List.mem_append.1 ht with ht | ht
          · exact (h6 t ht).simOk
          · simp only [List.mem_singleton] at ht; subst ht; exact h7.simOk
        obtain ⟨tp, hp1, hp2⟩ := stopAll_trace app rt2
        simp only at h
        generalize stopAll app rt2 = q at h hp1 hp2
        obtain ⟨rt3, r3⟩ := q
        have hfin : rt3.w.trace = rt.w.trace ++ (ts ++ its.flatten ++ tp) := by
          simp only at hp1; rw [hp1, h1, hs1]; simp
        cases r3 <;>
        · simp only [Rs.ok.injEq, Prod.mk.injEq] at h
          obtain ⟨rfl, _⟩ := h
          exact ⟨_, hfin, (hs2.sim.append hits).append hp2.sim⟩

/-- A simulation that executes task 1 itself and makes task 2's preprocess fail. -/
example : ∃ rt', run (demoApp (fun _ _ => false) (fun _ _ => .ignore)
      (some (fun ph t => if t == 1 then .executedBySim
        else if ph == .preprocess && t == 2 then .errored "x" else .executeByRuntime))) 1 demoStart =
      .ok (rt', .running) ∧ (realCalls rt'.w.trace).map (fun x => (x.1, x.2.1)) =
        [(.start, 0), (.start, 2), (.preprocess, 0), (.process, 0), (.process, 2),
         (.postprocess, 0), (.postprocess, 2)] := by
  refine ⟨_, rfl, ?_⟩; decide +kernel

end Runtime
end Verif
