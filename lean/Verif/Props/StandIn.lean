import Verif.Proofs.StandIn
/-!
C120: a simulation whose callback does what the tasks would have done is the application.
-/
namespace Verif
namespace Runtime
open Clock CopperList Planner
variable {σ P : Type}

theorem run_related {app : App σ P} {sim : Sim σ P} {f : Ev P → Bool} (hi : Imitates app sim f) (n : Nat) (rt : Rt σ P) :
    (∀ rt1 r, run app n rt = .ok (rt1, r) → ∃ rt2, run (app.simulated sim) n rt = .ok (rt2, r) ∧
      rt2.w.st = rt1.w.st ∧ rt2.mgr = rt1.mgr ∧ rt2.w.trace.filter f = rt1.w.trace.filter f) ∧
    (run app n rt = .panic → run (app.simulated sim) n rt = .panic) := by
  have h := run_same hi n (rt := rt) (rt' := rt) ⟨⟨rfl, rfl⟩, rfl⟩
  generalize run app n rt = q at h ⊢
  generalize run (app.simulated sim) n rt = q' at h ⊢
  rcases q with ⟨rt1, e⟩ | _ <;> rcases q' with ⟨rt1', e'⟩ | _
  · obtain ⟨⟨⟨h1, h2⟩, h3⟩, h4⟩ := h
    simp only at h1 h2 h3 h4
    subst h4
    refine ⟨fun rt2 r h => ?_, fun h => nomatch h⟩
    cases h
    exact ⟨_, rfl, h1.symm, h3.symm, h2.symm⟩
  · exact h.elim
  · exact h.elim
  · exact ⟨fun _ _ h => (nomatch h), fun _ => rfl⟩

/-- A callback that leaves all to the runtime makes no difference: the run ends with the same state, result and lists,
and but for the questions to the callback the same happens in the same order, whatever the tasks, the monitor and the
clock do. -/
theorem C120_transparent {app : App σ P} (hn : app.env.sim = none) {sim : Sim σ P} (hp : Passes sim) (n : Nat)
    (rt : Rt σ P) :
    (∀ rt1 r, run app n rt = .ok (rt1, r) → ∃ rt2, run (app.simulated sim) n rt = .ok (rt2, r) ∧
      rt2.w.st = rt1.w.st ∧ rt2.mgr = rt1.mgr ∧ unasked rt2.w.trace = unasked rt1.w.trace) ∧
    (run app n rt = .panic → run (app.simulated sim) n rt = .panic) :=
  run_related ⟨hn, fun _ _ _ _ => rfl, fun ph t s => .inl (hp.life ph t s),
    fun step _ ins out s => .inl (hp.process step.nodeId ins out s)⟩ n rt

/-- A callback that for some steps does what the task would have done and reports its result makes no difference to
what is logged, what the monitor is told, what errors are reported, and what tasks find and leave in their messages,
with the clock of a simulation and a monitor that goes on after errors of `process`. -/
theorem C120_standin_partial {app : App σ P} (hn : app.env.sim = none) {sim : Sim σ P} (hs : StandsIn app sim)
    (hc : SimClock app) (hm : ∀ t e s, (app.env.onError .process t e s).2 = .ignore) (n : Nat) (rt : Rt σ P) :
    (∀ rt1 r, run app n rt = .ok (rt1, r) → ∃ rt2, run (app.simulated sim) n rt = .ok (rt2, r) ∧
      rt2.w.st = rt1.w.st ∧ rt2.mgr = rt1.mgr ∧ effects rt2.w.trace = effects rt1.w.trace) ∧
    (run app n rt = .panic → run (app.simulated sim) n rt = .panic) := by
  refine run_related ⟨hn, fun _ _ _ _ => rfl, fun ph t s => ?_, fun step h ins out s => ?_⟩ n rt
  · rcases hs.life ph t s with h | h
    · exact .inl h
    · exact .inr ⟨rfl, h⟩
  · rcases hs.process step h ins out s with h | h
    · exact .inl h
    · exact .inr ⟨rfl, hc, h, fun e _ => hm _ e _⟩

/-- A source which counts and fails at each third number, a task which doubles, a sink which sums up.  The state is what
the source and the sink hold, and the time. -/
def countApp (d : Decision) (takes : Nat) : App (Nat × Nat × Nat) Nat where
  tasks := 3
  plan := [⟨0, .source, [], some (0, "a")⟩, ⟨1, .regular, [(0, "a")], some (1, "b")⟩,
    ⟨2, .sink, [(1, "b")], some (2, "()")⟩]
  overflow := .checked
  env :=
    { now := fun s => (s, ⟨UInt64.ofNat (min s.2.2 18446744073709551614)⟩)
      life := fun _ _ s => (s, none)
      source := fun _ out s => ((s.1 + 1, s.2.1, s.2.2 + takes), { out with payload := some s.1 },
        if s.1 % 3 = 2 then some "third" else none)
      regular := fun _ ins out s => (s, { out with payload := ins.head?.bind (·.payload.map (2 * ·)) }, none)
      sink := fun _ ins s => ((s.1, s.2.1 + ((ins.head?.bind (·.payload)).getD 0), s.2.2), none)
      onError := fun _ _ _ s => (s, d)
      monCL := fun _ s => (s, none)
      monStart := fun s => (s, none)
      monStop := fun s => (s, none)
      log := some (fun s _ => .ok s)
      sim := none }

/-- The callback counts in place of the source and leaves the rest to the runtime. -/
def countSim (takes : Nat) : Sim (Nat × Nat × Nat) Nat where
  life := fun _ _ s => (s, .executeByRuntime)
  process := fun t _ out s =>
    if t = 0 then ((s.1 + 1, s.2.1, s.2.2 + takes), { out with payload := some s.1 },
      if s.1 % 3 = 2 then .errored "third" else .executedBySim)
    else (s, out, .executeByRuntime)

def countStart (n : Nat) : Rt (Nat × Nat × Nat) Nat := ⟨⟨(n, 0, 7), []⟩, Manager.new 2 [Msg.new none, Msg.new none, Msg.new none]⟩

theorem count_standsIn (d : Decision) (takes : Nat) : StandsIn (countApp d takes) (countSim takes) := by
  refine ⟨fun _ _ _ => .inl rfl, fun step h ins out s => ?_⟩
  simp only [countApp, List.mem_cons, List.mem_nil_iff, or_false] at h
  rcases h with rfl | rfl | rfl
  · refine .inr ?_
    simp only [countSim, callProcess, countApp, if_true]
    by_cases h3 : s.1 % 3 = 2
    · simp [h3, answerOf]
    · simp [h3, answerOf]
  · exact .inl rfl
  · exact .inl rfl

theorem count_simClock (d : Decision) : SimClock (countApp d 0) := by
  refine ⟨fun _ => rfl, fun step ins out s => ?_, fun _ _ _ _ => rfl, fun step ins out s t => ?_⟩
  · rcases step with ⟨_, ⟨⟩ | ⟨⟩ | ⟨⟩, _, _⟩ <;> rfl
  · rcases step with ⟨_, ⟨⟩ | ⟨⟩ | ⟨⟩, _, _⟩ <;> rfl

/-- The lists that are logged in a run. -/
def countLogged {σ : Type} : Rs (Rt σ Nat × RunResult) → List (List (Option Nat))
  | .ok (rt, _) => rt.w.trace.filterMap (fun | .logged cl => some (cl.msgs.map (·.payload)) | _ => none)
  | .panic => []

/-- The callback counts, fails and is asked, and the same is logged. -/
example :
    countLogged (run ((countApp .ignore 0).simulated (countSim 0)) 4 (countStart 0)) =
      [[some 0, some 0, none], [some 1, some 2, none], [none, none, none], [some 3, some 6, none]] ∧
    (∃ rt2 r, run ((countApp .ignore 0).simulated (countSim 0)) 4 (countStart 0) = .ok (rt2, r) ∧
      rt2.w.st = (4, 8, 7)) := by
  refine ⟨by decide +kernel, ?_⟩
  have h := (C120_standin_partial rfl (count_standsIn .ignore 0) (count_simClock .ignore) (fun _ _ _ => rfl) 4 (countStart 0)).1
  cases hr : run (countApp .ignore 0) 4 (countStart 0) with
  | panic => exact absurd hr (by decide +kernel)
  | ok x =>
    obtain ⟨rt1, r⟩ := x
    obtain ⟨rt2, h1, h2, _⟩ := h rt1 r hr
    refine ⟨rt2, r, h1, ?_⟩
    rw [h2]
    have : (match run (countApp .ignore 0) 4 (countStart 0) with | .ok (rt, _) => some rt.w.st | .panic => none) =
      some (4, 8, 7) := by decide +kernel
    rw [hr] at this
    exact Option.some.inj this

/-- A callback that leaves all to the runtime, of an application whose monitor gives up at an error. -/
example : Passes (⟨fun _ _ s => (s, .executeByRuntime), fun _ _ out s => (s, out, .executeByRuntime)⟩ : Sim (Nat × Nat × Nat) Nat) ∧
    (countApp .shutdown 5).env.sim = none := ⟨⟨fun _ _ _ => rfl, fun _ _ _ _ => rfl⟩, rfl⟩

/-- A decision to abort shows the difference: the message of the step that the callback reports to have failed is
logged without times, while that of a task that fails has both. -/
theorem C120_abort_violated : ¬ ∀ (app : App (Nat × Nat × Nat) Nat) (sim : Sim (Nat × Nat × Nat) Nat),
    app.env.sim = none → StandsIn app sim → SimClock app → ∀ n rt rt1 r1 rt2 r2, run app n rt = .ok (rt1, r1) →
    run (app.simulated sim) n rt = .ok (rt2, r2) → effects rt2.w.trace = effects rt1.w.trace := by
  intro h
  have h := h (countApp .abort 0) (countSim 0) rfl (count_standsIn .abort 0) (count_simClock .abort) 1 (countStart 2)
  cases hr : run (countApp .abort 0) 1 (countStart 2) with
  | panic => exact absurd hr (by decide +kernel)
  | ok x =>
    obtain ⟨rt1, r1⟩ := x
    cases hr' : run ((countApp .abort 0).simulated (countSim 0)) 1 (countStart 2) with
    | panic => exact absurd hr' (by decide +kernel)
    | ok x =>
      obtain ⟨rt2, r2⟩ := x
      have := h rt1 r1 rt2 r2 hr hr'
      have hd : (match run (countApp .abort 0) 1 (countStart 2), run ((countApp .abort 0).simulated (countSim 0)) 1 (countStart 2) with
        | .ok (rt1, _), .ok (rt2, _) => decide (effects rt2.w.trace = effects rt1.w.trace)
        | _, _ => true) = false := by decide +kernel
      rw [hr, hr'] at hd
      simp [this] at hd

/-- A clock that goes on while tasks work shows it too: what the callback does in place of a task is recorded as taking
no time, since both times are read after it. -/
theorem C120_duration_violated : ¬ ∀ (app : App (Nat × Nat × Nat) Nat) (sim : Sim (Nat × Nat × Nat) Nat),
    app.env.sim = none → StandsIn app sim → (∀ t e s, (app.env.onError .process t e s).2 = .ignore) →
    ∀ n rt rt1 r1 rt2 r2, run app n rt = .ok (rt1, r1) →
    run (app.simulated sim) n rt = .ok (rt2, r2) → effects rt2.w.trace = effects rt1.w.trace := by
  intro h
  have h := h (countApp .ignore 10) (countSim 10) rfl (count_standsIn .ignore 10) (fun _ _ _ => rfl) 1 (countStart 0)
  cases hr : run (countApp .ignore 10) 1 (countStart 0) with
  | panic => exact absurd hr (by decide +kernel)
  | ok x =>
    obtain ⟨rt1, r1⟩ := x
    cases hr' : run ((countApp .ignore 10).simulated (countSim 10)) 1 (countStart 0) with
    | panic => exact absurd hr' (by decide +kernel)
    | ok x =>
      obtain ⟨rt2, r2⟩ := x
      have := h rt1 r1 rt2 r2 hr hr'
      have hd : (match run (countApp .ignore 10) 1 (countStart 0), run ((countApp .ignore 10).simulated (countSim 10)) 1 (countStart 0) with
        | .ok (rt1, _), .ok (rt2, _) => decide (effects rt2.w.trace = effects rt1.w.trace)
        | _, _ => true) = false := by decide +kernel
      rw [hr, hr'] at hd
      simp [this] at hd

end Runtime
end Verif
