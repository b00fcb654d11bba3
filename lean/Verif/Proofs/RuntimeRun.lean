import Verif.Proofs.RuntimeOrder
/-! `start_all_tasks`, `stop_all_tasks` and `run`. -/
namespace Verif
namespace Runtime
open Planner CopperList Clock
variable {σ P : Type}

/-- What is known of the trace of `start_all_tasks` / `stop_all_tasks`. -/
structure EdgeOk (sim : Bool) (ph : Phase) (tasks : Nat) (t : List (Ev P)) (r : Option Err) : Prop where
  order : Runtime.visits sim t <+: everyTask ph tasks
  full : (∀ ev ∈ t, ev.stops = false) → Runtime.visits sim t = everyTask ph tasks ∧ r = none
  obeyed : Throughout (decisionOk r) t
  sim : SimOk sim t

theorem edge_of_life {sim : Bool} {ph : Phase} (hph : ph ≠ .process) {tasks : Nat} {c : List (Ev P)}
    {f : Flow} (h : LifeTrace sim ph (List.range tasks) c f) (hf : f ≠ .next) :
    EdgeOk sim ph tasks c (errOf f) := by
  refine ⟨h.visits.1, fun hs => absurd (h.stops.1 hs) hf, ?_, h.simOk⟩
  have := h.obeyed hph (tailOk_errOf f)
  rwa [List.append_nil] at this

theorem edge_of_life_next {sim : Bool} {ph : Phase} (hph : ph ≠ .process) {tasks : Nat}
    {c : List (Ev P)} (h : LifeTrace sim ph (List.range tasks) c .next) (ev : Ev P) (r : Option Err)
    (hev : ev.ofTask = false) (hr : ev.stops = false → r = none) :
    EdgeOk sim ph tasks (c ++ [ev]) r := by
  have hv : Runtime.visits sim [ev] = [] := by
    cases ev <;> simp [Ev.ofTask] at hev <;> rfl
  refine ⟨?_, ?_, ?_, ?_⟩
  · rw [visits_append, hv, List.append_nil]; exact h.visits.1
  · intro hs
    rw [visits_append, hv, List.append_nil]
    exact ⟨h.visits.2 rfl, hr (hs ev (by simp))⟩
  · exact h.obeyed hph (throughout_noTask _ _ (by simpa using hev))
  · exact h.simOk.append (.other (by simpa using hev))

theorem startAll_trace (app : App σ P) (rt : Rt σ P) :
    ∃ t, (startAll app rt).1.w.trace = rt.w.trace ++ t ∧
      EdgeOk app.env.sim.isSome .start app.tasks t (startAll app rt).2 := by
  obtain ⟨c, h1, h2⟩ := lifeAll_trace app.env .start (List.range app.tasks) rt.w
  unfold startAll
  generalize lifeAll app.env .start (List.range app.tasks) rt.w = q at h1 h2
  obtain ⟨w, f⟩ := q
  cases f with
  | abort => exact ⟨c, h1, edge_of_life (by simp) h2 (by simp)⟩
  | shutdown e => exact ⟨c, h1, edge_of_life (by simp) h2 (by simp)⟩
  | next =>
    simp only at h1
    refine ⟨c ++ [.monStarted (app.env.monStart w.st).2], by simp [World.emit, h1], ?_⟩
    refine edge_of_life_next (by simp) h2 _ _ rfl ?_
    simp only
    cases (app.env.monStart w.st).2 <;> simp [Ev.stops]

theorem stopAll_trace (app : App σ P) (rt : Rt σ P) :
    ∃ t, (stopAll app rt).1.w.trace = rt.w.trace ++ t ∧
      EdgeOk app.env.sim.isSome .stop app.tasks t (stopAll app rt).2 := by
  obtain ⟨c, h1, h2⟩ := lifeAll_trace app.env .stop (List.range app.tasks) rt.w
  unfold stopAll
  generalize lifeAll app.env .stop (List.range app.tasks) rt.w = q at h1 h2
  obtain ⟨w, f⟩ := q
  cases f with
  | abort => exact ⟨c, h1, edge_of_life (by simp) h2 (by simp)⟩
  | shutdown e => exact ⟨c, h1, edge_of_life (by simp) h2 (by simp)⟩
  | next =>
    simp only at h1
    refine ⟨c ++ [.monStopped (app.env.monStop w.st).2], by simp [World.emit, h1], ?_⟩
    refine edge_of_life_next (by simp) h2 _ _ rfl ?_
    simp only
    cases (app.env.monStop w.st).2 <;> simp [Ev.stops]

/-- The loop: iterations one after the other; only the last one may return an error. -/
theorem runLoop_trace (app : App σ P) (n : Nat) (rt : Rt σ P) {rt' : Rt σ P} {r : Option Err}
    (h : runLoop app n rt = .ok (rt', r)) :
    ∃ its : List (List (Ev P)), rt'.w.trace = rt.w.trace ++ its.flatten ∧
      (r = none → its.length = n ∧ ∀ t ∈ its, IterTrace app.env.sim.isSome app.tasks app.plan t none) ∧
      (∀ e, r = some e → ∃ before last, its = before ++ [last] ∧ its.length ≤ n ∧
        (∀ t ∈ before, IterTrace app.env.sim.isSome app.tasks app.plan t none) ∧
        IterTrace app.env.sim.isSome app.tasks app.plan last (some e)) := by
  induction n generalizing rt with
  | zero =>
    simp only [runLoop, Rs.ok.injEq, Prod.mk.injEq] at h
    obtain ⟨rfl, rfl⟩ := h
    exact ⟨[], by simp, by simp, by simp⟩
  | succ n ih =>
    unfold runLoop at h
    cases hi : runOneIteration app rt with
    | panic => rw [hi] at h; cases h
    | ok q =>
      obtain ⟨rt1, r1⟩ := q
      rw [hi] at h
      obtain ⟨t, ht1, ht2⟩ := iteration_trace app rt hi
      cases r1 with
      | some e =>
        simp only [Rs.ok.injEq, Prod.mk.injEq] at h
        obtain ⟨rfl, rfl⟩ := h
        refine ⟨[t], by simpa using ht1, by simp, ?_⟩
        intro e' he'
        cases he'
        exact ⟨[], t, rfl, by simp, by simp, ht2⟩
      | none =>
        obtain ⟨its, h1, h2, h3⟩ := ih rt1 h
        refine ⟨t :: its, by rw [h1, ht1]; simp, ?_, ?_⟩
        · intro hr
          obtain ⟨h4, h5⟩ := h2 hr
          refine ⟨by simp [h4], ?_⟩
          intro t' ht'
          rcases List.mem_cons.1 ht' with rfl | ht'
          · exact ht2
          · exact h5 t' ht'
        · intro e he
          obtain ⟨before, last, h4, h5, h6, h7⟩ := h3 e he
          refine ⟨t :: before, last, by rw [h4]; rfl, by simpa using h5, ?_, h7⟩
          intro t' ht'
          rcases List.mem_cons.1 ht' with rfl | ht'
          · exact ht2
          · exact h6 t' ht'

end Runtime
end Verif
