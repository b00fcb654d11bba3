import Verif.Props.ConsoleKeys
import Verif.Props.Replay
/-! C128: what a user who quits from the console leaves behind. -/
namespace Verif
namespace Runtime
open Clock CopperList Planner
variable {σ P : Type}

theorem not_monitored {c : List (Ev P)} (h : ∀ ev ∈ c, ev.ofTask = true) (md : List MsgMeta) (r : Option Err) :
    Ev.monitored md r ∉ c := fun hm => by
  have := h _ hm
  simp [Ev.ofTask] at this

/-- An iteration at whose end the monitor reports an error returns this error, and logs nothing. -/
theorem iteration_monitor_error (app : App σ P) (rt : Rt σ P) {rt' : Rt σ P} {r : Option Err} {t : List (Ev P)}
    (h : runOneIteration app rt = .ok (rt', r)) (ht : rt'.w.trace = rt.w.trace ++ t) {md : List MsgMeta} {e : Err}
    (hm : Ev.monitored md (some e) ∈ t) : r = some e ∧ loggedLists t = [] := by
  obtain ⟨t', ht', hi⟩ := iteration_trace app rt h
  have : t' = t := List.append_cancel_left (ht'.symm.trans ht)
  subst this
  have fin : ∀ {c : List (Ev P)} {r : Option Err}, FinishTrace c r → Ev.monitored md (some e) ∈ c →
      r = some e ∧ loggedLists c = [] := by
    intro c r hf hc
    cases hf with
    | err md' e' =>
      simp only [List.mem_singleton, Ev.monitored.injEq, Option.some.injEq] at hc
      exact ⟨by rw [hc.2], rfl⟩
    | ok md' hl =>
      rcases List.mem_cons.1 hc with hc | hc
      · simp at hc
      · have := hl _ hc
        simp [Ev.isLogged] at this
  have before : ∀ {c c2 c3 : List (Ev P)} {id : UInt32}, (∀ ev ∈ c, ev.ofTask = true) → (∀ ev ∈ c2, ev.ofTask = true) →
      Ev.monitored md (some e) ∈ c ++ [.created id] ++ c2 ++ c3 →
      Ev.monitored md (some e) ∈ c3 ∧ loggedLists (c ++ [.created id] ++ c2 ++ c3) = loggedLists c3 := by
    intro c c2 c3 id h1 h2 hc
    simp only [List.append_assoc, List.mem_append, List.mem_singleton, reduceCtorEq, false_or] at hc
    refine ⟨?_, ?_⟩
    · rcases hc with hc | hc | hc
      · exact absurd hc (not_monitored h1 _ _)
      · exact absurd hc (not_monitored h2 _ _)
      · exact hc
    · rw [loggedLists_append, loggedLists_append, loggedLists_append, (quiet_of_task h1).1, (quiet_of_task h2).1]
      rfl
  cases hi with
  | pre h1 _ => exact absurd hm (not_monitored h1.ofTask _ _)
  | @shutdown c c2 id _ _ _ h1 h2 =>
    rw [← List.append_nil (c ++ [Ev.created id] ++ c2)] at hm
    cases (before h1.ofTask h2.ofTask hm).1
  | abort h1 h2 hf =>
    obtain ⟨k1, k2⟩ := before h1.ofTask h2.ofTask hm
    rw [k2]
    exact fin hf k1
  | monitor h1 h2 hf =>
    obtain ⟨k1, k2⟩ := before h1.ofTask h2.ofTask hm
    rw [k2]
    exact fin hf k1
  | full h1 h2 hf h4 =>
    rcases List.mem_append.1 hm with hm | hm
    · cases (fin hf (before h1.ofTask h2.ofTask hm).1).1
    · exact absurd hm (not_monitored h4.ofTask _ _)

/-- A run of an application, with any monitor, any tasks and any decisions: the first error the monitor reports at the
end of an iteration, as the console does when the user has quit, ends the run with this error, and nothing is logged
or done in further iterations.  Missing: the list of this iteration, see the violation. -/
theorem C128_run_partial (app : App σ P) (n : Nat) (rt : Rt σ P) {rt' : Rt σ P} {r : Option Err}
    (h : runLoop app n rt = .ok (rt', r)) :
    ∃ t, rt'.w.trace = rt.w.trace ++ t ∧ ∀ md e, Ev.monitored md (some e) ∈ t → r = some e ∧
      ∃ k, k < n ∧ ∃ (rt₁ : Rt σ P) (t₁ t₂ : List (Ev P)), runLoop app k rt = .ok (rt₁, none) ∧
        rt₁.w.trace = rt.w.trace ++ t₁ ∧ t = t₁ ++ t₂ ∧ runOneIteration app rt₁ = .ok (rt', some e) ∧
        Ev.monitored md (some e) ∈ t₂ ∧ loggedLists t = loggedLists t₁ := by
  induction n generalizing rt with
  | zero =>
    simp only [runLoop, Rs.ok.injEq, Prod.mk.injEq] at h
    obtain ⟨rfl, -⟩ := h
    exact ⟨[], by simp, fun md e hm => by cases hm⟩
  | succ n ih =>
    rw [runLoop] at h
    obtain ⟨q, hq⟩ : ∃ q, runOneIteration app rt = q := ⟨_, rfl⟩
    rw [hq] at h
    match q, hq, h with
    | .panic, _, h => cases h
    | .ok (rt₁, some e'), hq, h =>
      simp only [Rs.ok.injEq, Prod.mk.injEq] at h
      obtain ⟨rfl, rfl⟩ := h
      obtain ⟨t, ht, -⟩ := iteration_trace app rt hq
      refine ⟨t, ht, fun md e hm => ?_⟩
      obtain ⟨h1, h2⟩ := iteration_monitor_error app rt hq ht hm
      refine ⟨h1, 0, by omega, rt, [], t, rfl, by simp, rfl, by rw [hq, h1], hm, by rw [h2]; rfl⟩
    | .ok (rt₁, none), hq, h =>
      obtain ⟨t₀, ht₀, -⟩ := iteration_trace app rt hq
      obtain ⟨t, ht, hall⟩ := ih rt₁ h
      refine ⟨t₀ ++ t, by rw [ht, ht₀, List.append_assoc], fun md e hm => ?_⟩
      rcases List.mem_append.1 hm with hm | hm
      · cases (iteration_monitor_error app rt hq ht₀ hm).1
      · obtain ⟨h1, k, hk, rt₂, t₁, t₂, h2, h3, rfl, h5, h6, h7⟩ := hall md e hm
        refine ⟨h1, k + 1, by omega, rt₂, t₀ ++ t₁, t₂, ?_, by rw [h3, ht₀, List.append_assoc], by simp, h5, h6, ?_⟩
        · rw [runLoop, hq]; exact h2
        · rw [loggedLists_append, h7, loggedLists_append]

/-- The summing application of C58 with a monitor that reports, from the third iteration on, that the user has quit. -/
def quitEnv : Env ((Nat × Nat) × Nat) Nat where
  now s := ((((sumEnv 3).now s.1).1, s.2), ((sumEnv 3).now s.1).2)
  life ph t s := ((((sumEnv 3).life ph t s.1).1, s.2), ((sumEnv 3).life ph t s.1).2)
  source t out s := ((((sumEnv 3).source t out s.1).1, s.2), ((sumEnv 3).source t out s.1).2)
  regular t ins out s := ((((sumEnv 3).regular t ins out s.1).1, s.2), ((sumEnv 3).regular t ins out s.1).2)
  sink _ _ s := (s, none)
  onError _ _ _ s := (s, .ignore)
  monCL _ s := ((s.1, s.2 + 1), if 2 ≤ s.2 then some "Exiting..." else none)
  monStart s := (s, none)
  monStop s := (s, none)
  log := some (fun s _ => .ok s)
  sim := none

def quitStart : Rt ((Nat × Nat) × Nat) Nat :=
  ⟨⟨((40, 0), 0), []⟩, Manager.new 2 [Msg.new none, Msg.new none, Msg.new none]⟩

/-- Negation: when the user quits, what the tasks did in the last iteration is not in the log.  Here all tasks have run
three times, the monitor was shown three lists, and two are logged. -/
theorem C128_last_violated : ∃ rt', run ⟨3, demoPlan, quitEnv, .checked⟩ 9 quitStart = .ok (rt', .ended "Exiting...") ∧
    (processCalls rt'.w.trace).length = 9 ∧ (shownMetadata rt'.w.trace).length = 3 ∧
    (loggedLists rt'.w.trace).length = 2 := by
  refine ⟨_, rfl, ?_, ?_, ?_⟩ <;> decide +kernel

/-- The run of the theorem above is such a run: in it the monitor reports that the user has quit. -/
example : ∃ rt' md, runLoop ⟨3, demoPlan, quitEnv, .checked⟩ 9 quitStart = .ok (rt', some "Exiting...") ∧
    rt'.w.trace.getLast? = some (.monitored md (some "Exiting...")) := ⟨_, _, rfl, rfl⟩

end Runtime
end Verif
