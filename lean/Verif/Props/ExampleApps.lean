import Verif.Proofs.ExampleApps
/-!
C90: the example applications do in every iteration what their configuration draws.
-/
namespace Verif
namespace Examples
open Clock CopperList Planner Verif.Runtime Dataflow Fp

namespace Multi

theorem fresh_idle (inp : Inputs) (o : Overflow) : Idle (app inp o).plan.length fresh.mgr :=
  ⟨rfl, rfl, by decide, by decide, by
    show ∀ c ∈ fresh.mgr.data, c.msgs.length = (planOf graph).length
    decide +kernel⟩

theorem main_view {inp : Inputs} (hc : Clocked inp) {o : Overflow} {n : Nat} (hn : n ≤ 2147483605 ∨ o = .wrapping) :
    ∃ rt x y, Solution graph ⟨init, next o⟩ x y ∧ main inp o n = .ok (rt, .running) ∧
      (∀ t < 5, rt.w.st.task t = x n t) ∧ (loggedLists rt.w.trace).length = n ∧
      ∀ (i : Nat) (cl : CL (List (Msg Payload))), (loggedLists rt.w.trace)[i]? = some cl →
        ∀ t < 3, payloadOf (planOf graph) t cl = some (y i t) := by
  have ha : graph.Acyclic := ⟨id, by decide⟩
  obtain ⟨x, y, hs⟩ := exists_solution ha (⟨init, next o⟩ : Tasks Task Payload)
  obtain ⟨rt, h1, h2, h3, h4⟩ := run_view (app := app inp o) (rt := fresh) (by decide) ha (by decide) (by decide)
    (by decide) (by show computePlan graph = .ok (some (planOf graph)); decide +kernel) rfl rfl (fun _ => rfl)
    (inp := { inp with quit := fun _ => false }) ⟨hc.mono, hc.bound⟩ (by decide) rfl rfl rfl (fresh_idle inp o) hs (n := n)
    (by rcases hn with h | h; exacts [.inl (by omega), .inr h])
  refine ⟨rt, x, y, hs, h1, h2, h3, fun i cl hcl t ht => ?_⟩
  have : ∃ e ∈ graph.edges, e.src = t := by
    have : ∀ t < 3, ∃ e ∈ graph.edges, e.src = t := by decide
    exact this t ht
  obtain ⟨e, he, rfl⟩ := this
  exact h4 i cl hcl e he

/-- Two sources, a merger and two sinks: both sinks print the same lines, in every turn the integer and the float the
sources have sent in this turn, each one more than in the turn before; and this is what the log has. -/
theorem C90_sources_partial {inp : Inputs} (hc : Clocked inp) {o : Overflow} {n : Nat} (hn : n ≤ 16777192) :
    ∃ rt, main inp o n = .ok (rt, .running) ∧
      rt.w.st.task 3 = .sink (lines n) ∧ rt.w.st.task 4 = .sink (lines n) ∧
      (loggedLists rt.w.trace).length = n ∧
      ∀ (k : Nat) (cl : CL (List (Msg Payload))), (loggedLists rt.w.trace)[k]? = some cl →
        payloadOf (planOf graph) 0 cl = some (some (.int (Int32.ofNat (43 + k)))) ∧
        payloadOf (planOf graph) 1 cl = some (some (.float (.fin ((25 + k : Nat) : Int)))) ∧
        payloadOf (planOf graph) 2 cl = some (some (.pair (Int32.ofNat (43 + k)) (.fin ((25 + k : Nat) : Int)))) := by
  obtain ⟨rt, x, y, hs, h1, h2, h3, h4⟩ := main_view hc (o := o) (n := n) (.inl (by omega))
  have hl := solution_sinks hs n (.inl (by omega))
  have e : (List.range n).map (fun k => (Int32.ofNat (43 + k), Num.fin ((min (25 + k) 16777216 : Nat) : Int))) =
      lines n := by
    apply List.map_congr_left
    intro k hk
    have := List.mem_range.1 hk
    rw [show min (25 + k) 16777216 = 25 + k by omega]
  rw [e] at hl
  refine ⟨rt, h1, by rw [h2 3 (by decide), hl 3 (.inl rfl)], by rw [h2 4 (by decide), hl 4 (.inr rfl)], h3, ?_⟩
  intro k cl hcl
  have hk : k < n := by
    rw [← h3]
    exact (List.getElem?_eq_some_iff.1 hcl).1
  obtain ⟨a, b⟩ := solution_sent hs k (.inl (by omega))
  have c := (solution_merged hs k (.inl (by omega))).2
  rw [show min (25 + k) 16777216 = 25 + k by omega] at b c
  rw [h4 k cl hcl 0 (by decide), h4 k cl hcl 1 (by decide), h4 k cl hcl 2 (by decide), a, b, c]
  exact ⟨rfl, rfl, rfl⟩

/-- Not for ever: after sixteen million turns the float does not grow any more. -/
theorem C90_sources_violated {inp : Inputs} (hc : Clocked inp) {o : Overflow} {n : Nat} (hn : 16777192 < n)
    (hn' : n ≤ 2147483605) :
    ∃ rt, main inp o n = .ok (rt, .running) ∧ rt.w.st.task 1 = .float (.fin 16777216) ∧
      ∃ l, rt.w.st.task 3 = .sink l ∧ l ≠ lines n ∧
        ∀ k, 16777192 ≤ k → k < n → l[k]? = some (Int32.ofNat (43 + k), .fin 16777216) := by
  obtain ⟨rt, x, y, hs, h1, h2, h3, h4⟩ := main_view hc (o := o) (n := n) (.inl (by omega))
  refine ⟨rt, h1, ?_, _, by rw [h2 3 (by decide), solution_sinks hs n (.inl (by omega)) 3 (.inl rfl)], ?_, ?_⟩
  · rw [h2 1 (by decide), solution_floats hs n, show min (24 + n) 16777216 = 16777216 by omega]
    rfl
  · intro h
    have := congrArg (fun l => l[16777192]?) h
    simp only [lines, List.getElem?_map, List.getElem?_range hn, Option.map_some, Option.some.injEq, Prod.mk.injEq,
      true_and, Num.fin.injEq] at this
    exact absurd this (by decide +kernel)
  · intro k hk hkn
    rw [List.getElem?_map, List.getElem?_range hkn, Option.map_some, show min (25 + k) 16777216 = 16777216 by omega]
    rfl

/-- And in a build with overflow checks the integer ends the program: at the turn after 2 147 483 605 its task
panics. -/
theorem C90_overflow_violated {x : Nat → Nat → Task} {y : Nat → Nat → Option Payload}
    (hs : Solution graph ⟨init, next .checked⟩ x y) :
    x 2147483605 0 = .int 2147483647 ∧ x 2147483606 0 = .panicked := by
  have h := solution_ints hs 2147483605 (.inl (by decide))
  have e : Int32.ofNat (42 + 2147483605) = 2147483647 := by decide
  rw [e] at h
  refine ⟨h, ?_⟩
  have h1 := congrArg Prod.fst (hs.turn 2147483605 0 (by decide))
  rw [h] at h1
  exact h1

end Multi

namespace Cater

theorem fresh_idle (inp : Inputs) (o : Overflow) : Idle (app inp o).plan.length fresh.mgr :=
  ⟨rfl, rfl, by decide, by decide +kernel, by
    show ∀ c ∈ fresh.mgr.data, c.msgs.length = (planOf graph).length
    decide +kernel⟩

/-- The caterpillar: after every turn all eight pins have the same level, each on the pin of the configuration; it
changes with every turn, beginning with high.  In the log the source and the eight segments have all sent this. -/
theorem C90_caterpillar {inp : Inputs} (hc : Clocked inp) (hq : ∀ k, inp.quit k = false) {o : Overflow} {n : Nat}
    (hn : n ≤ 0xFFFFFFFF ∨ o = .wrapping) :
    ∃ rt, main inp o n = .ok (rt, .running) ∧
      (∀ i < 8, ∀ p, [4, 17, 27, 22, 5, 6, 19, 26][i]? = some p →
        rt.w.st.task (2 * i + 2) = .gpio p (if n = 0 then none else some (if n % 2 = 1 then .high else .low))) ∧
      (loggedLists rt.w.trace).length = n ∧
      ∀ (k : Nat) (cl : CL (List (Msg Bool))), (loggedLists rt.w.trace)[k]? = some cl →
        payloadOf (planOf graph) 0 cl = some (some (decide (k % 2 = 1))) ∧
        ∀ i < 8, payloadOf (planOf graph) (2 * i + 1) cl = some (some (decide (k % 2 = 1))) := by
  have ha : graph.Acyclic := ⟨id, by decide⟩
  obtain ⟨x, y, hs⟩ := exists_solution ha (⟨init, next⟩ : Tasks Task Bool)
  obtain ⟨rt, h1, h2, h3, h4⟩ := run_view (app := app inp o) (rt := fresh) (by decide) ha (by decide) (by decide)
    (by decide) (by show computePlan graph = .ok (some (planOf graph)); decide +kernel) rfl rfl hq
    hc (by decide) rfl rfl rfl (fresh_idle inp o) hs (n := n) hn
  have ho : ∀ k, odd k = decide (k % 2 = 1) := fun k => rfl
  refine ⟨rt, h1, fun i hi p hp => ?_, h3, fun k cl hcl => ⟨?_, fun i hi => ?_⟩⟩
  · rw [h2 _ (by show _ < 17; omega), solution_pins hs n i hi p hp]
  · have := h4 k cl hcl ⟨0, 1, "cu_rp_gpio::RPGpioPayload"⟩ (by decide)
    rw [← ho, ← (solution_source hs k).2]
    exact this
  · have hm : ∀ i < 8, (⟨2 * i + 1, 2 * i + 2, "cu_rp_gpio::RPGpioPayload"⟩ : Edge) ∈ graph.edges := by decide
    have := h4 k cl hcl _ (hm i hi)
    rw [← ho, ← (solution_segments hs k i hi).2]
    exact this

end Cater

/-! ### The hypotheses are met -/

/-- A clock that advances by a millisecond each time it is read. -/
def ticking : Inputs := ⟨fun n => ⟨UInt64.ofNat (min n 1000 * 1000000)⟩, fun _ => false⟩

example : Clocked ticking := by
  have e : ∀ n, (ticking.clock n).ns.toNat = min n 1000 * 1000000 := by
    intro n
    simp only [ticking, UInt64.toNat_ofNat']
    rw [Nat.mod_eq_of_lt (by omega)]
  exact ⟨fun i j h => by rw [e, e]; omega, fun i => by rw [e]; omega⟩

example : (Multi.main ticking .checked 2).map' (fun r => (r.2, r.1.w.st.task 3, r.1.w.st.task 4)) =
    .ok (.running, .sink [(43, .fin 25), (44, .fin 26)], .sink [(43, .fin 25), (44, .fin 26)]) := by decide +kernel

example : (Cater.main ticking .checked 3).map' (fun r => (r.2, r.1.w.st.task 2, r.1.w.st.task 16)) =
    .ok (.running, .gpio 4 (some .high), .gpio 26 (some .high)) := by decide +kernel

example : ∃ x y, Solution Multi.graph ⟨Multi.init, Multi.next .checked⟩ x y := exists_solution ⟨id, by decide⟩ _

end Examples
end Verif
