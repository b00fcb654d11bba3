import Verif.Proofs.RuntimeMemory
import Verif.Proofs.RuntimeTimes
import Verif.Spec.DemoApp
import Verif.Props.Runtime
/-!
C21 (messages flow within one iteration) and C22 (processing times) about the generated loop.
-/
namespace Verif
namespace Runtime
open Planner CopperList Clock
variable {σ P : Type}

/-! ### C21 -/

/-- For every task graph and every iteration of its application (any tasks, monitor, simulation,
any content left in the pool): each task leaves at most one message per iteration, and whenever a
process step looks at its inputs, they are one message per incoming connection of the task (in
some fixed order), each the message left *earlier in this iteration* by the connection's producer. -/
theorem C21_same_iteration (g : Graph) (hg : g.WF) (app : App σ P)
    (hp : computePlan g = .ok (some app.plan)) (rt rt' : Rt σ P) (r : Option Err)
    (h : runOneIteration app rt = .ok (rt', r)) :
    ∃ t, rt'.w.trace = rt.w.trace ++ t ∧ ((lefts t).map Prod.fst).Nodup ∧
      ∀ before ev after v ins, t = before ++ ev :: after → ev.reads = some (v, ins) →
        ∃ conns : List Edge, conns.Perm (g.edges.filter (fun e => e.dst == v)) ∧
          Pointwise (fun e m => (e.src, m) ∈ lefts before) conns ins := by
  obtain ⟨t, h1, h2⟩ := iteration_trace app rt h
  have hw := wired_of_plan hg hp
  obtain ⟨h3, h4⟩ := h2.flow hw
  refine ⟨t, h1, h4.sublist.nodup hw.nodup, ?_⟩
  intro before ev after v ins hsp hr
  obtain ⟨j, s, h5, rfl, h6⟩ := h3 before ev after v ins hsp hr
  obtain ⟨es, h7, h8⟩ := exists_perm_map (C16_inputs_perm_partial g hg _ hp j s h5).1 _ rfl
  refine ⟨es, h7, ?_⟩
  have h9 : Pointwise (fun (i : Nat) m => ∃ p : Step, app.plan[i]? = some p ∧
      (p.nodeId, m) ∈ lefts before) (s.inputs.map Prod.fst) ins := forall₂_map h6
  rw [← h8] at h9
  refine forall₂_imp (forall₂_of_map h9) ?_
  rintro e he m ⟨p, h10, h11⟩
  have hmem : e ∈ g.edges ∧ e.dst = s.nodeId := by
    have := h7.mem_iff.1 he
    simpa using this
  obtain ⟨k, s', hk, hs', hsn⟩ := C14_producers_first g hg _ hp j s h5 e hmem.1 hmem.2
  have hin : e.src ∈ ids app.plan := by
    rw [← hsn]; exact List.mem_map.2 ⟨s', List.mem_of_getElem? hs', rfl⟩
  obtain ⟨st, h12, h13⟩ := PlanOk.getElem_idxOf hin
  rw [show ids app.plan = app.plan.map Step.nodeId from rfl] at h12
  rw [h12] at h10
  cases h10
  rw [← h13]; exact h11

/-- Without parallel connections and with one message type per producer, the order is that of the
connections in the configuration. -/
theorem C21_in_connection_order (g : Graph) (hg : g.WF) (hpar : g.NoParallel)
    (hty : g.ConsistentTypes) (app : App σ P)
    (hp : computePlan g = .ok (some app.plan)) (rt rt' : Rt σ P) (r : Option Err)
    (h : runOneIteration app rt = .ok (rt', r)) :
    ∃ t, rt'.w.trace = rt.w.trace ++ t ∧ ((lefts t).map Prod.fst).Nodup ∧
      ∀ before ev after v ins, t = before ++ ev :: after → ev.reads = some (v, ins) →
        Pointwise (fun e m => (e.src, m) ∈ lefts before) (g.edges.filter (fun e => e.dst == v)) ins := by
  obtain ⟨t, h1, h2⟩ := iteration_trace app rt h
  have hw := wired_of_plan hg hp
  obtain ⟨h3, h4⟩ := h2.flow hw
  refine ⟨t, h1, h4.sublist.nodup hw.nodup, ?_⟩
  intro before ev after v ins hsp hr
  obtain ⟨j, s, h5, rfl, h6⟩ := h3 before ev after v ins hsp hr
  rw [C16_inputs_ordered_partial g hg hpar hty _ hp j s h5] at h6
  refine forall₂_imp (forall₂_of_map h6) ?_
  rintro e he m ⟨p, h10, h11⟩
  have hmem : e ∈ g.edges ∧ e.dst = s.nodeId := by simpa using he
  obtain ⟨k, s', hk, hs', hsn⟩ := C14_producers_first g hg _ hp j s h5 e hmem.1 hmem.2
  have hin : e.src ∈ ids app.plan := by
    rw [← hsn]; exact List.mem_map.2 ⟨s', List.mem_of_getElem? hs', rfl⟩
  obtain ⟨st, h12, h13⟩ := PlanOk.getElem_idxOf hin
  rw [show ids app.plan = app.plan.map Step.nodeId from rfl] at h12
  simp only at h10
  rw [h12] at h10
  cases h10
  rw [← h13]; exact h11

/-- The demo application: the sink reads what task 1 left, which was computed from task 0's. -/
example : demoGraph.WF ∧ demoGraph.NoParallel ∧ demoGraph.ConsistentTypes ∧
    computePlan demoGraph = .ok (some (demoApp (fun _ _ => false) (fun _ _ => .ignore) none).plan) ∧
    ∃ rt', runOneIteration (demoApp (fun _ _ => false) (fun _ _ => .ignore) none) demoStart =
      .ok (rt', none) ∧
      (rt'.w.trace.filterMap Ev.reads).map (fun x => (x.1, x.2.map Msg.payload)) =
        [(0, []), (1, [some 6]), (2, [some 1006])] := by
  refine ⟨by decide, by decide, by decide, by decide +kernel, _, rfl, ?_⟩
  decide +kernel

/-- Never another iteration's message: if every task sets or clears its output, then the process
calls of an iteration (tasks, inputs and results) do not depend on the messages left in the copper
list pool by anything that happened before. -/
theorem C21_no_old_message (g : Graph) (hg : g.WF) (app : App σ P)
    (hp : computePlan g = .ok (some app.plan)) (hsim : app.env.sim = none) (hso : SetsOutput app.env)
    (rt₁ rt₂ rt₁' rt₂' : Rt σ P) (r₁ r₂ : Option Err) (hst : rt₁.w.st = rt₂.w.st)
    (hm : SameButMessages rt₁.mgr rt₂.mgr)
    (h₁ : runOneIteration app rt₁ = .ok (rt₁', r₁)) (h₂ : runOneIteration app rt₂ = .ok (rt₂', r₂)) :
    ∃ t₁ t₂, rt₁'.w.trace = rt₁.w.trace ++ t₁ ∧ rt₂'.w.trace = rt₂.w.trace ++ t₂ ∧
      processCalls t₁ = processCalls t₂ := by
  have hw := wired_of_plan hg hp
  have hns : ∀ (k : Nat) (s : Step), app.plan[k]? = some s → ∀ i ∈ s.inputs, ∀ p : Step,
      app.plan[i.1]? = some p → p.taskType ≠ .sink := by
    intro k s hk i hi p hpl
    obtain ⟨p', hp', _, e, he, hes, _⟩ := (C16_inputs_perm_partial g hg _ hp k s hk).2 i hi
    rw [hpl] at hp'
    cases hp'
    rcases computePlan_cases hg with ⟨_, h'⟩ | ⟨_, plan', h', hok, _⟩
    · rw [h'] at hp; cases hp
    · rw [h'] at hp
      simp only [Rs.ok.injEq, Option.some.injEq] at hp
      subst hp
      rw [(hok.get hpl).2.2.2.1]
      unfold taskType
      have : (g.outgoing p.nodeId).length ≠ 0 := by
        intro h0
        have := outgoing_eq_nil_iff.1 (List.eq_nil_of_length_eq_zero h0) e he
        exact this hes
      split
      · simp
      · simp
  obtain ⟨hl1, hl2⟩ := lifeAll_twin app.env hsim .preprocess (List.range app.tasks) (Twin.refl hst)
  rcases iteration_processCalls app rt₁ h₁ with ⟨f, hf1, hf2, t, ht1, ht2⟩ | ⟨hn, h₁'⟩
  · rcases iteration_processCalls app rt₂ h₂ with ⟨_, _, _, t', ht1', ht2'⟩ | ⟨hn, _⟩
    · exact ⟨t, t', ht1, ht1', by rw [ht2, ht2']⟩
    · exact absurd (hf1.symm.trans (hl2.trans hn)) hf2
  · rcases iteration_processCalls app rt₂ h₂ with ⟨f, hf1, hf2, _⟩ | ⟨hn', h₂'⟩
    · exact absurd (hf1.symm.trans (hl2.symm.trans hn)) hf2
    · obtain ⟨m1, sl1, c1, w1, ms1, fl1, hc1, hd1, hpl1, t1, ht1, hz1⟩ := h₁'
      obtain ⟨m2, sl2, c2, w2, ms2, fl2, hc2, hd2, hpl2, t2, ht2, hz2⟩ := h₂'
      obtain ⟨rfl, c, c', hcc, hcc', hid, hlen⟩ := create_same hm hc1 hc2
      rw [hd1] at hcc; cases hcc
      rw [hd2] at hcc'; cases hcc'
      have htw := hl1.emit (lifeAll app.env .preprocess (List.range app.tasks) rt₁.w).1.st
        (.created c1.id) (.created c2.id) rfl
      have hout := planLoop_twin app.env hsim hso app.plan hw hns app.plan 0 c1.msgs c2.msgs
        rt₁.w rt₂.w _ _ (by simp) hlen (by intro j s hj; omega) htw
      rw [hpl1] at hout
      have hst2 := hl1.st
      rw [hst2, hpl2] at hout
      obtain ⟨⟨_, d, d', hd, hd', hdd⟩, _⟩ := hout
      exact ⟨d ++ t1, d' ++ t2, by rw [ht1, hd]; simp, by rw [ht2, hd']; simp, by
        simp [hz1, hz2, hdd]⟩

/-- The demo tasks set their payload but leave time of validity and status alone; a variant that
sets everything meets the hypothesis. -/
def demoFresh : App Nat Nat :=
  let a := demoApp (fun ph t => ph == .process && t == 1) (fun _ _ => .ignore) none
  { a with env := { a.env with
      source := fun tid out s => (s, { out with payload := some (100 * tid + s), md :=
        { out.md with tov := .none, statusTxt := "" } }, none)
      regular := fun tid ins out s => (s, { out with payload := some (tid + ins.length), md :=
        { out.md with tov := .none, statusTxt := "late" } }, if s % 2 = 0 then some "even" else none) } }

example : SetsOutput demoFresh.env ∧ demoFresh.env.sim = none := by
  refine ⟨⟨?_, ?_⟩, rfl⟩
  · intro tid out out' s h
    exact ⟨rfl, rfl, fun t => by simp only [demoFresh, Msg.setStop]; rw [h]⟩
  · intro tid ins out out' s h
    exact ⟨rfl, rfl, fun t => by simp only [demoFresh, Msg.setStop]; rw [h]⟩

/-! ### C22 -/

/-- Over a whole run of any application whose clock is monotone (and whose tasks leave the recorded
start time alone), every message left by a process step holds its start and end time, start ≤ end,
and the steps follow each other in time without overlap, all between the beginning and the end of
the run. -/
theorem C22_times_in_order (app : App σ P) (T : σ → Nat) (hc : MonotoneClock app.env T)
    (hk : KeepsStart app.env) (n : Nat) (rt rt' : Rt σ P) (r : RunResult)
    (h : run app n rt = .ok (rt', r)) :
    ∃ t, rt'.w.trace = rt.w.trace ++ t ∧ InOrder (T rt.w.st) ((lefts t).map Prod.snd) (T rt'.w.st) :=
  run_timed hc hk rfl n rt h

/-- The demo application meets the hypotheses with the clock `T`, and three iterations of it leave
nine messages. -/
example : MonotoneClock (demoApp (fun _ _ => false) (fun _ _ => .ignore) none).env
      (fun s => min s 18446744073709551614) ∧
    KeepsStart (demoApp (fun _ _ => false) (fun _ _ => .ignore) none).env ∧
    ∃ rt', run (demoApp (fun _ _ => false) (fun _ _ => .ignore) none) 3 demoStart =
      .ok (rt', .running) ∧ (lefts rt'.w.trace).length = 9 := by
  refine ⟨⟨?_, ?_, ?_, ?_, ?_, ?_, ?_, ?_, ?_, ?_, ?_, ?_⟩, ⟨?_, ?_⟩, _, rfl, by decide +kernel⟩
  · intro s
    have h1 : min s 18446744073709551614 < 18446744073709551615 := by omega
    have h2 : (UInt64.ofNat (min s 18446744073709551614)).toNat = min s 18446744073709551614 := by
      rw [UInt64.toNat_ofNat']; exact Nat.mod_eq_of_lt (by omega)
    refine ⟨?_, ?_, ?_⟩
    · show _ ≤ (UInt64.ofNat (min s 18446744073709551614)).toNat
      rw [h2]; exact Nat.le_refl _
    · show (UInt64.ofNat (min s 18446744073709551614)).toNat ≤ min (s + 1) 18446744073709551614
      rw [h2]; omega
    · show UInt64.ofNat (min s 18446744073709551614) ≠ NONE_VALUE
      intro h3
      have := congrArg UInt64.toNat h3
      rw [h2] at this
      have h4 : NONE_VALUE.toNat = 18446744073709551615 := by decide
      omega
  all_goals intros
  all_goals first | exact Nat.le_refl _ | rfl | skip
  · rename_i f hf s cl s' hs
    simp only [demoApp, demoEnv, Option.some.injEq] at hf
    subst hf
    simp only [Rs.ok.injEq] at hs
    subst hs
    exact Nat.le_refl _
  · rename_i sim hs _ _ _; cases hs
  · rename_i sim hs _ _ _ _; cases hs

end Runtime
end Verif
