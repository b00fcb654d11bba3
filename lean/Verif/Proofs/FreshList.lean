import Verif.Spec.FreshList
import Verif.Proofs.Replay
import Verif.Proofs.RuntimeFlow
/-! Lemmas about the messages found in a copper list. -/
namespace Verif
namespace Runtime
open Clock CopperList Planner
variable {σ P : Type}

theorem finish_msgs {app : App σ P} {k : Nat} {id : UInt32} {msgs : List (Msg P)} {rt rt' : Rt σ P}
    (h : Busy k id msgs rt.mgr) (hf : finishList app id msgs rt = .ok (rt', none)) :
    rt'.mgr.data.map CL.msgs = rt.mgr.data.map CL.msgs := by
  unfold finishList at hf
  split at hf
  · cases hf
  · simp only at hf
    split at hf
    · simp at hf
    · split at hf
      · cases hf
      · rename_i w' m' heop
        simp only [Rs.ok.injEq, Prod.mk.injEq, and_true] at hf
        subst hf
        have hact : rt.mgr.LiveActive := by
          intro c hc; rw [h.live] at hc; simp only [List.mem_singleton] at hc; subst hc; exact .inl rfl
        rcases endOfProcessing_eq (tracedLog app.env.log) _ h.inv h.dead hact id with
          ⟨_, h2⟩ | ⟨w1, m1, h1, h2, _, _, _, _, _, _, h9⟩
        · rw [h2] at heop; cases heop
        · rw [h2] at heop
          simp only [Rs.ok.injEq, Prod.mk.injEq] at heop
          obtain ⟨rfl, rfl⟩ := heop
          exact h9

/-- An undisturbed iteration, taken apart. -/
theorem iteration_parts {app : App σ P} {k : Nat} {rt rt' : Rt σ P} (hi : Idle k rt.mgr)
    (h : runOneIteration app rt = .ok (rt', none)) (hq : ∀ ev ∈ rt'.w.trace, ev.stops = false) :
    ∃ (c c' : CL (List (Msg P))) (w1 v : World σ P) (msgs : List (Msg P)) (t : List (Ev P)),
      rt.mgr.data[0]? = some c ∧ c.msgs.length = k ∧
      planLoop app.env app.plan w1 c.msgs = .ok (v, msgs, .next) ∧
      rt'.mgr.data[0]? = some c' ∧ c'.msgs = msgs ∧
      Idle k rt'.mgr ∧ rt'.mgr.currentClId = rt.mgr.currentClId + 1 ∧
      rt'.w.trace = rt.w.trace ++ t ∧
      loggedLists t = (if app.env.log.isSome then
        [⟨rt.mgr.currentClId, .beingSerialized, msgs⟩] else []) := by
  obtain ⟨hidle, _, t, ht, hpool⟩ := iteration_pool app rt hi h
  have hqt : ∀ ev ∈ t, ev.stops = false := fun ev hev => hq ev (by rw [ht]; simp [hev])
  rcases hpool with ⟨_, _, _, _, ev, hev, hst⟩ | ⟨hnid, hcre, _⟩
  · rw [hqt ev hev] at hst; cases hst
  obtain ⟨c, hc1, hc2⟩ := lifeAll_trace app.env .preprocess (List.range app.tasks) rt.w
  unfold runOneIteration at h
  generalize lifeAll app.env .preprocess (List.range app.tasks) rt.w = q at h hc1 hc2
  obtain ⟨w1, f⟩ := q
  cases f with
  | abort =>
    simp only [Rs.ok.injEq, Prod.mk.injEq, and_true] at h
    subst h
    simp only at hc1
    rw [hc1] at ht
    have := List.append_cancel_left ht
    subst this
    have := hc2.stops.1 hqt
    simp at this
  | shutdown e => simp at h
  | next =>
    simp only at h hc1
    split at h
    · cases h
    · cases h
    · rename_i m1 slot hcr
      obtain ⟨rfl, c0, hc0, hd0⟩ := idle_create_msgs hi hcr
      have hid : rt.mgr.currentClId ≠ 0xFFFFFFFF ∨ app.overflow = .wrapping := by
        apply Classical.byContradiction
        intro hid
        have hid' : rt.mgr.currentClId = 0xFFFFFFFF ∧ app.overflow = .checked := by
          refine ⟨Classical.byContradiction (fun h => hid (.inl h)), ?_⟩
          cases ho : app.overflow with
          | checked => rfl
          | wrapping => exact absurd (.inr ho) hid
        unfold Manager.create at hcr
        split at hcr
        · cases hcr
        · rw [hi.ring, hc0] at hcr
          simp at hcr
      obtain ⟨m1', cl, hcr', hcl, hclid, hcll, hwr⟩ := idle_create hi hid
      rw [hcr] at hcr'
      simp only [Rs.ok.injEq, Prod.mk.injEq, and_true] at hcr'
      subst hcr'
      rw [hd0] at hcl
      simp only [Option.some.injEq] at hcl
      subst hcl
      rw [hd0] at h
      simp only at h hcll
      split at h
      · cases h
      · rename_i w2 msgs flow hpl
        obtain ⟨c2, hp1, hp2⟩ := planLoop_trace _ _ _ _ hpl
        have hml : msgs.length = k := by rw [hp2.length, hcll]
        obtain ⟨hb, _, _⟩ := hwr msgs hml
        have hext : ∀ rt1 : Rt σ P, (∃ x, rt1.w.trace = w2.trace ++ x) →
            (∃ x, rt'.w.trace = rt1.w.trace ++ x) → flow = .next := by
          rintro rt1 ⟨x, hx⟩ ⟨y, hy⟩
          apply hp2.stops.1
          intro ev hev
          apply hq
          rw [hy, hx, hp1]
          simp [hev]
        cases flow with
        | shutdown e => simp at h
        | abort =>
          simp only at h
          obtain ⟨c3, hf1, _⟩ := finishList_trace _ _ _ _ h
          have := hext rt' ⟨c3, hf1⟩ ⟨[], by simp⟩
          cases this
        | next =>
          simp only at h
          split at h
          · cases h
          · split at h
            · cases h
            · split at h
              · cases h
              · simp at h
              · rename_i rt1 hfin
                obtain ⟨hpo1, hpo2, hpo3, c3, hf1, hf2, hf3, _, hf4⟩ := finish_pool app hb hfin
                have hfm1 := finish_msgs hb hfin
                obtain ⟨c4, hl1, hl2⟩ :=
                  lifeAll_trace app.env .postprocess (List.range app.tasks) rt1.w
                generalize lifeAll app.env .postprocess (List.range app.tasks) rt1.w = q at h hl1 hl2
                obtain ⟨w4, f⟩ := q
                have hrt : rt' = { rt1 with w := w4 } := by
                  cases f with
                  | shutdown e => simp at h
                  | abort => simp at h; exact h.symm
                  | next => simp at h; exact h.symm
                subst hrt
                simp only at hl1 hl2 hq ht
                have hf : f = .next := hl2.stops.1 (fun ev hev => hq ev (by rw [hl1]; simp [hev]))
                have hml0 : (rt1.mgr.data[0]?).map CL.msgs = some msgs := by
                  rw [← List.getElem?_map, hfm1, List.getElem?_map]
                  simp [Manager.write, hd0]
                obtain ⟨c', hc'1, hc'2⟩ := Option.map_eq_some_iff.1 hml0
                have hlog : t = c ++ ([.created rt.mgr.currentClId] ++ (c2 ++ (c3 ++ c4))) := by
                  apply List.append_cancel_left (as := rt.w.trace)
                  rw [← ht, hl1, hf1]
                  simp only
                  rw [hp1]
                  simp [World.emit, hc1]
                have hqc := quiet_of_task hc2.ofTask
                have hqc2 := quiet_of_task hp2.ofTask
                have hqc4 := quiet_of_task hl2.ofTask
                refine ⟨c0, c', _, w2, msgs, t, hc0, hcll, hpl, hc'1, hc'2, hidle, hnid, ht, ?_⟩
                rw [hlog]
                simp only [loggedLists_append, hqc.1, hqc2.1, hqc4.1, hf4]
                simp [loggedLists]

/-- The slot of a task which leaves its message alone keeps its contents, besides the times. -/
theorem planLoop_untouched {env : Env σ P} {plan : List Step} (hw : Wired plan) (hsim : env.sim = none)
    {k : Nat} {step : Step} (hk : plan[k]? = some step) (hq : Quiet env step) (steps : List Step) :
    ∀ (j : Nat) (w v : World σ P) (msgs out : List (Msg P)), j ≤ k → steps = plan.drop j →
      planLoop env steps w msgs = .ok (v, out, .next) →
      ∃ m m', msgs[k]? = some m ∧ out[k]? = some m' ∧ m'.payload = m.payload ∧ m'.md.tov = m.md.tov ∧
        m'.md.statusTxt = m.md.statusTxt := by
  induction steps with
  | nil =>
    intro j w v msgs out hj hst _
    have : plan.length ≤ j := List.drop_eq_nil_iff.1 hst.symm
    rw [List.getElem?_eq_none (by omega)] at hk
    cases hk
  | cons s steps ih =>
    intro j w v msgs out hj hst h
    obtain ⟨_, hj', hst'⟩ := mem_of_drop hst
    obtain ⟨ins, o, h1, h2, h3, h4⟩ := planLoop_cons hw hj' h
    by_cases hjk : j = k
    · subst hjk
      rw [hk] at hj'
      cases hj'
      obtain ⟨h5, h6⟩ := planLoop_keeps hw steps (j + 1) _ _ _ _ hst' h4
      refine ⟨o, (processStep env step ins o w).2.1, h2, ?_, ?_⟩
      · rw [h6 j (by omega), List.getElem?_set_self (List.getElem?_eq_some_iff.1 h2).1]
      · have key : ∀ (w : World σ P), (processStep env step ins o w).2.1.payload = o.payload ∧
            (processStep env step ins o w).2.1.md.tov = o.md.tov ∧
            (processStep env step ins o w).2.1.md.statusTxt = o.md.statusTxt := by
          intro w
          unfold processStep execProcess
          rw [hsim]
          simp only [if_true]
          rw [(hq ins (o.setStart (env.now w.st).2) (env.now w.st).1).2]
          simp only
          rw [(hq ins (o.setStart (env.now w.st).2) (env.now w.st).1).1]
          exact ⟨rfl, rfl, rfl⟩
        exact key w
    · obtain ⟨m, m', h5, h6⟩ := ih (j + 1) _ _ _ _ (by omega) hst' h4
      rw [List.getElem?_set_ne hjk] at h5
      exact ⟨m, m', h5, h6⟩

end Runtime
end Verif
