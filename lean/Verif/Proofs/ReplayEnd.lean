import Verif.Proofs.Replay
import Verif.Props.RuntimePool
/-! The last iteration of a run that is shut down (C58). -/
namespace Verif
namespace Runtime
open Clock CopperList Planner
variable {σ σ' P τ : Type}

theorem finish_unlogged {app : App σ P} {id : UInt32} {msgs : List (Msg P)} {rt rt' : Rt σ P} {e : Err}
    (h : finishList app id msgs rt = .ok (rt', some e)) {c : List (Ev P)} (hc : rt'.w.trace = rt.w.trace ++ c) :
    loggedLists c = [] := by
  obtain ⟨c', h1, h2⟩ := finishList_trace _ _ _ _ h
  have : c = c' := List.append_cancel_left (hc.symm.trans h1)
  subst this
  cases h2 with
  | err md e => rfl

/-- An iteration that ends with an error and has logged its list, taken apart. -/
theorem iteration_last {app : App σ P} {code : TaskCode P τ} {mem : σ → Nat → τ}
    (he : Fair app.plan code mem app.env) {k : Nat} {rt rt' : Rt σ P} {e : Err} (hi : Idle k rt.mgr)
    (h : runOneIteration app rt = .ok (rt', some e)) {t : List (Ev P)} (ht : rt'.w.trace = rt.w.trace ++ t)
    (hne : loggedLists t ≠ []) :
    ∃ (c : CL (List (Msg P))) (w1 v : World σ P) (msgs : List (Msg P)),
      rt.mgr.data[0]? = some c ∧ c.msgs.length = k ∧
      mem w1.st = lifeMem app.plan code .preprocess (List.range app.tasks) (mem rt.w.st) ∧
      planLoop app.env app.plan w1 c.msgs = .ok (v, msgs, .next) ∧
      loggedLists t = (if app.env.log.isSome then [⟨rt.mgr.currentClId, .beingSerialized, msgs⟩] else []) := by
  obtain ⟨c, hc1, hc2⟩ := lifeAll_trace app.env .preprocess (List.range app.tasks) rt.w
  have hm1 := lifeAll_mem he .preprocess (List.range app.tasks) rt.w
  have hqc := quiet_of_task hc2.ofTask
  unfold runOneIteration at h
  generalize lifeAll app.env .preprocess (List.range app.tasks) rt.w = q at h hc1 hc2 hm1
  obtain ⟨w1, f⟩ := q
  cases f with
  | abort => simp at h
  | shutdown e =>
    simp only [Rs.ok.injEq, Prod.mk.injEq] at h
    obtain ⟨rfl, _⟩ := h
    simp only at hc1
    rw [hc1] at ht
    have := List.append_cancel_left ht
    subst this
    exact absurd hqc.1 hne
  | next =>
    simp only at h hc1 hm1
    have hm1 := hm1 trivial
    split at h
    · cases h
    · cases h
    · rename_i m1 slot hcr
      obtain ⟨rfl, c0, hc0, hd0⟩ := idle_create_msgs hi hcr
      have hid : rt.mgr.currentClId ≠ 0xFFFFFFFF ∨ app.overflow = .wrapping := by
        apply Classical.byContradiction
        intro hid
        have hid' : rt.mgr.currentClId = 0xFFFFFFFF ∧ app.overflow = .checked := by
          refine ⟨Classical.byContradiction (fun h => hid (.inl h)), ?_⟩
          cases ho : app.overflow with
          | checked => rfl
          | wrapping => exact absurd (.inr ho) hid
        unfold Manager.create at hcr
        split at hcr
        · cases hcr
        · rw [hi.ring, hc0] at hcr
          simp [hid'] at hcr
      obtain ⟨m1', cl, hcr', hcl, hclid, hcll, hwr⟩ := idle_create hi hid
      rw [hcr] at hcr'
      simp only [Rs.ok.injEq, Prod.mk.injEq, and_true] at hcr'
      subst hcr'
      rw [hd0] at hcl
      simp only [Option.some.injEq] at hcl
      subst hcl
      rw [hd0] at h
      simp only at h hcll
      split at h
      · cases h
      · rename_i w2 msgs flow hpl
        obtain ⟨c2, hp1, hp2⟩ := planLoop_trace _ _ _ _ hpl
        have hqc2 := quiet_of_task hp2.ofTask
        have hml : msgs.length = k := by rw [hp2.length, hcll]
        obtain ⟨hb, _, _⟩ := hwr msgs hml
        have hpre : w2.trace = rt.w.trace ++ (c ++ ([.created rt.mgr.currentClId] ++ c2)) := by
          rw [hp1]; simp [World.emit, hc1]
        have hq0 : loggedLists (c ++ ([.created rt.mgr.currentClId] ++ c2)) = [] := by
          simp only [loggedLists_append, hqc.1, hqc2.1]
          rfl
        have hdead : ∀ c3, t = c ++ ([.created rt.mgr.currentClId] ++ c2) ++ c3 → loggedLists c3 = [] → False := by
          intro c3 h1 h2
          apply hne
          rw [h1, loggedLists_append, hq0, h2]
          rfl
        cases flow with
        | shutdown e =>
          simp only [Rs.ok.injEq, Prod.mk.injEq] at h
          obtain ⟨rfl, _⟩ := h
          refine (hdead [] ?_ rfl).elim
          apply List.append_cancel_left (as := rt.w.trace)
          rw [← ht, hpre]; simp
        | abort =>
          simp only at h
          obtain ⟨c3, hf1, _⟩ := finishList_trace _ _ _ _ h
          refine (hdead c3 ?_ (finish_unlogged h hf1)).elim
          apply List.append_cancel_left (as := rt.w.trace)
          rw [← ht, hf1, hpre]; simp
        | next =>
          simp only at h
          split at h
          · cases h
          · rename_i md hmd
            split at h
            · cases h
            · rename_i d hd
              split at h
              · cases h
              · rename_i rt1 e1 hfin
                simp only [Rs.ok.injEq, Prod.mk.injEq] at h
                obtain ⟨rfl, _⟩ := h
                obtain ⟨c3, hf1, _⟩ := finishList_trace _ _ _ _ hfin
                refine (hdead c3 ?_ (finish_unlogged hfin hf1)).elim
                apply List.append_cancel_left (as := rt.w.trace)
                rw [← ht, hf1, hpre]; simp
              · rename_i rt1 hfin
                obtain ⟨hpo1, hpo2, hpo3, c3, hf1, hf2, hf3, _, hf4⟩ := finish_pool app hb hfin
                obtain ⟨c4, hl1, hl2⟩ :=
                  lifeAll_trace app.env .postprocess (List.range app.tasks) rt1.w
                have hqc4 := quiet_of_task hl2.ofTask
                generalize lifeAll app.env .postprocess (List.range app.tasks) rt1.w = q at h hl1 hl2
                obtain ⟨w4, f⟩ := q
                have hrt : rt' = { rt1 with w := w4 } := by
                  cases f with
                  | shutdown e => simp at h; exact h.1.symm
                  | abort => simp at h
                  | next => simp at h
                subst hrt
                simp only at hl1 ht
                have hlog : t = c ++ ([.created rt.mgr.currentClId] ++ c2) ++ (c3 ++ c4) := by
                  apply List.append_cancel_left (as := rt.w.trace)
                  rw [← ht, hl1, hf1]
                  simp only
                  rw [hpre]
                  simp
                refine ⟨c0, _, w2, msgs, hc0, hcll, ?_, hpl, ?_⟩
                · exact hm1
                rw [hlog, loggedLists_append, hq0]
                simp only [loggedLists_append, hqc4.1, hf4]
                simp

/-- The last iteration and its replay. -/
theorem last_sync {app : App σ P} {r : Replayer σ' P} (hw : Wired app.plan) (hns : SinksUnread app.plan)
    (hacc : SourcesReadable app.plan) (hplan : r.app.plan = app.plan) (htasks : r.app.tasks = app.tasks)
    {code : TaskCode P τ} {mem : σ → Nat → τ} (he : Fair app.plan code mem app.env)
    {mem' : σ' → Nat → τ} (he' : Plays app.plan code mem' r.app.env)
    (hclock : ∀ msgs s, mem' (r.setClock msgs s) = mem' s) (hlog : app.env.log.isSome = true)
    (hlog' : r.app.env.log.isSome = true)
    {rt rt1 : Rt σ P} {rt' : Rt σ' P} {e : Err} (hs : Synced app.plan mem mem' rt rt')
    (h : runOneIteration app rt = .ok (rt1, some e)) {t : List (Ev P)} (ht : rt1.w.trace = rt.w.trace ++ t)
    (hne : loggedLists t ≠ []) :
    ∃ cl, loggedLists t = [cl] ∧ ∀ rt1', replayOne r cl rt' = .ok (rt1', none) →
      (∀ ev ∈ rt1'.w.trace, ev.stops = false) →
      ∃ t' cl', rt1'.w.trace = rt'.w.trace ++ t' ∧ loggedLists t' = [cl'] ∧ SameList app.plan cl cl' := by
  obtain ⟨⟨hi, hi', hid, hc⟩, hm⟩ := hs
  obtain ⟨c, w1, v, msgs, h1, h2, h3, h4, h11⟩ := iteration_last he hi h ht hne
  rw [if_pos hlog] at h11
  refine ⟨_, h11, fun rt1' hr hq' => ?_⟩
  unfold replayOne at hr
  have hsame : (r.app.withSim (resimCallback r.app.plan r.sinkOut msgs)).plan = app.plan := hplan
  have hF : Fair (r.app.withSim (resimCallback r.app.plan r.sinkOut msgs)).plan code mem'
      (r.app.withSim (resimCallback r.app.plan r.sinkOut msgs)).env := by
    rw [hsame, hplan]
    exact he'.withSim (resim_leaves hw.nodup mem' _ _)
  obtain ⟨d, d', w1', v', msgs', t', k1, k2, k3, k4, k5, k6, k7, k8, k9, k10, k11, -⟩ :=
    iteration_full hF (k := app.plan.length)
      (rt := { rt' with w := { rt'.w with st := r.setClock msgs rt'.w.st } }) hi' hr hq'
  have hl2 : (r.app.withSim (resimCallback r.app.plan r.sinkOut msgs)).env.log.isSome = true := hlog'
  rw [if_pos hl2] at k11
  rw [hsame] at k3 k4
  have htk : (r.app.withSim (resimCallback r.app.plan r.sinkOut msgs)).tasks = app.tasks := htasks
  rw [htk] at k3
  have hm1 : ∀ t, IsRegular app.plan t → mem w1.st t = mem' w1'.st t := by
    intro t ht
    rw [h3, k3]
    apply lifeMem_congr _ _ _ _ _ _ _ t ht
    intro u hu
    rw [hclock]
    exact hm u hu
  rw [hplan] at k4
  obtain ⟨a1, _⟩ := planLoop_sync hw hns hacc he he' app.plan 0 c.msgs d.msgs msgs' w1 v w1' v'
    (by simp) h2 k2 (hc c d h1 k1) hm1 h4 k4
  have hlen := (planLoop_keeps hw app.plan 0 _ _ _ _ (by simp) h4).1
  have hlen' := (planLoop_keeps hw app.plan 0 _ _ _ _ (by simp) k4).1
  exact ⟨t', _, k10, k11, hid, by simp only; rw [hlen, hlen', h2, k2], a1⟩

/-- The replay of some lists and then one more. -/
theorem replayLoop_snoc (r : Replayer σ P) (cls : List (CL (List (Msg P)))) (cl : CL (List (Msg P))) :
    ∀ rt rt' : Rt σ P, replayLoop r (cls ++ [cl]) rt = .ok rt' →
      ∃ rtm, replayLoop r cls rt = .ok rtm ∧ replayOne r cl rtm = .ok (rt', none) := by
  induction cls with
  | nil =>
    intro rt rt' h
    simp only [List.nil_append] at h
    unfold replayLoop at h
    split at h
    · rename_i rt1 h1
      simp only [replayLoop, Rs.ok.injEq] at h
      subst h
      exact ⟨rt, rfl, h1⟩
    · cases h
  | cons c cls ih =>
    intro rt rt' h
    simp only [List.cons_append] at h
    unfold replayLoop at h ⊢
    split at h
    · exact ih _ rt' h
    · cases h

theorem stop_quiet (app : App σ P) (rt : Rt σ P) :
    loggedLists (stopAll app rt).1.w.trace = loggedLists rt.w.trace := by
  obtain ⟨c, hc1, hc2⟩ := lifeAll_trace app.env .stop (List.range app.tasks) rt.w
  have hqc := quiet_of_task hc2.ofTask
  unfold stopAll
  generalize lifeAll app.env .stop (List.range app.tasks) rt.w = q at hc1
  obtain ⟨w, f⟩ := q
  simp only at hc1
  have hw : loggedLists w.trace = loggedLists rt.w.trace := by rw [hc1, loggedLists_append, hqc.1, List.append_nil]
  cases f
  · simp only [World.emit, loggedLists_append, hw]
    exact List.append_nil _
  · exact hw
  · exact hw

/-- What a run that ends in the iteration after `n` quiet ones has logged: the lists of these and, if the last iteration
came so far, one more. -/
theorem ended_logged_or {app : App σ P} {n : Nat} {rt rt1 rt2 : Rt σ P} {e : Err} (h : record app n rt = .ok rt1)
    (h2 : run app (n + 1) rt = .ok (rt2, .ended e)) :
    loggedLists rt2.w.trace = loggedLists rt1.w.trace ∨
    ∃ rtc ec t, runOneIteration app rt1 = .ok (rtc, some ec) ∧ rtc.w.trace = rt1.w.trace ++ t ∧ loggedLists t ≠ [] ∧
      loggedLists rt2.w.trace = loggedLists rt1.w.trace ++ loggedLists t := by
  unfold record at h
  unfold run at h2
  generalize startAll app rt = q at h h2
  obtain ⟨rta, es⟩ := q
  cases es with
  | some e => cases h
  | none =>
    simp only at h h2
    split at h
    · rename_i rtb hb
      simp only [Rs.ok.injEq] at h
      subst h
      rw [runLoop_last app n rta hb] at h2
      cases h1 : runOneIteration app rtb with
      | panic => rw [h1] at h2; cases h2
      | ok x =>
        obtain ⟨rtc, ec⟩ := x
        rw [h1] at h2
        cases ec with
        | none => simp at h2
        | some ec =>
          obtain ⟨t, ht, _⟩ := iteration_trace app rtb h1
          have hl := stop_quiet app rtc
          have heq : rt2.w.trace = (stopAll app rtc).1.w.trace := by
            simp only at h2
            generalize stopAll app rtc = q at h2
            obtain ⟨rtd, ed⟩ := q
            cases ed <;> simp only [Rs.ok.injEq, Prod.mk.injEq] at h2 <;> rw [← h2.1]
          have htr : loggedLists rt2.w.trace = loggedLists rtb.w.trace ++ loggedLists t := by
            rw [heq, hl, ht, loggedLists_append]
          by_cases hne : loggedLists t = []
          · left; rw [htr, hne, List.append_nil]
          · exact .inr ⟨rtc, ec, t, rfl, ht, hne, htr⟩
    · cases h

/-- A replay of some lists and then one more, from the start. -/
theorem replay_snoc (r : Replayer σ P) {cls : List (CL (List (Msg P)))} {cl : CL (List (Msg P))} {rt rt' : Rt σ P}
    (h : replay r (cls ++ [cl]) rt = .ok rt') :
    ∃ rtm, replay r cls rt = .ok rtm ∧ replayOne r cl rtm = .ok (rt', none) := by
  unfold replay at h ⊢
  split at h
  · exact replayLoop_snoc r cls cl _ _ h
  · cases h

theorem pointwise_snoc {α β : Type} {R : α → β → Prop} {l : List α} {l' : List β} (h : Pointwise R l l') {a : α} {b : β}
    (hab : R a b) : Pointwise R (l ++ [a]) (l' ++ [b]) := by
  induction h with
  | nil => exact .cons hab .nil
  | cons h _ ih => exact .cons h ih

/-- A recorded run and its replay. -/
theorem replay_sync {app : App σ P} {r : Replayer σ' P} (hw : Wired app.plan) (hns : SinksUnread app.plan)
    (hacc : SourcesReadable app.plan) (hplan : r.app.plan = app.plan) (htasks : r.app.tasks = app.tasks)
    {code : TaskCode P τ} {mem : σ → Nat → τ} (hF : Fair app.plan code mem app.env)
    {mem' : σ' → Nat → τ} (hrep : Plays app.plan code mem' r.app.env)
    (hclock : ∀ msgs s, mem' (r.setClock msgs s) = mem' s)
    (hlog : app.env.log.isSome = true) (hlog' : r.app.env.log.isSome = true)
    {rt rt1 : Rt σ P} {rt' rt1' : Rt σ' P} (hfresh : rt.w.trace = []) (hfresh' : rt'.w.trace = [])
    (hpool : SamePool app.plan rt.mgr rt'.mgr)
    (hmem : ∀ t, IsRegular app.plan t → mem rt.w.st t = mem' rt'.w.st t)
    {n : Nat} (h : record app n rt = .ok rt1) (hq : ∀ ev ∈ rt1.w.trace, ev.stops = false)
    (h' : replay r (loggedLists rt1.w.trace) rt' = .ok rt1')
    (hq' : ∀ ev ∈ rt1'.w.trace, ev.stops = false) :
    Synced app.plan mem mem' rt1 rt1' ∧ (loggedLists rt1.w.trace).length = n ∧
    Pointwise (SameList app.plan) (loggedLists rt1.w.trace) (loggedLists rt1'.w.trace) := by
  unfold record at h
  unfold replay at h'
  obtain ⟨ts, hts, hedge⟩ := startAll_trace app rt
  obtain ⟨ts', hts', hedge'⟩ := startAll_trace (r.app.withSim (defaultCallback r.app.plan)) rt'
  cases hs : startAll app rt with
  | mk rta e =>
    cases hs' : startAll (r.app.withSim (defaultCallback r.app.plan)) rt' with
    | mk rta' e' =>
      rw [hs] at h hts hedge
      rw [hs'] at h' hts' hedge'
      cases e with
      | some e => cases h
      | none =>
        cases e' with
        | some e => cases h'
        | none =>
          simp only at h h' hts hts'
          split at h
          · rename_i rtb hrun
            simp only [Rs.ok.injEq] at h
            subst h
            obtain ⟨its, hits, _⟩ := runLoop_trace app n rta hrun
            obtain ⟨tr, htr⟩ := replayLoop_trace r _ rta' h'
            have hqa : ∀ ev ∈ rta.w.trace, ev.stops = false :=
              fun ev hev => hq ev (by rw [hits]; simp [hev])
            have hqa' : ∀ ev ∈ rta'.w.trace, ev.stops = false :=
              fun ev hev => hq' ev (by rw [htr]; simp [hev])
            have hF' : Fair app.plan code mem' (r.app.withSim (defaultCallback r.app.plan)).env := by
              rw [hplan]
              exact hrep.withSim (default_leaves hw.nodup mem')
            obtain ⟨hmg, hm⟩ := start_sync hF hs hqa
            obtain ⟨hmg', hm'⟩ := start_sync hF' hs' hqa'
            have htk : (r.app.withSim (defaultCallback (σ := σ') (P := P) r.app.plan)).tasks =
              app.tasks := htasks
            have hsync : Synced app.plan mem mem' rta rta' := by
              refine ⟨by rw [hmg, hmg']; exact hpool, fun t ht => ?_⟩
              rw [hm, hm', htk]
              exact lifeMem_congr _ _ _ _ _ _ hmem t ht
            have hll : loggedLists rta.w.trace = [] := start_quiet app hs hfresh
            have hll' : loggedLists rta'.w.trace = [] := start_quiet _ hs' hfresh'
            have hl : loggedLists rtb.w.trace = loggedLists its.flatten := by
              rw [hits, loggedLists_append, hll, List.nil_append]
            rw [hl] at h' ⊢
            obtain ⟨h1, h2, t', h3, h4⟩ := loop_sync hw hns hacc hplan htasks hF hrep hclock hlog
              hlog' n rta rtb rta' rt1' _ hsync hrun hq hits h' hq'
            refine ⟨h1, h2, ?_⟩
            rw [h3, loggedLists_append, hll', List.nil_append]
            exact h4
          · cases h

theorem record_idle {app : App σ P} {k n : Nat} {rt rt1 : Rt σ P} (h : record app n rt = .ok rt1)
    (hi : Idle k rt.mgr) : Idle k rt1.mgr := by
  unfold record at h
  have hm := startAll_mgr app rt
  generalize startAll app rt = q at h hm
  obtain ⟨rta, e⟩ := q
  cases e with
  | some e => cases h
  | none =>
    simp only at h hm
    split at h
    · rename_i rtb hb
      simp only [Rs.ok.injEq] at h
      subst h
      exact (runLoop_idle app k n rta rtb (by rw [hm]; exact hi) hb).1
    · cases h

end Runtime
end Verif
