import Verif.Proofs.RuntimeRun
import Verif.Proofs.RuntimeFlow
/-! What an iteration does to the pool of copper lists and to the log (C11, C12). -/
namespace Verif
namespace Runtime
open Planner CopperList Clock
variable {σ P : Type}

@[simp] theorem loggedLists_append (a b : List (Ev P)) :
    loggedLists (a ++ b) = loggedLists a ++ loggedLists b := by simp [loggedLists]
@[simp] theorem createdIds_append (a b : List (Ev P)) :
    createdIds (a ++ b) = createdIds a ++ createdIds b := by simp [createdIds]

@[simp] theorem shownMetadata_append (a b : List (Ev P)) :
    shownMetadata (a ++ b) = shownMetadata a ++ shownMetadata b := by simp [shownMetadata]

theorem quiet_of_task {c : List (Ev P)} (h : ∀ ev ∈ c, ev.ofTask = true) :
    loggedLists c = [] ∧ createdIds c = [] ∧ shownMetadata c = [] := by
  unfold loggedLists createdIds shownMetadata
  rw [List.filterMap_eq_nil_iff, List.filterMap_eq_nil_iff, List.filterMap_eq_nil_iff]
  refine ⟨?_, ?_, ?_⟩ <;>
  · intro ev hev
    have := h ev hev
    cases ev <;> simp_all [Ev.ofTask]

theorem Core.ofTask {sim : Bool} {ph : Phase} {tid : Nat} {ins : List (Msg P)} {c : List (Ev P)}
    {f : Flow} {b : Bool} (h : Core sim ph tid ins c f b) : ∀ ev ∈ c, ev.ofTask = true := by
  have hr : ∀ {c : List (Ev P)} {f : Flow} {b : Bool}, RealChunk ph tid ins c f b →
      ∀ ev ∈ c, ev.ofTask = true := by
    intro c f b h
    cases h <;> simp [Ev.ofTask]
  cases h with
  | real hs h => exact hr h
  | bySim hs => simp [Ev.ofTask]
  | errored hs e d => simp [Ev.ofTask]
  | byRuntime hs h =>
    intro ev hev
    rcases List.mem_cons.1 hev with rfl | hev
    · rfl
    · exact hr h ev hev

theorem LifeTrace.ofTask {sim : Bool} {ph : Phase} {ts : List Nat} {c : List (Ev P)} {f : Flow}
    (h : LifeTrace sim ph ts c f) : ∀ ev ∈ c, ev.ofTask = true := by
  induction h with
  | nil => simp
  | cons h _ ih =>
    intro ev hev
    rcases List.mem_append.1 hev with h1 | h1
    · exact h.ofTask ev h1
    · exact ih ev h1
  | stop h _ => exact h.ofTask

theorem PlanTrace.ofTask {sim : Bool} {steps : List Step} {msgs msgs' : List (Msg P)}
    {c : List (Ev P)} {f : Flow} (h : PlanTrace sim steps msgs c msgs' f) :
    ∀ ev ∈ c, ev.ofTask = true := by
  have hp : ∀ {tid : Nat} {ins : List (Msg P)} {out : Msg P} {c : List (Ev P)} {f : Flow},
      ProcChunk sim tid ins out c f → ∀ ev ∈ c, ev.ofTask = true := by
    intro tid ins out c f h
    cases h with
    | next h _ =>
      intro ev hev
      rcases List.mem_append.1 hev with h1 | h1
      · exact h.ofTask ev h1
      · simp only [List.mem_singleton] at h1; subst h1; rfl
    | stop h _ => exact h.ofTask
  induction h with
  | nil => simp
  | cons _ _ _ h _ ih =>
    intro ev hev
    rcases List.mem_append.1 hev with h1 | h1
    · exact hp h ev h1
    · exact ih ev h1
  | stop _ _ _ h _ => exact hp h

theorem Idle.inv {k : Nat} {m : Manager (List (Msg P))} (h : Idle k m) : m.Inv :=
  ⟨by rw [h.none_used]; exact Nat.zero_le _, by rw [h.ring, h.none_used]; simp⟩

/-- A pool with exactly one list in use, the one just filled. -/
structure Busy (k : Nat) (id : UInt32) (msgs : List (Msg P)) (m : Manager (List (Msg P))) : Prop where
  inv : m.Inv
  dead : m.DeadFree
  live : m.live = [⟨id, .processing, msgs⟩]
  cap_pos : 0 < m.cap
  shape : ∀ c ∈ m.data, c.msgs.length = k

theorem idle_create {k : Nat} {m : Manager (List (Msg P))} (h : Idle k m) {o : Overflow}
    (hid : m.currentClId ≠ 0xFFFFFFFF ∨ o = .wrapping) :
    ∃ m1 cl, m.create o = .ok (m1, some 0) ∧ m1.data[0]? = some cl ∧ cl.id = m.currentClId ∧
      cl.msgs.length = k ∧
      ∀ msgs : List (Msg P), msgs.length = k →
        Busy k m.currentClId msgs (m1.write 0 (fun c => { c with state := .processing, msgs := msgs })) ∧
        (m1.write 0 (fun c => { c with state := .processing, msgs := msgs })).cap = m.cap ∧
        (m1.write 0 (fun c => { c with state := .processing, msgs := msgs })).currentClId =
          m.currentClId + 1 := by
  have hlt : m.length < m.cap := by rw [h.none_used]; exact h.cap_pos
  obtain ⟨slot, hslot, hcr⟩ := Manager.create_ok (o := o) h.inv hlt hid
  rw [h.none_used] at hslot hcr
  have hl : 0 < m.data.length := h.cap_pos
  have hmem : slot ∈ m.data := List.mem_of_getElem? hslot
  refine ⟨_, { slot with id := m.currentClId }, hcr, by simp [hl], rfl, h.shape slot hmem, ?_⟩
  intro msgs hk
  have hset : (m.data.set 0 { slot with id := m.currentClId }).modify 0
      (fun c => { c with state := .processing, msgs := msgs }) =
      m.data.set 0 ⟨m.currentClId, .processing, msgs⟩ := by
    apply List.ext_getElem?
    intro i
    simp only [List.getElem?_modify, List.getElem?_set]
    by_cases hi : 0 = i
    · subst hi; simp [hl]
    · simp [hi]
  simp only [Manager.write, hset]
  refine ⟨⟨⟨?_, ?_⟩, ?_, ?_, ?_, ?_⟩, by simp [Manager.cap], by simp⟩
  · simp only [Manager.cap, List.length_set]; omega
  · simp [Manager.cap]
  · intro c hc
    simp only [List.drop_set] at hc
    rw [if_pos (by omega)] at hc
    exact h.all_free c (List.mem_of_mem_drop hc)
  · simp only [Manager.live, Nat.zero_add]
    rw [show (1 : Nat) = 0 + 1 from rfl, take_set_succ _ _ _ hl]
    simp
  · simp only [Manager.cap, List.length_set]; exact hl
  · intro c hc
    rcases List.mem_or_eq_of_mem_set hc with hc | rfl
    · exact h.shape c hc
    · exact hk

/-- `end_of_processing` gives the list in use back. -/
theorem busy_finish {k : Nat} {id : UInt32} {msgs : List (Msg P)} {m : Manager (List (Msg P))}
    (h : Busy k id msgs m) (log : Logger σ (List (Msg P))) (w : World σ P) :
    (endOfProcessing (tracedLog log) w m id = .panic ∧ ¬ LogAccepts log) ∨
    ∃ w' m', endOfProcessing (tracedLog log) w m id = .ok (w', m') ∧ Idle k m' ∧ m'.cap = m.cap ∧
      m'.currentClId = m.currentClId ∧
      w'.trace = w.trace ++ (if log.isSome then [.logged ⟨id, .beingSerialized, msgs⟩] else []) := by
  have hact : m.LiveActive := by
    intro c hc; rw [h.live] at hc; simp only [List.mem_singleton] at hc; subst hc; exact .inl rfl
  have hmk : (m.live.map (mark id)) = [⟨id, .doneProcessing, msgs⟩] := by
    rw [h.live]; simp [mark]
  have htw : (m.live.map (mark id)).takeWhile isDone = [⟨id, .doneProcessing, msgs⟩] := by
    rw [hmk]; rfl
  have hdw : (m.live.map (mark id)).dropWhile isDone = [] := by rw [hmk]; rfl
  rcases endOfProcessing_eq (tracedLog log) w h.inv h.dead hact id with ⟨h1, h2⟩ | h1
  · left
    refine ⟨h2, ?_⟩
    intro hacc
    rw [htw] at h1
    cases hlog : log with
    | none => rw [hlog] at h1; simp [logAll, tracedLog] at h1
    | some f =>
      obtain ⟨s', hs'⟩ := hacc f hlog w.st ⟨id, .beingSerialized, msgs⟩
      rw [hlog] at h1
      simp [logAll, tracedLog, hs'] at h1
  · right
    obtain ⟨w', m', h2, h3, h4, h5, _, h6, h7, h8, h9⟩ := h1
    rw [hdw] at h6
    have hlen : m'.length = 0 := by
      have := Manager.live_length h4
      rw [h6] at this; simpa using this.symm
    refine ⟨w', m', h3, ⟨?_, hlen, by rw [h7]; exact h.cap_pos, ?_, ?_⟩, h7, h8, ?_⟩
    · rw [h4.ins, hlen]; simp
    · have := h5; unfold Manager.DeadFree at this; rw [hlen] at this; exact this
    · intro c hc
      have : c.msgs ∈ m'.data.map CL.msgs := List.mem_map.2 ⟨c, hc, rfl⟩
      rw [h9] at this
      obtain ⟨c', hc', he⟩ := List.mem_map.1 this
      rw [← he]; exact h.shape c' hc'
    · rw [htw] at h2
      cases log with
      | none =>
        simp only [logAll, tracedLog, Option.map_none, Rs.ok.injEq] at h2
        subst h2; simp
      | some f =>
        simp only [logAll, tracedLog, Option.map_some] at h2
        cases hf : f w.st ⟨id, .beingSerialized, msgs⟩ with
        | panic => rw [hf] at h2; cases h2
        | ok s' =>
          rw [hf] at h2
          simp only [Rs.ok.injEq] at h2
          subst h2; simp [World.emit]

/-- The end of a list on a pool with one list in use. -/
theorem finish_pool (app : App σ P) {k : Nat} {id : UInt32} {msgs : List (Msg P)} {rt : Rt σ P}
    (h : Busy k id msgs rt.mgr) {rt' : Rt σ P} (hf : finishList app id msgs rt = .ok (rt', none)) :
    Idle k rt'.mgr ∧ rt'.mgr.cap = rt.mgr.cap ∧ rt'.mgr.currentClId = rt.mgr.currentClId ∧
      ∃ c, rt'.w.trace = rt.w.trace ++ c ∧ createdIds c = [] ∧ lefts c = [] ∧
        (∃ md, collectMetadata app.plan msgs = .ok md ∧ shownMetadata c = [md]) ∧
        loggedLists c = if app.env.log.isSome then [⟨id, .beingSerialized, msgs⟩] else [] := by
  unfold finishList at hf
  split at hf
  · cases hf
  · rename_i md hmd
    simp only at hf
    split at hf
    · simp at hf
    · rename_i hmon
      rcases busy_finish h app.env.log (rt.w.emit (app.env.monCL md rt.w.st).1
        (.monitored md (app.env.monCL md rt.w.st).2)) with ⟨h1, _⟩ | ⟨w', m', h1, h2, h3, h4, h5⟩
      · rw [h1] at hf; cases hf
      · rw [h1] at hf
        simp only [Rs.ok.injEq, Prod.mk.injEq, and_true] at hf
        subst hf
        refine ⟨h2, h3, h4, [.monitored md (app.env.monCL md rt.w.st).2] ++
          (if app.env.log.isSome then [.logged ⟨id, .beingSerialized, msgs⟩] else []),
          by simp only; rw [h5]; simp only [World.emit, List.append_assoc], ?_⟩
        cases app.env.log with
        | none => simp [createdIds, loggedLists, lefts, shownMetadata, hmd]
        | some f => simp [createdIds, loggedLists, lefts, shownMetadata, hmd]

/-- A complete iteration that returns `Ok`. -/
theorem iteration_pool (app : App σ P) (rt : Rt σ P) {k : Nat} (hi : Idle k rt.mgr)
    {rt' : Rt σ P} (h : runOneIteration app rt = .ok (rt', none)) :
    Idle k rt'.mgr ∧ rt'.mgr.cap = rt.mgr.cap ∧
    ∃ t, rt'.w.trace = rt.w.trace ++ t ∧
      ((rt'.mgr.currentClId = rt.mgr.currentClId ∧ createdIds t = [] ∧ loggedLists t = [] ∧
          shownMetadata t = [] ∧ ∃ ev ∈ t, ev.stops = true) ∨
       (rt'.mgr.currentClId = rt.mgr.currentClId + 1 ∧ createdIds t = [rt.mgr.currentClId] ∧
        ∃ msgs, msgs.length = k ∧
          (∃ md, collectMetadata app.plan msgs = .ok md ∧ shownMetadata t = [md]) ∧
          loggedLists t = (if app.env.log.isSome then
            [⟨rt.mgr.currentClId, .beingSerialized, msgs⟩] else []) ∧
          (Wired app.plan → k = app.plan.length →
            (∀ (j : Nat) (x : Nat × Msg P), (lefts t)[j]? = some x → msgs[j]? = some x.2) ∧
            ((∀ ev ∈ t, ev.stops = false) → msgs = (lefts t).map Prod.snd)))) := by
  obtain ⟨c, hc1, hc2⟩ := lifeAll_trace app.env .preprocess (List.range app.tasks) rt.w
  unfold runOneIteration at h
  generalize lifeAll app.env .preprocess (List.range app.tasks) rt.w = q at h hc1 hc2
  obtain ⟨w1, f⟩ := q
  cases f with
  | abort =>
    simp only [Rs.ok.injEq, Prod.mk.injEq, and_true] at h
    subst h
    have hq := quiet_of_task hc2.ofTask
    refine ⟨hi, rfl, c, hc1, .inl ⟨rfl, hq.2.1, hq.1, hq.2.2, ?_⟩⟩
    have := mt hc2.stops.1
    simp only at this
    have h2 := this (by simp)
    simpa using h2
  | shutdown e => simp at h
  | next =>
    simp only at h hc1
    by_cases hid : rt.mgr.currentClId ≠ 0xFFFFFFFF ∨ app.overflow = .wrapping
    case neg =>
      exfalso
      have hid' : rt.mgr.currentClId = 0xFFFFFFFF ∧ app.overflow = .checked := by
        refine ⟨Classical.byContradiction (fun h => hid (.inl h)), ?_⟩
        cases ho : app.overflow with
        | checked => rfl
        | wrapping => exact absurd (.inr ho) hid
      have hpan : rt.mgr.create app.overflow = .panic ∨
          ∃ m, rt.mgr.create app.overflow = .ok (m, none) := by
        unfold Manager.create
        split
        · exact .inr ⟨_, rfl⟩
        · split
          · exact .inl rfl
          · first
              | exact .inl rfl
              | exact .inl (if_pos hid')
              | (rename_i hne; exact absurd hid' hne)
      rcases hpan with hp | ⟨m, hp⟩
      · rw [hp] at h; cases h
      · rw [hp] at h; cases h
    obtain ⟨m1, cl, hcr, hcl, hclid, hcll, hwr⟩ := idle_create hi hid
    rw [hcr] at h
    simp only [hcl] at h
    split at h
    · cases h
    · rename_i w2 msgs flow hpl
      obtain ⟨c2, hp1, hp2⟩ := planLoop_trace _ _ _ _ hpl
      have hml : msgs.length = k := by rw [hp2.length, hcll]
      obtain ⟨hb, hcap, hnid⟩ := hwr msgs hml
      have hp1' : w2.trace = rt.w.trace ++ (c ++ [.created cl.id] ++ c2) := by
        rw [hp1]; simp [World.emit, hc1]
      have hqc := quiet_of_task hc2.ofTask
      have hqc2 := quiet_of_task hp2.ofTask
      have hflow : Wired app.plan → k = app.plan.length →
          (∀ (j : Nat) (x : Nat × Msg P), (lefts c2)[j]? = some x → msgs[j]? = some x.2) ∧
          (flow = .next → msgs = (lefts c2).map Prod.snd) := by
        intro hw hk
        have hfl := hp2.flow hw 0 [] (by simp) (by simp) (by simp) (by simp)
        refine ⟨by simpa using hfl.slots, ?_⟩
        intro hfn
        have h1 := hfl.full hfn
        simp only [List.nil_append] at h1
        have h2 : (lefts c2).length = msgs.length := by
          have := congrArg List.length h1
          simp only [List.length_map] at this
          omega
        apply List.ext_getElem?
        intro j
        rw [List.getElem?_map]
        by_cases hj : j < (lefts c2).length
        · rw [List.getElem?_eq_getElem hj]
          exact hfl.slots j _ (by simp [hj])
        · rw [List.getElem?_eq_none (by omega), List.getElem?_eq_none (by omega)]; rfl
      -- the part after the process steps
      have concl : ∀ (rt1 : Rt σ P) (c4 : List (Ev P)), createdIds c4 = [] → loggedLists c4 = [] →
          shownMetadata c4 = [] → lefts c4 = [] →
          finishList app cl.id msgs ⟨w2, m1.write 0 (fun c => { c with state := .processing, msgs := msgs })⟩
            = .ok (rt1, none) →
          (flow ≠ .next → ∃ ev ∈ c2, ev.stops = true) →
          Idle k rt1.mgr ∧ rt1.mgr.cap = rt.mgr.cap ∧
          ∃ t, rt1.w.trace ++ c4 = rt.w.trace ++ t ∧
            (rt1.mgr.currentClId = rt.mgr.currentClId + 1 ∧ createdIds t = [rt.mgr.currentClId] ∧
            ∃ msgs, msgs.length = k ∧
              (∃ md, collectMetadata app.plan msgs = .ok md ∧ shownMetadata t = [md]) ∧
              loggedLists t = (if app.env.log.isSome then
                [⟨rt.mgr.currentClId, .beingSerialized, msgs⟩] else []) ∧
              (Wired app.plan → k = app.plan.length →
                (∀ (j : Nat) (x : Nat × Msg P), (lefts t)[j]? = some x → msgs[j]? = some x.2) ∧
                ((∀ ev ∈ t, ev.stops = false) → msgs = (lefts t).map Prod.snd))) := by
        intro rt1 c4 h41 h42 h44 h43 hfin hst
        rw [hclid] at hfin
        obtain ⟨h1, h2, h3, c3, h4, h5, h6, ⟨md, hmd1, hmd2⟩, h7⟩ := finish_pool app hb hfin
        have hl1 : lefts [Ev.created (P := P) cl.id] = [] := rfl
        have hl2 : loggedLists [Ev.created (P := P) cl.id] = [] := rfl
        have hlt : lefts (c ++ [.created cl.id] ++ c2 ++ c3 ++ c4) = lefts c2 := by
          simp only [lefts_append, hc2.lefts_nil, hl1, h6, h43]; simp
        refine ⟨h1, by rw [h2, hcap], c ++ [.created cl.id] ++ c2 ++ c3 ++ c4, ?_, ?_, ?_, msgs, hml,
          ⟨md, hmd1, ?_⟩, ?_, ?_⟩
        · rw [h4]; simp only; rw [hp1']; simp
        · rw [h3, hnid]
        · simp only [createdIds_append, hqc.2.1, hqc2.2.1, h5, h41, hclid]; rfl
        · simp only [shownMetadata_append, hqc.2.2, hqc2.2.2, hmd2, h44]; rfl
        · simp only [loggedLists_append, hqc.1, hqc2.1, hl2, h7, h42]; simp
        · intro hw hk
          rw [hlt]
          refine ⟨(hflow hw hk).1, ?_⟩
          intro hns
          refine (hflow hw hk).2 ?_
          by_cases hfn : flow = .next
          · exact hfn
          · obtain ⟨ev, hev, hs⟩ := hst hfn
            have := hns ev (by simp [hev])
            rw [this] at hs; cases hs
      have hstop : flow ≠ .next → ∃ ev ∈ c2, ev.stops = true := by
        intro hfn
        have := mt hp2.stops.1 hfn
        simpa using this
      cases flow with
      | shutdown e => simp at h
      | abort =>
        simp only at h
        obtain ⟨h1, h2, t, h3, h4⟩ := concl rt' [] rfl rfl rfl rfl h hstop
        exact ⟨h1, h2, t, by simpa using h3, .inr h4⟩
      | next =>
        simp only at h
        split at h
        · cases h
        · split at h
          · cases h
          · split at h
            · cases h
            · simp at h
            · rename_i rt1 hfin
              obtain ⟨c4, hl1, hl2⟩ := lifeAll_trace app.env .postprocess (List.range app.tasks) rt1.w
              generalize lifeAll app.env .postprocess (List.range app.tasks) rt1.w = q at h hl1 hl2
              obtain ⟨w4, f⟩ := q
              have hq4 := quiet_of_task hl2.ofTask
              obtain ⟨h1, h2, t, h3, h4⟩ := concl rt1 c4 hq4.2.1 hq4.1 hq4.2.2 hl2.lefts_nil hfin hstop
              simp only at hl1
              cases f with
              | shutdown e => simp at h
              | abort =>
                simp only [Rs.ok.injEq, Prod.mk.injEq, and_true] at h
                subst h
                exact ⟨h1, h2, t, by rw [← h3]; exact hl1, .inr h4⟩
              | next =>
                simp only [Rs.ok.injEq, Prod.mk.injEq, and_true] at h
                subst h
                exact ⟨h1, h2, t, by rw [← h3]; exact hl1, .inr h4⟩

end Runtime
end Verif
