import Verif.Spec.StandIn
/-! An application and its simulation by a callback that stands in for its tasks go through the same states. -/
namespace Verif
namespace Runtime
open Clock CopperList Planner
variable {σ P : Type}

/-- Results of two programs. -/
def RsRel {α β : Type} (R : α → β → Prop) : Rs α → Rs β → Prop
  | .ok a, .ok b => R a b
  | .panic, .panic => True
  | _, _ => False

section
variable {app : App σ P} {sim : Sim σ P} {f : Ev P → Bool}

/-- What the proofs need of the callback; `f` tells which events are compared. -/
structure Imitates (app : App σ P) (sim : Sim σ P) (f : Ev P → Bool) : Prop where
  none : app.env.sim = none
  asked : ∀ ph t ins r, f (.asked ph t ins r) = false
  life : ∀ ph t s, sim.life ph t s = (s, .executeByRuntime) ∨
    (f (.called ph t [] (app.env.life ph t s).2) = false ∧
      sim.life ph t s = ((app.env.life ph t s).1, answerOf (app.env.life ph t s).2))
  process : ∀ step ∈ app.plan, ∀ ins out s, sim.process step.nodeId ins out s = (s, out, .executeByRuntime) ∨
    let r := callProcess app.env step ins out s
    f (.called .process step.nodeId ins r.2.2) = false ∧ SimClock app ∧
      sim.process step.nodeId ins out s = (r.1, r.2.1, answerOf r.2.2) ∧
      ∀ e, r.2.2 = some e → (app.env.onError .process step.nodeId e r.1).2 = .ignore

/-- The same state, and the same events of those that are compared. -/
def Same (f : Ev P → Bool) (w w' : World σ P) : Prop := w.st = w'.st ∧ w.trace.filter f = w'.trace.filter f

theorem Same.emit {w w' : World σ P} (h : Same f w w') (s : σ) (ev : Ev P) : Same f (w.emit s ev) (w'.emit s ev) :=
  ⟨rfl, by simp only [World.emit, List.filter_append, h.2]⟩

theorem Same.skip {w w' : World σ P} (h : Same f w w') {ev : Ev P} (he : f ev = false) :
    Same f w (w'.emit w'.st ev) :=
  ⟨h.1, by simp [World.emit, List.filter_append, h.2, he]⟩

theorem Same.skip2 {w w' : World σ P} (h : Same f w w') {ev ev' : Ev P} (he : f ev = false) (he' : f ev' = false)
    (s : σ) : Same f (w.emit s ev) (w'.emit s ev') :=
  ⟨rfl, by simp [World.emit, List.filter_append, h.2, he, he']⟩

theorem Same.st {w w' : World σ P} (h : Same f w w') (s : σ) :
    Same f { w with st := s } { w' with st := s } := ⟨rfl, h.2⟩

theorem react_same {w w' : World σ P} (h : Same f w w') (ph : Phase) (t : Nat) (e : Err) :
    Same f (react app.env ph t e w).1 (react (app.simulated sim).env ph t e w').1 ∧
    (react app.env ph t e w).2 = (react (app.simulated sim).env ph t e w').2 := by
  unfold react App.simulated
  simp only [h.1]
  exact ⟨h.emit _ _, trivial⟩

theorem lifeCall_same {w w' : World σ P} (h : Same f w w') (ph : Phase) (t : Nat) :
    Same f (lifeCall app.env ph t w).1 (lifeCall (app.simulated sim).env ph t w').1 ∧
    (lifeCall app.env ph t w).2 = (lifeCall (app.simulated sim).env ph t w').2 := by
  unfold lifeCall
  have e : (app.simulated sim).env.life = app.env.life := rfl
  rw [e, ← h.1]
  simp only
  cases hr : (app.env.life ph t w.st).2 with
  | none => exact ⟨h.emit _ _, rfl⟩
  | some e => exact react_same (h.emit _ _) ph t e

theorem lifeStep_same (hi : Imitates app sim f) {w w' : World σ P} (h : Same f w w') (ph : Phase) (t : Nat) :
    Same f (lifeStep app.env ph t w).1 (lifeStep (app.simulated sim).env ph t w').1 ∧
    (lifeStep app.env ph t w).2 = (lifeStep (app.simulated sim).env ph t w').2 := by
  have e1 : lifeStep app.env ph t w = lifeCall app.env ph t w := by unfold lifeStep; rw [hi.none]
  have e2 : (app.simulated sim).env.sim = some sim := rfl
  rw [e1]
  unfold lifeStep
  rw [e2]
  simp only
  rcases hi.life ph t w'.st with hl | ⟨hc, hl⟩
  · rw [hl]
    exact lifeCall_same (h.skip (hi.asked _ _ _ _)) ph t
  · rw [hl]
    unfold lifeCall
    simp only
    rw [h.1]
    cases hr : (app.env.life ph t w'.st).2 with
    | none =>
      rw [hr] at hc
      exact ⟨h.skip2 hc (hi.asked _ _ _ _) _, rfl⟩
    | some e =>
      rw [hr] at hc
      exact react_same (h.skip2 hc (hi.asked _ _ _ _) _) ph t e

theorem lifeAll_same (hi : Imitates app sim f) (ph : Phase) (ts : List Nat) {w w' : World σ P} (h : Same f w w') :
    Same f (lifeAll app.env ph ts w).1 (lifeAll (app.simulated sim).env ph ts w').1 ∧
    (lifeAll app.env ph ts w).2 = (lifeAll (app.simulated sim).env ph ts w').2 := by
  induction ts generalizing w w' with
  | nil => exact ⟨h, rfl⟩
  | cons t ts ih =>
    obtain ⟨h1, h2⟩ := lifeStep_same hi h ph t
    unfold lifeAll
    generalize lifeStep app.env ph t w = r at h1 h2
    generalize lifeStep (app.simulated sim).env ph t w' = r' at h1 h2
    obtain ⟨w1, fl⟩ := r
    obtain ⟨w1', fl'⟩ := r'
    simp only at h1 h2
    subst h2
    cases fl with
    | next => exact ih h1
    | abort => exact ⟨h1, rfl⟩
    | shutdown e => exact ⟨h1, rfl⟩

/-- The end of a step that processes. -/
def stepEnd (env : Env σ P) (step : Step) (out : Msg P) (r : Option Err) (w : World σ P) : World σ P × Msg P × Flow :=
  match r with
  | none => (w.emit w.st (.left step.nodeId out), out, .next)
  | some e =>
    match react env .process step.nodeId e w with
    | (w, .next) => (w.emit w.st (.left step.nodeId out.clearPayload), out.clearPayload, .next)
    | (w, f) => (w, out, f)

theorem stepEnd_same {w w' : World σ P} (h : Same f w w') (step : Step) (out : Msg P) (r : Option Err) :
    Same f (stepEnd app.env step out r w).1 (stepEnd (app.simulated sim).env step out r w').1 ∧
    (stepEnd app.env step out r w).2 = (stepEnd (app.simulated sim).env step out r w').2 := by
  unfold stepEnd
  cases r with
  | none =>
    simp only [h.1]
    exact ⟨h.emit _ _, trivial⟩
  | some e =>
    obtain ⟨h1, h2⟩ := react_same (app := app) (sim := sim) h .process step.nodeId e
    simp only
    generalize react app.env .process step.nodeId e w = r at h1 h2
    generalize react (app.simulated sim).env .process step.nodeId e w' = r' at h1 h2
    obtain ⟨w1, fl⟩ := r
    obtain ⟨w1', fl'⟩ := r'
    simp only at h1 h2
    subst h2
    cases fl with
    | next =>
      simp only [h1.1]
      exact ⟨h1.emit _ _, trivial⟩
    | abort => exact ⟨h1, rfl⟩
    | shutdown e => exact ⟨h1, rfl⟩

theorem execProcess_called (env : Env σ P) (step : Step) (ins : List (Msg P)) (out : Msg P) (w : World σ P) :
    execProcess env step ins out true w =
      let t0 := env.now w.st
      let r := callProcess env step ins (out.setStart t0.2) t0.1
      let t1 := env.now r.1
      stepEnd env step (r.2.1.setStop t1.2) r.2.2
        { (World.emit { w with st := t0.1 } r.1 (.called .process step.nodeId ins r.2.2)) with st := t1.1 } := rfl

theorem execProcess_spared (env : Env σ P) (step : Step) (ins : List (Msg P)) (out : Msg P) (w : World σ P) :
    execProcess env step ins out false w =
      let t0 := env.now w.st
      let t1 := env.now t0.1
      stepEnd env step ((out.setStart t0.2).setStop t1.2) none { w with st := t1.1 } := rfl

theorem processStep_same (hi : Imitates app sim f) {step : Step} (hs : step ∈ app.plan) {w w' : World σ P}
    (h : Same f w w') (ins : List (Msg P)) (out : Msg P) :
    Same f (processStep app.env step ins out w).1 (processStep (app.simulated sim).env step ins out w').1 ∧
    (processStep app.env step ins out w).2 = (processStep (app.simulated sim).env step ins out w').2 := by
  have e1 : processStep app.env step ins out w = execProcess app.env step ins out true w := by
    unfold processStep; rw [hi.none]
  have e2 : (app.simulated sim).env.sim = some sim := rfl
  have en : (app.simulated sim).env.now = app.env.now := rfl
  have ec : callProcess (app.simulated sim).env = callProcess app.env := rfl
  rw [e1]
  unfold processStep
  rw [e2]
  simp only
  rcases hi.process step hs ins out w'.st with hp | ⟨hc, hk, hp, herr⟩
  · rw [hp]
    simp only
    have h1 := h.skip (hi.asked .process step.nodeId ins .executeByRuntime)
    rw [execProcess_called, execProcess_called]
    simp only [en, ec]
    rw [h1.1]
    exact stepEnd_same (((h1.st _).emit _ _).st _) step _ _
  · rw [hp]
    simp only
    rw [execProcess_called]
    simp only [hk.now, hk.start, h.1]
    generalize hr : callProcess app.env step ins out w'.st = r at hc herr
    obtain ⟨s1, m1, e⟩ := r
    have hT : (app.env.now s1).2 = (app.env.now w'.st).2 := by
      have := hk.call step ins out w'.st
      rw [hr] at this
      exact this
    simp only at hc herr ⊢
    rw [hT]
    have h1 : Same f (World.emit { w with st := w'.st } s1 (.called .process step.nodeId ins e))
        (w'.emit s1 (.asked .process step.nodeId ins (answerOf e))) := by
      refine Same.skip2 ?_ hc (hi.asked _ _ _ _) s1
      exact ⟨rfl, h.2⟩
    cases e with
    | none =>
      simp only [answerOf]
      rw [execProcess_spared]
      simp only [en, World.emit, hk.now, hT]
      exact stepEnd_same h1 step _ none
    | some e =>
      have hig := herr e rfl
      simp only [answerOf] at h1 ⊢
      have hre : ∀ (a : App σ P) (w0 : World σ P), a.env.onError = app.env.onError → w0.st = s1 →
          react a.env .process step.nodeId e w0 =
            (w0.emit (app.env.onError .process step.nodeId e s1).1 (.decided .process step.nodeId e .ignore), .next) := by
        intro a w0 ha h0
        unfold react
        simp only [ha, h0, hig]
      rw [hre (app.simulated sim) (w'.emit s1 _) rfl rfl]
      simp only
      rw [execProcess_spared]
      have hT' : (app.env.now (app.env.onError .process step.nodeId e s1).1).2 = (app.env.now w'.st).2 := by
        rw [hk.onError, hT]
      unfold stepEnd
      simp only
      rw [hre app _ rfl rfl]
      simp only [en, World.emit, hk.now, hT']
      exact ⟨(h1.emit (app.env.onError .process step.nodeId e s1).1 _).emit _ _, rfl⟩

theorem planLoop_same (hi : Imitates app sim f) {steps : List Step} (hs : ∀ s ∈ steps, s ∈ app.plan)
    {w w' : World σ P} (h : Same f w w') (msgs : List (Msg P)) :
    RsRel (fun a b => Same f a.1 b.1 ∧ a.2 = b.2) (planLoop app.env steps w msgs)
      (planLoop (app.simulated sim).env steps w' msgs) := by
  induction steps generalizing w w' msgs with
  | nil => exact ⟨h, rfl⟩
  | cons step steps ih =>
    unfold planLoop
    split
    · trivial
    · rename_i o ty ho
      split
      · rename_i ins out hins hout
        obtain ⟨h1, h2⟩ := processStep_same hi (hs step (by simp)) h ins out
        generalize processStep app.env step ins out w = r at h1 h2
        generalize processStep (app.simulated sim).env step ins out w' = r' at h1 h2
        obtain ⟨w1, o1, fl⟩ := r
        obtain ⟨w1', o1', fl'⟩ := r'
        simp only [Prod.mk.injEq] at h1 h2
        obtain ⟨rfl, rfl⟩ := h2
        cases fl with
        | next => exact ih (fun s hx => hs s (by simp [hx])) h1 _
        | abort => exact ⟨h1, rfl⟩
        | shutdown e => exact ⟨h1, rfl⟩
      · trivial

theorem eopLoop_same (id : UInt32) (l : List (CL (List (Msg P)))) {w w' : World σ P} (h : Same f w w') (top : Bool)
    (nb : Nat) : RsRel (fun a b => Same f a.1 b.1 ∧ a.2 = b.2) (eopLoop (tracedLog app.env.log) id w top nb l)
      (eopLoop (tracedLog app.env.log) id w' top nb l) := by
  have visit : ∀ {w w' : World σ P} (_ : Same f w w') (top : Bool) (nb : Nat) (c : CL (List (Msg P))),
      RsRel (fun a b => Same f a.1 b.1 ∧ a.2 = b.2) (eopVisit (tracedLog app.env.log) id w top nb c)
        (eopVisit (tracedLog app.env.log) id w' top nb c) := by
    intro w w' h top nb c
    unfold eopVisit
    generalize (if c.id = id ∧ c.state = .processing then { c with state := .doneProcessing } else c) = c0
    simp only
    split
    · cases hl : app.env.log with
      | none => exact ⟨h, rfl⟩
      | some g =>
        simp only [tracedLog, Option.map_some, h.1]
        cases hg : g w'.st { id := c0.id, state := .beingSerialized, msgs := c0.msgs } with
        | panic => trivial
        | ok s => exact ⟨h.emit _ _, rfl⟩
    · exact ⟨h, rfl⟩
  induction l generalizing w w' top nb with
  | nil => exact ⟨h, rfl⟩
  | cons c l ih =>
    have h1 := visit h top nb c
    unfold eopLoop
    generalize eopVisit (tracedLog app.env.log) id w top nb c = r at h1
    generalize eopVisit (tracedLog app.env.log) id w' top nb c = r' at h1
    rcases r with ⟨w1, top1, nb1, c1⟩ | _ <;> rcases r' with ⟨w1', top1', nb1', c1'⟩ | _
    · obtain ⟨h1, h2⟩ := h1
      simp only [Prod.mk.injEq] at h2
      obtain ⟨rfl, rfl, rfl⟩ := h2
      have h2 := ih h1 top1 nb1
      simp only
      generalize eopLoop (tracedLog app.env.log) id w1 top1 nb1 l = q at h2
      generalize eopLoop (tracedLog app.env.log) id w1' top1 nb1 l = q' at h2
      rcases q with ⟨w2, nb2, l2⟩ | _ <;> rcases q' with ⟨w2', nb2', l2'⟩ | _
      · obtain ⟨h2, h3⟩ := h2
        simp only [Prod.mk.injEq] at h3
        obtain ⟨rfl, rfl⟩ := h3
        exact ⟨h2, rfl⟩
      · exact h2.elim
      · exact h2.elim
      · trivial
    · exact h1.elim
    · exact h1.elim
    · trivial

/-- The same state, events, and lists. -/
def SameRt (f : Ev P → Bool) (rt rt' : Rt σ P) : Prop := Same f rt.w rt'.w ∧ rt.mgr = rt'.mgr

theorem finishList_same (id : UInt32) (msgs : List (Msg P)) {rt rt' : Rt σ P} (h : SameRt f rt rt') :
    RsRel (fun a b => SameRt f a.1 b.1 ∧ a.2 = b.2) (finishList app id msgs rt)
      (finishList (app.simulated sim) id msgs rt') := by
  obtain ⟨w, mgr⟩ := rt
  obtain ⟨w', mgr'⟩ := rt'
  obtain ⟨h, hm⟩ := h
  simp only at h hm
  subst hm
  unfold finishList
  have ep : (app.simulated sim).plan = app.plan := rfl
  have em : (app.simulated sim).env.monCL = app.env.monCL := rfl
  have el : (app.simulated sim).env.log = app.env.log := rfl
  rw [ep]
  cases hmd : collectMetadata app.plan msgs with
  | panic => trivial
  | ok md =>
    simp only [em, el]
    rw [h.1]
    cases hr : (app.env.monCL md w'.st).2 with
    | some e => exact ⟨⟨h.emit _ _, rfl⟩, rfl⟩
    | none =>
      simp only
      unfold endOfProcessing
      cases hv : mgr.iterMut with
      | panic => trivial
      | ok visited =>
        simp only
        have h2 := eopLoop_same (app := app) id visited
          (h.emit (app.env.monCL md w'.st).1 (.monitored md none)) true 0
        generalize eopLoop (tracedLog app.env.log) id (w.emit _ _) true 0 visited = q at h2 ⊢
        generalize eopLoop (tracedLog app.env.log) id (w'.emit _ _) true 0 visited = q' at h2 ⊢
        rcases q with ⟨w2, nb2, l2⟩ | _ <;> rcases q' with ⟨w2', nb2', l2'⟩ | _
        · obtain ⟨h2, h3⟩ := h2
          simp only [Prod.mk.injEq] at h3
          obtain ⟨rfl, rfl⟩ := h3
          simp only
          split
          · rename_i hq
            split at hq
            · simp only; trivial
            · cases hq
          · rename_i hq
            split at hq
            · cases hq
            · simp only
              cases hq
              exact ⟨⟨h2, rfl⟩, rfl⟩
        · exact h2.elim
        · exact h2.elim
        · trivial

theorem iteration_same (hi : Imitates app sim f) {rt rt' : Rt σ P} (h : SameRt f rt rt') :
    RsRel (fun a b => SameRt f a.1 b.1 ∧ a.2 = b.2) (runOneIteration app rt) (runOneIteration (app.simulated sim) rt') := by
  obtain ⟨w, mgr⟩ := rt
  obtain ⟨w', mgr'⟩ := rt'
  obtain ⟨h, hm⟩ := h
  simp only at h hm
  subst hm
  have ep : (app.simulated sim).plan = app.plan := rfl
  have et : (app.simulated sim).tasks = app.tasks := rfl
  have eo : (app.simulated sim).overflow = app.overflow := rfl
  unfold runOneIteration
  rw [ep, et, eo]
  obtain ⟨h1, h2⟩ := lifeAll_same hi .preprocess (List.range app.tasks) h
  simp only
  generalize lifeAll app.env .preprocess (List.range app.tasks) w = r at h1 h2
  generalize lifeAll (app.simulated sim).env .preprocess (List.range app.tasks) w' = r' at h1 h2
  obtain ⟨w1, fl⟩ := r
  obtain ⟨w1', fl'⟩ := r'
  simp only at h1 h2
  subst h2
  cases fl with
  | abort => exact ⟨⟨h1, rfl⟩, rfl⟩
  | shutdown e => exact ⟨⟨h1, rfl⟩, rfl⟩
  | next =>
    simp only
    cases hcr : mgr.create app.overflow with
    | panic => trivial
    | ok x =>
      obtain ⟨mgr1, _ | slot⟩ := x
      · trivial
      · simp only
        cases hcl : mgr1.data[slot]? with
        | none => trivial
        | some cl =>
          simp only
          rw [h1.1]
          have h3 := planLoop_same hi (fun s hs => hs) (h1.emit w1'.st (.created cl.id)) cl.msgs
          generalize planLoop app.env app.plan (w1.emit _ _) cl.msgs = q at h3
          generalize planLoop (app.simulated sim).env app.plan (w1'.emit _ _) cl.msgs = q' at h3
          rcases q with ⟨w2, msgs, fl⟩ | _ <;> rcases q' with ⟨w2', msgs', fl'⟩ | _
          · obtain ⟨h3, h4⟩ := h3
            simp only [Prod.mk.injEq] at h4
            obtain ⟨rfl, rfl⟩ := h4
            simp only at h3 ⊢
            cases fl with
            | shutdown e => exact ⟨⟨h3, rfl⟩, rfl⟩
            | abort => exact finishList_same _ _ ⟨h3, rfl⟩
            | next =>
              simp only
              cases hmd : collectMetadata app.plan msgs with
              | panic => trivial
              | ok md =>
                simp only
                cases hee : endToEnd app.overflow md with
                | panic => trivial
                | ok _ =>
                  simp only
                  have h5 := finishList_same (app := app) (sim := sim) (f := f) cl.id msgs
                    (rt := ⟨w2, mgr1.write slot (fun c => { c with state := .processing, msgs := msgs })⟩)
                    (rt' := ⟨w2', mgr1.write slot (fun c => { c with state := .processing, msgs := msgs })⟩) ⟨h3, rfl⟩
                  generalize finishList app cl.id msgs _ = q at h5
                  generalize finishList (app.simulated sim) cl.id msgs _ = q' at h5
                  rcases q with ⟨rt3, e3⟩ | _ <;> rcases q' with ⟨rt3', e3'⟩ | _
                  · obtain ⟨h5, h6⟩ := h5
                    simp only at h5 h6
                    subst h6
                    cases e3 with
                    | some e => exact ⟨h5, rfl⟩
                    | none =>
                      simp only
                      obtain ⟨h7, h8⟩ := lifeAll_same hi .postprocess (List.range app.tasks) h5.1
                      generalize lifeAll app.env .postprocess (List.range app.tasks) rt3.w = r at h7 h8
                      generalize lifeAll (app.simulated sim).env .postprocess (List.range app.tasks) rt3'.w = r' at h7 h8
                      obtain ⟨w4, fl⟩ := r
                      obtain ⟨w4', fl'⟩ := r'
                      simp only at h7 h8
                      subst h8
                      cases fl with
                      | shutdown e => exact ⟨⟨h7, h5.2⟩, rfl⟩
                      | abort => exact ⟨⟨h7, h5.2⟩, rfl⟩
                      | next => exact ⟨⟨h7, h5.2⟩, rfl⟩
                  · exact h5.elim
                  · exact h5.elim
                  · trivial
          · exact h3.elim
          · exact h3.elim
          · trivial

theorem start_same (hi : Imitates app sim f) {rt rt' : Rt σ P} (h : SameRt f rt rt') :
    SameRt f (startAll app rt).1 (startAll (app.simulated sim) rt').1 ∧
    (startAll app rt).2 = (startAll (app.simulated sim) rt').2 := by
  unfold startAll
  have et : (app.simulated sim).tasks = app.tasks := rfl
  have em : (app.simulated sim).env.monStart = app.env.monStart := rfl
  rw [et, em]
  obtain ⟨h1, h2⟩ := lifeAll_same hi .start (List.range app.tasks) h.1
  generalize lifeAll app.env .start (List.range app.tasks) rt.w = r at h1 h2
  generalize lifeAll (app.simulated sim).env .start (List.range app.tasks) rt'.w = r' at h1 h2
  obtain ⟨w1, fl⟩ := r
  obtain ⟨w1', fl'⟩ := r'
  simp only at h1 h2
  subst h2
  cases fl with
  | abort => exact ⟨⟨h1, h.2⟩, rfl⟩
  | shutdown e => exact ⟨⟨h1, h.2⟩, rfl⟩
  | next =>
    simp only [h1.1]
    exact ⟨⟨h1.emit _ _, h.2⟩, trivial⟩

theorem stop_same (hi : Imitates app sim f) {rt rt' : Rt σ P} (h : SameRt f rt rt') :
    SameRt f (stopAll app rt).1 (stopAll (app.simulated sim) rt').1 ∧
    (stopAll app rt).2 = (stopAll (app.simulated sim) rt').2 := by
  unfold stopAll
  have et : (app.simulated sim).tasks = app.tasks := rfl
  have em : (app.simulated sim).env.monStop = app.env.monStop := rfl
  rw [et, em]
  obtain ⟨h1, h2⟩ := lifeAll_same hi .stop (List.range app.tasks) h.1
  generalize lifeAll app.env .stop (List.range app.tasks) rt.w = r at h1 h2
  generalize lifeAll (app.simulated sim).env .stop (List.range app.tasks) rt'.w = r' at h1 h2
  obtain ⟨w1, fl⟩ := r
  obtain ⟨w1', fl'⟩ := r'
  simp only at h1 h2
  subst h2
  cases fl with
  | abort => exact ⟨⟨h1, h.2⟩, rfl⟩
  | shutdown e => exact ⟨⟨h1, h.2⟩, rfl⟩
  | next =>
    simp only [h1.1]
    exact ⟨⟨h1.emit _ _, h.2⟩, trivial⟩

theorem runLoop_same (hi : Imitates app sim f) (n : Nat) {rt rt' : Rt σ P} (h : SameRt f rt rt') :
    RsRel (fun a b => SameRt f a.1 b.1 ∧ a.2 = b.2) (runLoop app n rt) (runLoop (app.simulated sim) n rt') := by
  induction n generalizing rt rt' with
  | zero => exact ⟨h, rfl⟩
  | succ n ih =>
    have h1 := iteration_same hi h
    unfold runLoop
    generalize runOneIteration app rt = q at h1
    generalize runOneIteration (app.simulated sim) rt' = q' at h1
    rcases q with ⟨rt1, e⟩ | _ <;> rcases q' with ⟨rt1', e'⟩ | _
    · obtain ⟨h1, h2⟩ := h1
      simp only at h1 h2
      subst h2
      cases e with
      | none => exact ih h1
      | some e => exact ⟨h1, rfl⟩
    · exact h1.elim
    · exact h1.elim
    · trivial

theorem run_same (hi : Imitates app sim f) (n : Nat) {rt rt' : Rt σ P} (h : SameRt f rt rt') :
    RsRel (fun a b => SameRt f a.1 b.1 ∧ a.2 = b.2) (run app n rt) (run (app.simulated sim) n rt') := by
  obtain ⟨h1, h2⟩ := start_same hi h
  unfold run
  generalize startAll app rt = r at h1 h2
  generalize startAll (app.simulated sim) rt' = r' at h1 h2
  obtain ⟨rt1, e⟩ := r
  obtain ⟨rt1', e'⟩ := r'
  simp only at h1 h2
  subst h2
  cases e with
  | some e => exact ⟨h1, rfl⟩
  | none =>
    simp only
    have h3 := runLoop_same hi n h1
    generalize runLoop app n rt1 = q at h3
    generalize runLoop (app.simulated sim) n rt1' = q' at h3
    rcases q with ⟨rt2, e⟩ | _ <;> rcases q' with ⟨rt2', e'⟩ | _
    · obtain ⟨h3, h4⟩ := h3
      simp only at h3 h4
      subst h4
      cases e with
      | none => exact ⟨h3, rfl⟩
      | some e =>
        simp only
        obtain ⟨h5, h6⟩ := stop_same hi h3
        generalize stopAll app rt2 = r at h5 h6
        generalize stopAll (app.simulated sim) rt2' = r' at h5 h6
        obtain ⟨rt3, e3⟩ := r
        obtain ⟨rt3', e3'⟩ := r'
        simp only at h5 h6
        subst h6
        cases e3 <;> exact ⟨h5, rfl⟩
    · exact h3.elim
    · exact h3.elim
    · trivial

end
end Runtime
end Verif
