import Verif.Proofs.RuntimeFlow
/-! Processing times (C22). -/
namespace Verif
namespace Runtime
open Planner CopperList Clock
variable {σ P : Type}

theorem InOrder.mono {lo lo' hi hi' : Nat} {ms : List (Msg P)} (h : InOrder lo ms hi) (h1 : lo' ≤ lo)
    (h2 : hi ≤ hi') : InOrder lo' ms hi' := by
  induction ms generalizing lo lo' with
  | nil => unfold InOrder at *; omega
  | cons m ms ih =>
    obtain ⟨s, e, h3, h4, h5, h6, h7⟩ := h
    exact ⟨s, e, h3, h4, by omega, h6, ih h7 (Nat.le_refl _)⟩

theorem InOrder.append {lo mid hi : Nat} {a b : List (Msg P)} (h : InOrder lo a mid)
    (h2 : InOrder mid b hi) : InOrder lo (a ++ b) hi := by
  induction a generalizing lo with
  | nil => exact h2.mono h (Nat.le_refl _)
  | cons m ms ih =>
    obtain ⟨s, e, h3, h4, h5, h6, h7⟩ := h
    exact ⟨s, e, h3, h4, h5, h6, ih h7⟩

/-- `v` extends `w`, with messages in order of time. -/
def Timed (T : σ → Nat) (w v : World σ P) : Prop :=
  ∃ c, v.trace = w.trace ++ c ∧ InOrder (T w.st) ((lefts c).map Prod.snd) (T v.st)

variable {T : σ → Nat}

theorem Timed.refl (w : World σ P) : Timed T w w := ⟨[], by simp, Nat.le_refl _⟩

theorem Timed.trans {w v u : World σ P} (h : Timed T w v) (h2 : Timed T v u) : Timed T w u := by
  obtain ⟨c, h3, h4⟩ := h
  obtain ⟨d, h5, h6⟩ := h2
  exact ⟨c ++ d, by rw [h5, h3]; simp, by rw [lefts_append, List.map_append]; exact h4.append h6⟩

theorem Timed.silent {w v : World σ P} {c : List (Ev P)} (h : v.trace = w.trace ++ c)
    (hc : lefts c = []) (ht : T w.st ≤ T v.st) : Timed T w v :=
  ⟨c, h, by rw [hc]; exact ht⟩

theorem Timed.emit (w : World σ P) {s : σ} {e : Ev P} (he : lefts [e] = []) (hs : T w.st ≤ T s) :
    Timed T w (w.emit s e) := .silent (c := [e]) rfl he hs

theorem Timed.tick (w : World σ P) {s : σ} (hs : T w.st ≤ T s) : Timed T w { w with st := s } :=
  .silent (c := []) (by simp) rfl hs

variable {env : Env σ P} (hc : MonotoneClock env T)
include hc

theorem react_timed (ph : Phase) (tid : Nat) (e : Err) (w : World σ P) :
    Timed T w (react env ph tid e w).1 := .emit w rfl (hc.onError ph tid e w.st)

theorem lifeCall_timed (ph : Phase) (tid : Nat) (w : World σ P) :
    Timed T w (lifeCall env ph tid w).1 := by
  have h1 : ∀ r, Timed T w (w.emit (env.life ph tid w.st).1 (.called ph tid [] r)) :=
    fun r => .emit w rfl (hc.life ph tid w.st)
  unfold lifeCall
  simp only
  cases hr : (env.life ph tid w.st).2 with
  | none => exact h1 none
  | some e => exact (h1 (some e)).trans (react_timed hc ph tid e _)

theorem lifeStep_timed (ph : Phase) (tid : Nat) (w : World σ P) :
    Timed T w (lifeStep env ph tid w).1 := by
  unfold lifeStep
  cases hs : env.sim with
  | none => exact lifeCall_timed hc ph tid w
  | some sim =>
    have h1 : ∀ o, Timed T w (w.emit (sim.life ph tid w.st).1 (.asked ph tid [] o)) :=
      fun o => .emit w rfl (hc.simLife sim hs ph tid w.st)
    simp only
    cases hr : (sim.life ph tid w.st).2 with
    | executedBySim => exact h1 _
    | errored e => exact (h1 _).trans (react_timed hc ph tid e _)
    | executeByRuntime => exact (h1 _).trans (lifeCall_timed hc ph tid _)

theorem lifeAll_timed (ph : Phase) (ts : List Nat) (w : World σ P) :
    Timed T w (lifeAll env ph ts w).1 := by
  induction ts generalizing w with
  | nil => exact .refl w
  | cons t ts ih =>
    have h1 := lifeStep_timed hc ph t w
    unfold lifeAll
    generalize lifeStep env ph t w = r at h1
    obtain ⟨w1, f⟩ := r
    cases f with
    | next => exact h1.trans (ih w1)
    | abort => exact h1
    | shutdown e => exact h1

variable (hk : KeepsStart env)
include hk

omit hc hk in
theorem toOption_ofTime {t : CuTime} (h : t.ns ≠ NONE_VALUE) : (OptionCuTime.ofTime t).toOption = some t := by
  unfold OptionCuTime.toOption OptionCuTime.ofTime OptionCuTime.ofOption
  exact if_neg h

theorem execProcess_timed (step : Step) (ins : List (Msg P)) (out : Msg P) (doit : Bool)
    (w : World σ P) : Timed T w (execProcess env step ins out doit w).1 := by
  obtain ⟨hn1, hn2, hn3⟩ := hc.now w.st
  have hcall : T (env.now w.st).1 ≤
      T (callProcess env step ins (out.setStart (env.now w.st).2) (env.now w.st).1).1 ∧
      (callProcess env step ins (out.setStart (env.now w.st).2) (env.now w.st).1).2.1.md.processTime.start
        = .ofTime (env.now w.st).2 := by
    unfold callProcess
    cases step.taskType with
    | source => exact ⟨hc.source _ _ _, by rw [hk.source]; rfl⟩
    | regular => exact ⟨hc.regular _ _ _ _, by rw [hk.regular]; rfl⟩
    | sink => exact ⟨hc.sink _ _ _, rfl⟩
  -- state and message after the (possible) call
  have key : ∀ (s : σ) (m : Msg P) (r : Option Err) (tr : List (Ev P)) (c : List (Ev P)),
      T (env.now w.st).1 ≤ T s → m.md.processTime.start = .ofTime (env.now w.st).2 →
      tr = w.trace ++ c → lefts c = [] →
      Timed T w (match r with
        | none => ((⟨(env.now s).1, tr⟩ : World σ P).emit (env.now s).1
            (.left step.nodeId (m.setStop (env.now s).2)), m.setStop (env.now s).2, Flow.next)
        | some e =>
          match react env .process step.nodeId e ⟨(env.now s).1, tr⟩ with
          | (w, .next) => (w.emit w.st (.left step.nodeId (m.setStop (env.now s).2).clearPayload),
              (m.setStop (env.now s).2).clearPayload, .next)
          | (w, f) => (w, m.setStop (env.now s).2, f)).1 := by
    intro s m r tr c hs hm htr hlc
    obtain ⟨hm1, hm2, hm3⟩ := hc.now s
    have hord : ∀ (hi : Nat) (m' : Msg P), m'.md.processTime = (m.setStop (env.now s).2).md.processTime →
        T (env.now s).1 ≤ hi → InOrder (T w.st) [m'] hi := by
      intro hi m' hm' hhi
      refine ⟨(env.now w.st).2, (env.now s).2, ?_, ?_, hn1, by omega, ?_⟩
      · rw [hm']
        show m.md.processTime.start.toOption = _
        rw [hm]; exact toOption_ofTime hn3
      · rw [hm']; exact toOption_ofTime hm3
      · unfold InOrder; omega
    cases r with
    | none =>
      refine ⟨c ++ [.left step.nodeId (m.setStop (env.now s).2)], by simp [World.emit, htr], ?_⟩
      rw [lefts_append, hlc]
      exact hord _ _ rfl (Nat.le_refl _)
    | some e =>
      obtain ⟨d, h1, _⟩ := react_eq env .process step.nodeId e (⟨(env.now s).1, tr⟩ : World σ P)
      have h2 := hc.onError .process step.nodeId e (env.now s).1
      have h3 : T (env.now s).1 ≤ T (react env .process step.nodeId e ⟨(env.now s).1, tr⟩).1.st := h2
      simp only
      generalize react env .process step.nodeId e ⟨(env.now s).1, tr⟩ = q at h1 h3
      obtain ⟨w2, f⟩ := q
      simp only at h1 h3
      cases f with
      | next =>
        refine ⟨c ++ [.decided .process step.nodeId e d] ++
          [.left step.nodeId (m.setStop (env.now s).2).clearPayload], by simp [World.emit, h1, htr], ?_⟩
        rw [lefts_append, lefts_append, hlc]
        exact hord _ _ rfl h3
      | abort =>
        refine .silent (c := c ++ [.decided .process step.nodeId e d]) (by simp [h1, htr]) ?_ ?_
        · rw [lefts_append, hlc]; rfl
        · simp only; omega
      | shutdown e' =>
        refine .silent (c := c ++ [.decided .process step.nodeId e d]) (by simp [h1, htr]) ?_ ?_
        · rw [lefts_append, hlc]; rfl
        · simp only; omega
  unfold execProcess
  cases doit with
  | true =>
    exact key _ _ _ _ [_] hcall.1 hcall.2 rfl rfl
  | false =>
    exact key (env.now w.st).1 (out.setStart (env.now w.st).2) none w.trace [] (Nat.le_refl _) rfl
      (by simp) rfl

theorem processStep_timed (step : Step) (ins : List (Msg P)) (out : Msg P) (w : World σ P) :
    Timed T w (processStep env step ins out w).1 := by
  unfold processStep
  cases hs : env.sim with
  | none => exact execProcess_timed hc hk step ins out true w
  | some sim =>
    simp only
    have h1 : ∀ o, Timed T w (w.emit (sim.process step.nodeId ins out w.st).1
        (.asked .process step.nodeId ins o)) := fun o => .emit w rfl (hc.simProcess sim hs _ _ _ w.st)
    generalize sim.process step.nodeId ins out w.st = r at h1
    obtain ⟨s1, out1, ovr⟩ := r
    cases ovr with
    | executedBySim => exact (h1 _).trans (execProcess_timed hc hk _ _ _ _ _)
    | executeByRuntime => exact (h1 _).trans (execProcess_timed hc hk _ _ _ _ _)
    | errored e =>
      have h2 := react_timed hc .process step.nodeId e
        (w.emit s1 (.asked .process step.nodeId ins (.errored e)))
      simp only
      generalize react env .process step.nodeId e _ = q at h2
      obtain ⟨w2, f⟩ := q
      cases f with
      | next => exact ((h1 _).trans h2).trans (execProcess_timed hc hk _ _ _ _ _)
      | abort => exact (h1 _).trans h2
      | shutdown e => exact (h1 _).trans h2

theorem planLoop_timed (steps : List Step) (w : World σ P) (msgs : List (Msg P))
    {w' : World σ P} {msgs' : List (Msg P)} {f : Flow}
    (h : planLoop env steps w msgs = .ok (w', msgs', f)) : Timed T w w' := by
  induction steps generalizing w msgs with
  | nil =>
    simp only [planLoop, Rs.ok.injEq, Prod.mk.injEq] at h
    obtain ⟨rfl, rfl, rfl⟩ := h
    exact .refl _
  | cons step steps ih =>
    unfold planLoop at h
    split at h
    · cases h
    · split at h
      · rename_i ins out _ _
        have h1 := processStep_timed hc hk step ins out w
        generalize processStep env step ins out w = r at h h1
        obtain ⟨w1, out1, f1⟩ := r
        cases f1 with
        | next => exact h1.trans (ih w1 _ h)
        | abort =>
          simp only [Rs.ok.injEq, Prod.mk.injEq] at h
          obtain ⟨rfl, rfl, rfl⟩ := h
          exact h1
        | shutdown e =>
          simp only [Rs.ok.injEq, Prod.mk.injEq] at h
          obtain ⟨rfl, rfl, rfl⟩ := h
          exact h1
      · cases h

omit hk in
theorem eopLoop_time (id : UInt32) (w : World σ P) (top : Bool)
    (nb : Nat) (l : List (CL (List (Msg P)))) {w' : World σ P} {nb' : Nat}
    {l' : List (CL (List (Msg P)))}
    (h : eopLoop (tracedLog env.log) id w top nb l = .ok (w', nb', l')) : T w.st ≤ T w'.st := by
  induction l generalizing w top nb nb' l' with
  | nil =>
    simp only [eopLoop, Rs.ok.injEq, Prod.mk.injEq] at h
    obtain ⟨rfl, _, _⟩ := h
    exact Nat.le_refl _
  | cons x l ih =>
    unfold eopLoop at h
    cases hv : eopVisit (tracedLog env.log) id w top nb x with
    | panic => rw [hv] at h; cases h
    | ok r =>
      obtain ⟨w1, top1, nb1, x1⟩ := r
      rw [hv] at h
      simp only at h
      cases hl : eopLoop (tracedLog env.log) id w1 top1 nb1 l with
      | panic => rw [hl] at h; cases h
      | ok r =>
        obtain ⟨w2, nb2, l2⟩ := r
        rw [hl] at h
        simp only [Rs.ok.injEq, Prod.mk.injEq] at h
        obtain ⟨rfl, _, _⟩ := h
        refine Nat.le_trans ?_ (ih w1 top1 nb1 hl)
        unfold eopVisit at hv
        simp only at hv
        generalize (if x.id = id ∧ x.state = CLState.processing then
          ({ x with state := .doneProcessing } : CL (List (Msg P))) else x) = y at hv
        by_cases hcnd : top = true ∧ y.state = .doneProcessing
        · rw [if_pos hcnd] at hv
          cases hlog : env.log with
          | none =>
            simp only [hlog, tracedLog, Option.map_none, Rs.ok.injEq, Prod.mk.injEq] at hv
            obtain ⟨rfl, _⟩ := hv
            exact Nat.le_refl _
          | some f0 =>
            simp only [hlog, tracedLog, Option.map_some] at hv
            cases hf : f0 w.st { y with state := .beingSerialized } with
            | panic => rw [hf] at hv; cases hv
            | ok s' =>
              rw [hf] at hv
              simp only [Rs.ok.injEq, Prod.mk.injEq] at hv
              obtain ⟨rfl, _⟩ := hv
              exact hc.log f0 hlog _ _ _ hf
        · rw [if_neg hcnd] at hv
          simp only [Rs.ok.injEq, Prod.mk.injEq] at hv
          obtain ⟨rfl, _⟩ := hv
          exact Nat.le_refl _

omit hk in
theorem finishList_timed {app : App σ P} (happ : app.env = env) (id : UInt32) (msgs : List (Msg P))
    (rt : Rt σ P) {rt' : Rt σ P} {r : Option Err} (h : finishList app id msgs rt = .ok (rt', r)) :
    Timed T rt.w rt'.w := by
  obtain ⟨c, h1, h2⟩ := finishList_trace app id msgs rt h
  refine .silent h1 h2.lefts_nil ?_
  unfold finishList at h
  split at h
  · cases h
  · rename_i md _
    simp only at h
    have hm : T rt.w.st ≤ T (app.env.monCL md rt.w.st).1 := by rw [happ]; exact hc.monCL md rt.w.st
    split at h
    · simp only [Rs.ok.injEq, Prod.mk.injEq] at h
      obtain ⟨rfl, rfl⟩ := h
      exact hm
    · split at h
      · cases h
      · rename_i w1 m1 heop
        simp only [Rs.ok.injEq, Prod.mk.injEq] at h
        obtain ⟨rfl, rfl⟩ := h
        rw [happ] at heop hm
        refine Nat.le_trans hm ?_
        unfold endOfProcessing at heop
        split at heop
        · cases heop
        · split at heop
          · cases heop
          · rename_i hl
            simp only at heop
            split at heop
            · cases heop
            · simp only [Rs.ok.injEq, Prod.mk.injEq] at heop
              obtain ⟨rfl, _⟩ := heop
              exact eopLoop_time hc id _ true 0 _ hl

theorem iteration_timed {app : App σ P} (happ : app.env = env) (rt : Rt σ P) {rt' : Rt σ P}
    {r : Option Err} (h : runOneIteration app rt = .ok (rt', r)) : Timed T rt.w rt'.w := by
  unfold runOneIteration at h
  rw [happ] at h
  have h1 := lifeAll_timed hc .preprocess (List.range app.tasks) rt.w
  generalize lifeAll env .preprocess (List.range app.tasks) rt.w = q at h h1
  obtain ⟨w1, f⟩ := q
  cases f with
  | abort =>
    simp only [Rs.ok.injEq, Prod.mk.injEq] at h
    obtain ⟨rfl, rfl⟩ := h
    exact h1
  | shutdown e =>
    simp only [Rs.ok.injEq, Prod.mk.injEq] at h
    obtain ⟨rfl, rfl⟩ := h
    exact h1
  | next =>
    simp only at h
    split at h
    · cases h
    · cases h
    · split at h
      · cases h
      · rename_i cl _
        split at h
        · cases h
        · rename_i w2 msgs flow hpl
          have h2 : Timed T rt.w w2 := (h1.trans (.emit (e := .created cl.id) w1 rfl (Nat.le_refl _))).trans
            (planLoop_timed hc hk _ _ _ hpl)
          cases flow with
          | shutdown e =>
            simp only [Rs.ok.injEq, Prod.mk.injEq] at h
            obtain ⟨rfl, rfl⟩ := h
            exact h2
          | abort => exact h2.trans (finishList_timed hc happ _ _ _ h)
          | next =>
            simp only at h
            split at h
            · cases h
            · split at h
              · cases h
              · split at h
                · cases h
                · rename_i rt1 e hfin
                  have h3 := finishList_timed hc happ _ _ _ hfin
                  simp only [Rs.ok.injEq, Prod.mk.injEq] at h
                  obtain ⟨rfl, rfl⟩ := h
                  exact h2.trans h3
                · rename_i rt1 hfin
                  have h3 := finishList_timed hc happ _ _ _ hfin
                  have h4 := lifeAll_timed hc .postprocess (List.range app.tasks) rt1.w
                  generalize lifeAll env .postprocess (List.range app.tasks) rt1.w = q at h h4
                  obtain ⟨w4, f⟩ := q
                  cases f <;>
                  · simp only [Rs.ok.injEq, Prod.mk.injEq] at h
                    obtain ⟨rfl, rfl⟩ := h
                    exact (h2.trans h3).trans h4

omit hk in
theorem startAll_timed {app : App σ P} (happ : app.env = env) (rt : Rt σ P) :
    Timed T rt.w (startAll app rt).1.w := by
  unfold startAll
  rw [happ]
  have h1 := lifeAll_timed hc .start (List.range app.tasks) rt.w
  generalize lifeAll env .start (List.range app.tasks) rt.w = q at h1
  obtain ⟨w1, f⟩ := q
  cases f with
  | next => exact h1.trans (.emit w1 rfl (hc.monStart w1.st))
  | _ => exact h1

omit hk in
theorem stopAll_timed {app : App σ P} (happ : app.env = env) (rt : Rt σ P) :
    Timed T rt.w (stopAll app rt).1.w := by
  unfold stopAll
  rw [happ]
  have h1 := lifeAll_timed hc .stop (List.range app.tasks) rt.w
  generalize lifeAll env .stop (List.range app.tasks) rt.w = q at h1
  obtain ⟨w1, f⟩ := q
  cases f with
  | next => exact h1.trans (.emit w1 rfl (hc.monStop w1.st))
  | _ => exact h1

theorem runLoop_timed {app : App σ P} (happ : app.env = env) (n : Nat) (rt : Rt σ P) {rt' : Rt σ P}
    {r : Option Err} (h : runLoop app n rt = .ok (rt', r)) : Timed T rt.w rt'.w := by
  induction n generalizing rt with
  | zero =>
    simp only [runLoop, Rs.ok.injEq, Prod.mk.injEq] at h
    obtain ⟨rfl, rfl⟩ := h
    exact .refl _
  | succ n ih =>
    unfold runLoop at h
    split at h
    · cases h
    · rename_i hi
      simp only [Rs.ok.injEq, Prod.mk.injEq] at h
      obtain ⟨rfl, rfl⟩ := h
      exact iteration_timed hc hk happ _ hi
    · rename_i hi
      exact (iteration_timed hc hk happ _ hi).trans (ih _ h)

theorem run_timed {app : App σ P} (happ : app.env = env) (n : Nat) (rt : Rt σ P) {rt' : Rt σ P}
    {r : RunResult} (h : run app n rt = .ok (rt', r)) : Timed T rt.w rt'.w := by
  unfold run at h
  have h1 := startAll_timed hc happ rt
  generalize startAll app rt = q at h h1
  obtain ⟨rt1, r1⟩ := q
  cases r1 with
  | some e =>
    simp only [Rs.ok.injEq, Prod.mk.injEq] at h
    obtain ⟨rfl, rfl⟩ := h
    exact h1
  | none =>
    simp only at h
    split at h
    · cases h
    · rename_i hl
      simp only [Rs.ok.injEq, Prod.mk.injEq] at h
      obtain ⟨rfl, rfl⟩ := h
      exact h1.trans (runLoop_timed hc hk happ _ _ hl)
    · rename_i rt2 e hl
      have h2 := h1.trans (runLoop_timed hc hk happ _ _ hl)
      have h3 := stopAll_timed hc happ rt2
      generalize stopAll app rt2 = q at h h3
      obtain ⟨rt3, r3⟩ := q
      cases r3 <;>
      · simp only [Rs.ok.injEq, Prod.mk.injEq] at h
        obtain ⟨rfl, _⟩ := h
        exact h2.trans h3

end Runtime
end Verif
