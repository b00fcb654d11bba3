import Verif.Proofs.Wire
import Verif.Proofs.RuntimePool
/-! The copper lists of a run and the operations on their log stream. -/
namespace Verif
namespace Runtime
open Bincode CopperList Planner
variable {σ P : Type}

/-- The objects logged on the stream `k`. -/
def onStream (k : Nat) (ops : List ULog.LogOp) : List (List Bytes) :=
  ops.filterMap (fun | .log i obj => if i = k then some obj else none | _ => none)

theorem onStream_append (k : Nat) (a b : List ULog.LogOp) :
    onStream k (a ++ b) = onStream k a ++ onStream k b := List.filterMap_append

theorem onStream_quiet {k : Nat} {ops : List ULog.LogOp} (h : ∀ obj, .log k obj ∉ ops) :
    onStream k ops = [] := by
  unfold onStream
  rw [List.filterMap_eq_nil_iff]
  intro op hop
  cases op with
  | openStream => rfl
  | drop => rfl
  | log i obj =>
    have : i ≠ k := by rintro rfl; exact h _ hop
    simp [this]

/-- What has been done with the stream since the beginning is logging the lists of the trace. -/
def InStep (hist : σ → List ULog.LogOp) (k : Nat) (pieces : CL (List (Msg P)) → List Bytes)
    (h0 : List ULog.LogOp) (t0 : List (Ev P)) (w : World σ P) : Prop :=
  ∃ ops c, hist w.st = h0 ++ ops ∧ w.trace = t0 ++ c ∧ .drop k ∉ ops ∧
    onStream k ops = (loggedLists c).map pieces

section
variable {env : Env σ P} {hist : σ → List ULog.LogOp} {k : Nat}
  {pieces : CL (List (Msg P)) → List Bytes} {h0 : List ULog.LogOp} {t0 : List (Ev P)}

theorem InStep.quiet {w : World σ P} (h : InStep hist k pieces h0 t0 w) {st : σ}
    (hl : Leaves k (hist w.st) (hist st)) : InStep hist k pieces h0 t0 ⟨st, w.trace⟩ := by
  obtain ⟨ops, c, h1, h2, h3, h4⟩ := h
  obtain ⟨more, h5, h6, h7⟩ := hl
  refine ⟨ops ++ more, c, by simp only; rw [h5, h1, List.append_assoc], h2, ?_, ?_⟩
  · simp [h3, h6]
  · rw [onStream_append, onStream_quiet h7, h4, List.append_nil]

theorem InStep.emit {w : World σ P} (h : InStep hist k pieces h0 t0 w) {st : σ} {ev : Ev P}
    (hl : Leaves k (hist w.st) (hist st)) (he : loggedLists [ev] = []) :
    InStep hist k pieces h0 t0 (w.emit st ev) := by
  obtain ⟨ops, c, h1, h2, h3, h4⟩ := h.quiet hl
  refine ⟨ops, c ++ [ev], h1, by simp only [World.emit] at h2 ⊢; rw [h2, List.append_assoc], h3, ?_⟩
  unfold loggedLists at he h4 ⊢
  rw [List.filterMap_append, he, List.append_nil, h4]

theorem InStep.note {w : World σ P} (h : InStep hist k pieces h0 t0 w) {ev : Ev P}
    (he : loggedLists [ev] = []) : InStep hist k pieces h0 t0 (w.emit w.st ev) :=
  h.emit ⟨[], by simp, by simp, by simp⟩ he

theorem step_react (hl : LogsTo env hist k pieces) {w : World σ P}
    (h : InStep hist k pieces h0 t0 w) (ph : Phase) (tid : Nat) (e : Err) :
    InStep hist k pieces h0 t0 (react env ph tid e w).1 := by
  unfold react
  exact h.emit (hl.onError ph tid e w.st) rfl

theorem step_lifeCall (hl : LogsTo env hist k pieces) {w : World σ P}
    (h : InStep hist k pieces h0 t0 w) (ph : Phase) (tid : Nat) :
    InStep hist k pieces h0 t0 (lifeCall env ph tid w).1 := by
  have h1 := h.emit (ev := .called ph tid [] (env.life ph tid w.st).2) (hl.life ph tid w.st) rfl
  unfold lifeCall
  simp only
  split
  · exact h1
  · exact step_react hl h1 _ _ _

theorem step_lifeStep (hl : LogsTo env hist k pieces) {w : World σ P}
    (h : InStep hist k pieces h0 t0 w) (ph : Phase) (tid : Nat) :
    InStep hist k pieces h0 t0 (lifeStep env ph tid w).1 := by
  unfold lifeStep
  split
  · exact step_lifeCall hl h _ _
  · rename_i sim hs
    have h1 := h.emit (ev := .asked ph tid [] (sim.life ph tid w.st).2)
      (hl.simLife sim hs ph tid w.st) rfl
    simp only
    split
    · exact step_react hl h1 _ _ _
    · exact h1
    · exact step_lifeCall hl h1 _ _

theorem step_lifeAll (hl : LogsTo env hist k pieces) (ph : Phase) (ts : List Nat) {w : World σ P}
    (h : InStep hist k pieces h0 t0 w) : InStep hist k pieces h0 t0 (lifeAll env ph ts w).1 := by
  induction ts generalizing w with
  | nil => exact h
  | cons t ts ih =>
    have h1 := step_lifeStep hl h ph t
    unfold lifeAll
    split
    · rename_i h2; rw [h2] at h1; exact ih h1
    · rename_i h2; rw [h2] at h1; exact h1

theorem step_callProcess (hl : LogsTo env hist k pieces) (step : Step) (ins : List (Msg P))
    (out : Msg P) (s : σ) : Leaves k (hist s) (hist (callProcess env step ins out s).1) := by
  unfold callProcess
  split
  · exact hl.source _ _ _
  · exact hl.regular _ _ _ _
  · exact hl.sink _ _ _

theorem step_execProcess (hl : LogsTo env hist k pieces) {w : World σ P}
    (h : InStep hist k pieces h0 t0 w) (step : Step) (ins : List (Msg P)) (out : Msg P) (doit : Bool) :
    InStep hist k pieces h0 t0 (execProcess env step ins out doit w).1 := by
  unfold execProcess
  simp only
  have h1 := h.quiet (hl.now w.st)
  generalize hr : (if doit = true then callProcess env step ins (out.setStart (env.now w.st).2)
    (env.now w.st).1 else ((env.now w.st).1, out.setStart (env.now w.st).2, none)) = r
  have h2 : InStep hist k pieces h0 t0 (if doit = true then World.emit ⟨(env.now w.st).1, w.trace⟩ r.1
      (.called .process step.nodeId ins r.2.2) else ⟨(env.now w.st).1, w.trace⟩) := by
    split
    · rename_i hd
      rw [if_pos hd] at hr
      subst hr
      exact h1.emit (step_callProcess hl _ _ _ _) rfl
    · exact h1
  revert h2
  generalize (if doit = true then World.emit ⟨(env.now w.st).1, w.trace⟩ r.1
      (.called .process step.nodeId ins r.2.2) else ⟨(env.now w.st).1, w.trace⟩) = w2
  intro h2
  have h3 := h2.quiet (hl.now w2.st)
  split
  · exact h3.note rfl
  · rename_i e he
    have h4 := step_react hl h3 .process step.nodeId e
    split
    · rename_i h5; rw [h5] at h4; exact h4.note rfl
    · rename_i h5; rw [h5] at h4; exact h4

theorem step_processStep (hl : LogsTo env hist k pieces) {w : World σ P}
    (h : InStep hist k pieces h0 t0 w) (step : Step) (ins : List (Msg P)) (out : Msg P) :
    InStep hist k pieces h0 t0 (processStep env step ins out w).1 := by
  unfold processStep
  split
  · exact step_execProcess hl h _ _ _ _
  · rename_i sim hs
    have h1 := h.emit (ev := .asked .process step.nodeId ins (sim.process step.nodeId ins out w.st).2.2)
      (hl.simProcess sim hs step.nodeId ins out w.st) rfl
    simp only
    split
    · rename_i e _
      have h2 := step_react hl h1 .process step.nodeId e
      split
      · rename_i h5; rw [h5] at h2; exact step_execProcess hl h2 _ _ _ _
      · rename_i h5; rw [h5] at h2; exact h2
    · exact step_execProcess hl h1 _ _ _ _
    · exact step_execProcess hl h1 _ _ _ _

theorem step_planLoop (hl : LogsTo env hist k pieces) (steps : List Step) {w w' : World σ P}
    {msgs msgs' : List (Msg P)} {f : Flow} (h : InStep hist k pieces h0 t0 w)
    (hp : planLoop env steps w msgs = .ok (w', msgs', f)) : InStep hist k pieces h0 t0 w' := by
  induction steps generalizing w msgs with
  | nil =>
    simp only [planLoop, Rs.ok.injEq, Prod.mk.injEq] at hp
    rw [← hp.1]; exact h
  | cons s ss ih =>
    unfold planLoop at hp
    split at hp
    · cases hp
    · split at hp
      · rename_i ins out _ _
        have h1 := step_processStep hl h s ins out
        split at hp
        · rename_i h2; rw [h2] at h1; exact ih h1 hp
        · rename_i h2
          rw [h2] at h1
          simp only [Rs.ok.injEq, Prod.mk.injEq] at hp
          rw [← hp.1]; exact h1
      · cases hp

theorem step_eopLoop (hl : LogsTo env hist k pieces) (id : UInt32) (cs : List (CL (List (Msg P))))
    {w w' : World σ P} {top : Bool} {nb nb' : Nat} {cs' : List (CL (List (Msg P)))}
    (h : InStep hist k pieces h0 t0 w)
    (hp : eopLoop (tracedLog env.log) id w top nb cs = .ok (w', nb', cs')) :
    InStep hist k pieces h0 t0 w' := by
  induction cs generalizing w top nb nb' cs' with
  | nil =>
    simp only [eopLoop, Rs.ok.injEq, Prod.mk.injEq] at hp
    rw [← hp.1]; exact h
  | cons c cs ih =>
    unfold eopLoop at hp
    split at hp
    · cases hp
    · rename_i w1 top1 nb1 c1 hv
      have h1 : InStep hist k pieces h0 t0 w1 := by
        unfold eopVisit at hv
        generalize (if c.id = id ∧ c.state = .processing then { c with state := .doneProcessing } else c)
          = d at hv
        simp only at hv
        obtain ⟨f, hf, hlog⟩ := hl.log
        split at hv
        · rw [hf] at hv
          simp only [tracedLog, Option.map_some] at hv
          cases hfs : f w.st { d with state := .beingSerialized } with
          | panic => rw [hfs] at hv; cases hv
          | ok st =>
            rw [hfs] at hv
            simp only [Rs.ok.injEq, Prod.mk.injEq] at hv
            rw [← hv.1]
            obtain ⟨ops, t, h2, h3, h4, h5⟩ := h
            refine ⟨ops ++ [.log k (pieces { d with state := .beingSerialized })],
              t ++ [.logged { d with state := .beingSerialized }], ?_, ?_, ?_, ?_⟩
            · simp only [World.emit]; rw [hlog _ _ _ hfs, h2, List.append_assoc]
            · simp only [World.emit]; rw [h3, List.append_assoc]
            · simp [h4]
            · rw [onStream_append, h5]
              unfold loggedLists
              simp [onStream]
        · simp only [Rs.ok.injEq, Prod.mk.injEq] at hv
          rw [← hv.1]; exact h
      split at hp
      · cases hp
      · rename_i h2
        simp only [Rs.ok.injEq, Prod.mk.injEq] at hp
        obtain ⟨rfl, rfl, rfl⟩ := hp
        exact ih h1 h2

theorem step_eop (hl : LogsTo env hist k pieces) {id : UInt32} {w w' : World σ P}
    {m m' : Manager (List (Msg P))} (h : InStep hist k pieces h0 t0 w)
    (hp : endOfProcessing (tracedLog env.log) w m id = .ok (w', m')) :
    InStep hist k pieces h0 t0 w' := by
  unfold endOfProcessing at hp
  split at hp
  · cases hp
  · split at hp
    · cases hp
    · rename_i h1
      have h2 := step_eopLoop hl id _ h h1
      simp only at hp
      split at hp
      · cases hp
      · simp only [Rs.ok.injEq, Prod.mk.injEq] at hp
        rw [← hp.1]; exact h2

end

section
variable {app : App σ P} {hist : σ → List ULog.LogOp} {k : Nat}
  {pieces : CL (List (Msg P)) → List Bytes} {h0 : List ULog.LogOp} {t0 : List (Ev P)}

theorem step_finishList (hl : LogsTo app.env hist k pieces) {id : UInt32} {msgs : List (Msg P)}
    {rt rt' : Rt σ P} {r : Option Err} (h : InStep hist k pieces h0 t0 rt.w)
    (hp : finishList app id msgs rt = .ok (rt', r)) : InStep hist k pieces h0 t0 rt'.w := by
  unfold finishList at hp
  split at hp
  · cases hp
  · rename_i md _
    have h1 := h.emit (ev := .monitored md (app.env.monCL md rt.w.st).2) (hl.monCL md rt.w.st) rfl
    simp only at hp
    split at hp
    · simp only [Rs.ok.injEq, Prod.mk.injEq] at hp
      rw [← hp.1]; exact h1
    · split at hp
      · cases hp
      · rename_i h2
        simp only [Rs.ok.injEq, Prod.mk.injEq] at hp
        rw [← hp.1]; exact step_eop hl h1 h2

theorem step_iteration (hl : LogsTo app.env hist k pieces) {rt rt' : Rt σ P} {r : Option Err}
    (h : InStep hist k pieces h0 t0 rt.w) (hp : runOneIteration app rt = .ok (rt', r)) :
    InStep hist k pieces h0 t0 rt'.w := by
  unfold runOneIteration at hp
  have h1 := step_lifeAll hl .preprocess (List.range app.tasks) h
  split at hp
  · rename_i h2; rw [h2] at h1
    simp only [Rs.ok.injEq, Prod.mk.injEq] at hp
    rw [← hp.1]; exact h1
  · rename_i h2; rw [h2] at h1
    simp only [Rs.ok.injEq, Prod.mk.injEq] at hp
    rw [← hp.1]; exact h1
  · rename_i w1 h2; rw [h2] at h1
    split at hp
    · cases hp
    · cases hp
    · split at hp
      · cases hp
      · rename_i cl _
        have h3 := h1.note (ev := .created cl.id) rfl
        simp only at hp
        split at hp
        · cases hp
        · rename_i h4
          have h5 := step_planLoop hl _ h3 h4
          split at hp
          · simp only [Rs.ok.injEq, Prod.mk.injEq] at hp
            rw [← hp.1]; exact h5
          · exact step_finishList (rt := ⟨_, _⟩) hl h5 hp
          · split at hp
            · cases hp
            · split at hp
              · cases hp
              · split at hp
                · cases hp
                · rename_i h6
                  simp only [Rs.ok.injEq, Prod.mk.injEq] at hp
                  rw [← hp.1]; exact step_finishList (rt := ⟨_, _⟩) hl h5 h6
                · rename_i h6
                  have h7 := step_finishList (rt := ⟨_, _⟩) hl h5 h6
                  have h8 := step_lifeAll hl .postprocess (List.range app.tasks) h7
                  split at hp
                  · rename_i h9; rw [h9] at h8
                    simp only [Rs.ok.injEq, Prod.mk.injEq] at hp
                    rw [← hp.1]; exact h8
                  · rename_i h9; rw [h9] at h8
                    simp only [Rs.ok.injEq, Prod.mk.injEq] at hp
                    rw [← hp.1]; exact h8

theorem step_runLoop (hl : LogsTo app.env hist k pieces) (n : Nat) {rt rt' : Rt σ P} {r : Option Err}
    (h : InStep hist k pieces h0 t0 rt.w) (hp : runLoop app n rt = .ok (rt', r)) :
    InStep hist k pieces h0 t0 rt'.w := by
  induction n generalizing rt with
  | zero =>
    simp only [runLoop, Rs.ok.injEq, Prod.mk.injEq] at hp
    rw [← hp.1]; exact h
  | succ n ih =>
    unfold runLoop at hp
    split at hp
    · cases hp
    · rename_i h1
      simp only [Rs.ok.injEq, Prod.mk.injEq] at hp
      rw [← hp.1]; exact step_iteration hl h h1
    · rename_i h1
      exact ih (step_iteration hl h h1) hp

theorem step_startAll (hl : LogsTo app.env hist k pieces) {rt : Rt σ P}
    (h : InStep hist k pieces h0 t0 rt.w) : InStep hist k pieces h0 t0 (startAll app rt).1.w := by
  have h1 := step_lifeAll hl .start (List.range app.tasks) h
  unfold startAll
  split
  · rename_i h2; rw [h2] at h1; exact h1
  · rename_i h2; rw [h2] at h1; exact h1
  · rename_i h2; rw [h2] at h1; exact h1.emit (hl.monStart _) rfl

theorem step_stopAll (hl : LogsTo app.env hist k pieces) {rt : Rt σ P}
    (h : InStep hist k pieces h0 t0 rt.w) : InStep hist k pieces h0 t0 (stopAll app rt).1.w := by
  have h1 := step_lifeAll hl .stop (List.range app.tasks) h
  unfold stopAll
  split
  · rename_i h2; rw [h2] at h1; exact h1
  · rename_i h2; rw [h2] at h1; exact h1
  · rename_i h2; rw [h2] at h1; exact h1.emit (hl.monStop _) rfl

theorem step_run (hl : LogsTo app.env hist k pieces) {n : Nat} {rt rt' : Rt σ P} {r : RunResult}
    (h : InStep hist k pieces h0 t0 rt.w) (hp : run app n rt = .ok (rt', r)) :
    InStep hist k pieces h0 t0 rt'.w := by
  have h1 := step_startAll hl h
  unfold run at hp
  split at hp
  · rename_i h2; rw [h2] at h1
    simp only [Rs.ok.injEq, Prod.mk.injEq] at hp
    rw [← hp.1]; exact h1
  · rename_i h2; rw [h2] at h1
    split at hp
    · cases hp
    · rename_i h3
      simp only [Rs.ok.injEq, Prod.mk.injEq] at hp
      rw [← hp.1]; exact step_runLoop hl n h1 h3
    · rename_i h3
      have h4 := step_stopAll hl (step_runLoop hl n h1 h3)
      split at hp
      · rename_i h5; rw [h5] at h4
        simp only [Rs.ok.injEq, Prod.mk.injEq] at hp
        rw [← hp.1]; exact h4
      · rename_i h5; rw [h5] at h4
        simp only [Rs.ok.injEq, Prod.mk.injEq] at hp
        rw [← hp.1]; exact h4

end

/-! ### What the log contains -/

/-- At most one stream of a type. -/
def OneEach (live : List (Option (ULog.EntryType × Nat))) : Prop :=
  ∀ (i j : Nat) (t : ULog.EntryType) (m m' : Nat), live[i]? = some (some (t, m)) → live[j]? = some (some (t, m')) → i = j

theorem OneEach.set {live : List (Option (ULog.EntryType × Nat))} (h : OneEach live) (i : Nat) :
    OneEach (live.set i none) := by
  intro a b t m m' ha hb
  rw [List.getElem?_set] at ha hb
  split at ha
  · split at ha <;> simp at ha
  · split at hb
    · split at hb <;> simp at hb
    · exact h a b t m m' ha hb

theorem OneEach.push {live : List (Option (ULog.EntryType × Nat))} (h : OneEach live)
    {t : ULog.EntryType} {n : Nat} (ht : ∀ m, some (t, m) ∉ live) : OneEach (live ++ [some (t, n)]) := by
  intro a b u m m' ha hb
  have key : ∀ c m, (live ++ [some (t, n)])[c]? = some (some (u, m)) →
      live[c]? = some (some (u, m)) ∨ (c = live.length ∧ u = t) := by
    intro c m hc
    rw [List.getElem?_append] at hc
    split at hc
    · exact .inl hc
    · rw [List.getElem?_singleton] at hc
      split at hc
      · simp at hc; exact .inr ⟨by omega, hc.1.symm⟩
      · cases hc
  rcases key a m ha with ha1 | ⟨ha1, hu⟩ <;> rcases key b m' hb with hb1 | ⟨hb1, hu'⟩
  · exact h a b u m m' ha1 hb1
  · rw [hu'] at ha1; exact absurd (List.mem_of_getElem? ha1) (ht m)
  · rw [hu] at hb1; exact absurd (List.mem_of_getElem? hb1) (ht m')
  · omega

theorem logged_after {page slab k : Nat} {ops : List ULog.LogOp} :
    ∀ {live : List (Option (ULog.EntryType × Nat))} {n : Nat}, OneEach live →
    live[k]? = some (some (.copperList, n)) → ULog.HistoryOk page slab live ops → .drop k ∉ ops →
    ULog.logged .copperList live ops = ((onStream k ops).map List.flatten).flatten ∧
      ULog.NeverDropped .copperList live ops := by
  induction ops with
  | nil => intros; exact ⟨rfl, trivial⟩
  | cons op ops ih =>
    intro live n h1 h2 h3 h4
    simp only [List.mem_cons, not_or] at h4
    cases op with
    | openStream t m =>
      obtain ⟨_, _, h5, _, h6⟩ := h3
      have hk : (live ++ [some (t, m)])[k]? = some (some (.copperList, n)) := by
        rw [List.getElem?_append_left (List.getElem?_eq_some_iff.1 h2).1]; exact h2
      exact ih (h1.push h5) hk h6 h4.2
    | log i obj =>
      obtain ⟨h5, h6⟩ := ih h1 h2 h3.2 h4.2
      refine ⟨?_, h6⟩
      simp only [ULog.logged, h5]
      by_cases hi : i = k
      · subst hi; simp [h2, onStream]
      · have : ∀ m, live[i]? ≠ some (some (.copperList, m)) := fun m hm => hi (h1 i k _ m n hm h2)
        have h7 : onStream k (.log i obj :: ops) = onStream k ops := by simp [onStream, hi]
        rw [h7]
        split
        · rename_i t' m hm
          have : t' ≠ .copperList := by rintro rfl; exact this m hm
          simp [this]
        · rfl
    | drop i =>
      have hi : i ≠ k := by rintro rfl; exact h4.1 rfl
      have hk : (live.set i none)[k]? = some (some (.copperList, n)) := by
        rw [List.getElem?_set_ne hi]; exact h2
      obtain ⟨h5, h6⟩ := ih (h1.set i) hk h3 h4.2
      exact ⟨h5, fun m hm => hi (h1 i k _ m n hm h2), h6⟩

theorem logged_ready {page slab k : Nat} {ops : List ULog.LogOp} (h4 : .drop k ∉ ops) :
    ∀ {h0 : List ULog.LogOp} {live : List (Option (ULog.EntryType × Nat))}, OneEach live →
    StreamReady k live h0 → ULog.HistoryOk page slab live (h0 ++ ops) →
    ULog.logged .copperList live (h0 ++ ops) = ((onStream k ops).map List.flatten).flatten ∧
      ULog.NeverDropped .copperList live (h0 ++ ops)
  | [], live, h1, ⟨n, h2⟩, h3 => logged_after h1 h2 h3 h4
  | .openStream t m :: h0, live, h1, h2, h3 =>
    logged_ready h4 (h0 := h0) (h1.push h3.2.2.1) h2 h3.2.2.2.2
  | .log i obj :: h0, live, h1, h2, h3 => by
    obtain ⟨h5, h6⟩ := logged_ready h4 (h0 := h0) h1 h2.2 h3.2
    refine ⟨?_, h6⟩
    simp only [List.cons_append, ULog.logged, h5]
    split
    · rename_i t' m hm
      have : t' ≠ .copperList := by rintro rfl; exact h2.1 m hm
      simp [this]
    · rfl
  | .drop i :: h0, live, h1, h2, h3 => by
    obtain ⟨h5, h6⟩ := logged_ready h4 (h0 := h0) (h1.set i) h2.2 h3
    exact ⟨h5, h2.1, h6⟩

theorem startAll_quiet (app : App σ P) (rt : Rt σ P) :
    ∃ t, (startAll app rt).1.w.trace = rt.w.trace ++ t ∧ loggedLists t = [] := by
  obtain ⟨c, h1, h2⟩ := lifeAll_trace app.env .start (List.range app.tasks) rt.w
  have h3 := (quiet_of_task h2.ofTask).1
  unfold startAll
  generalize lifeAll app.env .start (List.range app.tasks) rt.w = q at h1 h2
  obtain ⟨w, f⟩ := q
  simp only at h1
  cases f with
  | abort => exact ⟨c, h1, h3⟩
  | shutdown e => exact ⟨c, h1, h3⟩
  | next =>
    refine ⟨c ++ [.monStarted (app.env.monStart w.st).2], ?_, ?_⟩
    · simp only [World.emit]; rw [h1, List.append_assoc]
    · rw [loggedLists_append, h3]; rfl

theorem flatten_pieces {slots : List (Codec P)} {pieces : CL (List (Msg P)) → List Bytes}
    (hp : ∀ cl, (pieces cl).flatten = (Wire.clCodec slots).enc cl) (cls : List (CL (List (Msg P)))) :
    ((cls.map pieces).map List.flatten).flatten = @encAll _ (Wire.clCodec slots) cls := by
  induction cls with
  | nil => rfl
  | cons c cls ih =>
    simp only [List.map_cons, List.flatten_cons, encAll, ih, hp]

theorem dump_lists {slots : List (Codec P)} {cls : List (CL (List (Msg P)))}
    (h : ∀ cl ∈ cls, Typed slots cl) :
    @dumpObjects _ (Wire.clCodec slots) (@encAll _ (Wire.clCodec slots) cls) = cls := by
  have h1 := @decodeStream_encAll _ (Wire.clCodec slots) cls (fun a ha => Wire.rt_cl (h a ha)) []
    _ (Wire.cl_end slots) ((@encAll _ (Wire.clCodec slots) cls).length + 1)
    (Nat.lt_succ_of_le (@encAll_length_ge _ (Wire.clCodec slots) cls (fun a _ => Wire.cl_pos slots a)))
  rw [List.append_nil] at h1
  unfold dumpObjects
  rw [h1]

end Runtime
end Verif
