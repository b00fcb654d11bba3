import Verif.Proofs.ReplayEnd
import Verif.Props.RuntimePool
import Verif.Props.EndToEnd
/-!
C58: replaying a log reproduces the run.
-/
namespace Verif
namespace Runtime
open Clock CopperList Planner
variable {σ σ' P τ : Type}

/-- An application is run and its copper lists are logged.  The same tasks, in the same condition,
are then run again with the sources and the sinks answered for by the replay callback, one iteration
per recorded list.  Whatever the sources, the sinks, the clock and the simulation of the first run
did, the second run logs the same number of lists, with the same numbers, and with the same payload,
time of validity and status in the messages of every source and every task; and all the tasks end
up with the same memories.

The tasks may fail, and lose their payloads, in both runs; what is excluded is a monitor's decision
to abort or shut down, in either run: see `C58_ended_partial` for the recorded runs that are shut
down and `C58_violated_abort` for those with an aborted iteration.  Missing: applications whose generated accessors do not read
the sources' messages, see `C58_violated_accessor`; and tasks that read the clock, see
`C58_violated_clock`. -/
theorem C58_replay_partial (g : Graph) (hg : g.WF) (app : App σ P) (r : Replayer σ' P)
    (hp : computePlan g = .ok (some app.plan)) (hacc : SourcesReadable app.plan)
    (hplan : r.app.plan = app.plan) (htasks : r.app.tasks = app.tasks)
    (code : TaskCode P τ)
    (mem : σ → Nat → τ) (hrec : Plays app.plan code mem app.env)
    (hsim : ∀ sim, app.env.sim = some sim → LeavesRegular app.plan mem sim)
    (mem' : σ' → Nat → τ) (hrep : Plays app.plan code mem' r.app.env)
    (hclock : ∀ msgs s, mem' (r.setClock msgs s) = mem' s)
    (hlog : app.env.log.isSome = true) (hlog' : r.app.env.log.isSome = true)
    (rt rt1 : Rt σ P) (rt' rt1' : Rt σ' P) (hfresh : rt.w.trace = []) (hfresh' : rt'.w.trace = [])
    (hpool : SamePool app.plan rt.mgr rt'.mgr)
    (hmem : ∀ t, IsRegular app.plan t → mem rt.w.st t = mem' rt'.w.st t)
    (n : Nat) (h : record app n rt = .ok rt1) (hq : ∀ ev ∈ rt1.w.trace, ev.stops = false)
    (h' : replay r (loggedLists rt1.w.trace) rt' = .ok rt1')
    (hq' : ∀ ev ∈ rt1'.w.trace, ev.stops = false) :
    (loggedLists rt1.w.trace).length = n ∧
    Pointwise (SameList app.plan) (loggedLists rt1.w.trace) (loggedLists rt1'.w.trace) ∧
    ∀ t, IsRegular app.plan t → mem rt1.w.st t = mem' rt1'.w.st t := by
  obtain ⟨⟨_, a1⟩, a2, a3⟩ := replay_sync (wired_of_plan hg hp) (sinksUnread_of_plan hg hp) hacc hplan htasks ⟨hrec, hsim⟩ hrep
    hclock hlog hlog' hfresh hfresh' hpool hmem h hq h' hq'
  exact ⟨a2, a3, a1⟩

/-- The recorded run may end: after `n` iterations without a stop, the next one returns an error, be it because the
monitor shut the application down, or because the monitor or the logger failed.  The log has `n` lists, or, if the
decision came in the postprocess phase, `n + 1`; the replay of what is there gives the same lists again.  If there are
`n`, the tasks end up with the memories they had before the last, unlogged iteration.

Missing: the memories after a shutdown in the postprocess phase, which the replay completes; and a log that a shutdown
cuts off (for a process that is killed see C110). -/
theorem C58_ended_partial (g : Graph) (hg : g.WF) (app : App σ P) (r : Replayer σ' P)
    (hp : computePlan g = .ok (some app.plan)) (hacc : SourcesReadable app.plan)
    (hplan : r.app.plan = app.plan) (htasks : r.app.tasks = app.tasks)
    (code : TaskCode P τ)
    (mem : σ → Nat → τ) (hrec : Plays app.plan code mem app.env)
    (hsim : ∀ sim, app.env.sim = some sim → LeavesRegular app.plan mem sim)
    (mem' : σ' → Nat → τ) (hrep : Plays app.plan code mem' r.app.env)
    (hclock : ∀ msgs s, mem' (r.setClock msgs s) = mem' s)
    (hlog : app.env.log.isSome = true) (hlog' : r.app.env.log.isSome = true)
    (rt rt1 rt2 : Rt σ P) (rt' rt1' : Rt σ' P) (hfresh : rt.w.trace = []) (hfresh' : rt'.w.trace = [])
    (hpool : SamePool app.plan rt.mgr rt'.mgr)
    (hmem : ∀ t, IsRegular app.plan t → mem rt.w.st t = mem' rt'.w.st t)
    (n : Nat) (e : Err) (h : record app n rt = .ok rt1) (hq : ∀ ev ∈ rt1.w.trace, ev.stops = false)
    (hend : run app (n + 1) rt = .ok (rt2, .ended e))
    (h' : replay r (loggedLists rt2.w.trace) rt' = .ok rt1')
    (hq' : ∀ ev ∈ rt1'.w.trace, ev.stops = false) :
    ((loggedLists rt2.w.trace).length = n ∨ (loggedLists rt2.w.trace).length = n + 1) ∧
    Pointwise (SameList app.plan) (loggedLists rt2.w.trace) (loggedLists rt1'.w.trace) ∧
    ((∀ u e, Ev.decided .postprocess u e .shutdown ∉ rt2.w.trace) →
      (loggedLists rt2.w.trace).length = n ∧ ∀ t, IsRegular app.plan t → mem rt1.w.st t = mem' rt1'.w.st t) := by
  have hw := wired_of_plan hg hp
  have hns := sinksUnread_of_plan hg hp
  rcases ended_logged_or h hend with heq | ⟨rtc, ec, t, h1, h2, h3, h4⟩
  · rw [heq] at h' ⊢
    obtain ⟨⟨_, a1⟩, a2, a3⟩ := replay_sync hw hns hacc hplan htasks ⟨hrec, hsim⟩ hrep hclock hlog hlog' hfresh hfresh'
      hpool hmem h hq h' hq'
    exact ⟨.inl a2, a3, fun _ => ⟨a2, a1⟩⟩
  · have hpost : ¬ ∀ u e, Ev.decided .postprocess u e .shutdown ∉ rt2.w.trace := fun hpost => by
      rw [ended_logged h hend hpost] at h4
      exact h3 (List.self_eq_append_right.1 h4)
    have hone : ∃ cl, loggedLists t = [cl] := by
      obtain ⟨_, _, _, msgs, _, _, _, _, hl⟩ := iteration_last ⟨hrec, hsim⟩
        (record_idle h hpool.1) h1 h2 h3
      rw [if_pos hlog] at hl
      exact ⟨_, hl⟩
    obtain ⟨cl, hcl⟩ := hone
    rw [h4, hcl] at h' ⊢
    obtain ⟨rtm, hr1, hr2⟩ := replay_snoc r h'
    obtain ⟨tm, htm⟩ := replayOne_trace r cl rtm hr2
    obtain ⟨hs, a2, a3⟩ := replay_sync hw hns hacc hplan htasks ⟨hrec, hsim⟩ hrep hclock hlog hlog' hfresh hfresh'
      hpool hmem h hq hr1 (fun ev hev => hq' ev (by rw [htm]; simp [hev]))
    obtain ⟨cl1, hcl1, hlast⟩ := last_sync hw hns hacc hplan htasks ⟨hrec, hsim⟩ hrep hclock hlog hlog' hs h1 h2 h3
    rw [hcl] at hcl1
    simp only [List.cons.injEq, and_true] at hcl1
    subst hcl1
    obtain ⟨t', cl', b1, b2, b3⟩ := hlast rt1' hr2 hq'
    refine ⟨.inr (by simp [a2]), ?_, fun hp => absurd hp hpost⟩
    rw [b1, loggedLists_append, b2]
    exact pointwise_snoc a3 b3

/-- The same from the files: the log written by the recorded run is opened, its copper list stream is
read to the end, in reads of any sizes, and decoded; the lists so obtained are replayed. -/
theorem C58_from_log_partial {page slabSize : Nat} (hz : ULog.SizesOk page slabSize)
    (hist : σ → List ULog.LogOp) (strm : Nat) (slots : List (Bincode.Codec P))
    (pieces : CL (List (Msg P)) → List Bytes)
    (g : Graph) (hg : g.WF) (app : App σ P) (r : Replayer σ' P)
    (hl : LogsTo app.env hist strm pieces)
    (hpieces : ∀ cl, (pieces cl).flatten = (Wire.clCodec slots).enc cl)
    (hp : computePlan g = .ok (some app.plan)) (hacc : SourcesReadable app.plan)
    (hplan : r.app.plan = app.plan) (htasks : r.app.tasks = app.tasks)
    (code : TaskCode P τ)
    (mem : σ → Nat → τ) (hrec : Plays app.plan code mem app.env)
    (hsim : ∀ sim, app.env.sim = some sim → LeavesRegular app.plan mem sim)
    (mem' : σ' → Nat → τ) (hrep : Plays app.plan code mem' r.app.env)
    (hclock : ∀ msgs s, mem' (r.setClock msgs s) = mem' s)
    (hlog' : r.app.env.log.isSome = true)
    (rt rt1 : Rt σ P) (rt' rt1' : Rt σ' P) (hfresh : rt.w.trace = []) (hfresh' : rt'.w.trace = [])
    (hpool : SamePool app.plan rt.mgr rt'.mgr)
    (hmem : ∀ t, IsRegular app.plan t → mem rt.w.st t = mem' rt'.w.st t)
    (h0 : StreamReady strm [] (hist rt.w.st))
    (n : Nat) (h : record app n rt = .ok rt1) (hq : ∀ ev ∈ rt1.w.trace, ev.stops = false)
    (hops : ULog.HistoryOk page slabSize [] (hist rt1.w.st))
    (htyped : ∀ cl ∈ loggedLists rt1.w.trace, Typed slots cl)
    (ns : List Nat) (hn : ∀ b ∈ ns, 0 < b) :
    ∃ files reader ds, ULog.writeLog slabSize page (hist rt1.w.st) = .ok files ∧
      ULog.Reader.new files = .ok reader ∧
      (ULog.IOReader.new reader).reads files .copperList ns = .ok ds ∧
      ([] ∈ ds → replay r (@dumpObjects _ (Wire.clCodec slots) ds.flatten) rt' = .ok rt1' →
        (∀ ev ∈ rt1'.w.trace, ev.stops = false) →
        (loggedLists rt1'.w.trace).length = n ∧
        Pointwise (SameList app.plan) (loggedLists rt1.w.trace) (loggedLists rt1'.w.trace) ∧
        ∀ t, IsRegular app.plan t → mem rt1.w.st t = mem' rt1'.w.st t) := by
  have hrun : run app n rt = .ok (rt1, .running) := by
    unfold record at h
    unfold run
    generalize startAll app rt = q at h ⊢
    obtain ⟨rta, e⟩ := q
    cases e with
    | some e => cases h
    | none =>
      simp only at h ⊢
      split at h
      · rename_i rtb hb
        simp only [Rs.ok.injEq] at h
        subst h
        rw [hb]
      · cases h
  obtain ⟨t, files, reader, ds, h1, h2, h3, h4, h5⟩ :=
    C23_dump hz app hist strm slots pieces hl hpieces n rt rt1 _ h0 hrun hops htyped ns hn
  rw [hfresh, List.nil_append] at h1
  refine ⟨files, reader, ds, h2, h3, h4, fun he hr hq' => ?_⟩
  rw [h5 he, ← h1] at hr
  have hlog : app.env.log.isSome = true := by obtain ⟨f, hf, _⟩ := hl.log; rw [hf]; rfl
  obtain ⟨k1, k2, k3⟩ := C58_replay_partial g hg app r hp hacc hplan htasks code mem hrec hsim mem' hrep
    hclock hlog hlog' rt rt1 rt' rt1' hfresh hfresh' hpool hmem n h hq hr hq'
  exact ⟨by rw [← pointwise_length k2, k1], k2, k3⟩

/-- Replays are deterministic.  Any lists are replayed twice, by two applications with the same tasks in
the same condition, with clocks, monitors, stand-ins for the sinks and loggers of their own; the
lists need only have the same messages from the sources.  Both log one list for each, with the
same number, and with the same payload, time of validity and status in the messages of every source
and every task, those of the sources being the given ones; and the tasks end up with the same
memories.  Missing: as for `C58_replay_partial`. -/
theorem C58_deterministic_partial (g : Graph) (hg : g.WF) (r : Replayer σ P) (r' : Replayer σ' P)
    (hp : computePlan g = .ok (some r.app.plan)) (hacc : SourcesReadable r.app.plan)
    (hplan : r'.app.plan = r.app.plan) (htasks : r'.app.tasks = r.app.tasks)
    (code : TaskCode P τ)
    (mem : σ → Nat → τ) (hrep : Plays r.app.plan code mem r.app.env)
    (mem' : σ' → Nat → τ) (hrep' : Plays r.app.plan code mem' r'.app.env)
    (hclock : ∀ msgs s, mem (r.setClock msgs s) = mem s)
    (hclock' : ∀ msgs s, mem' (r'.setClock msgs s) = mem' s)
    (hlog : r.app.env.log.isSome = true) (hlog' : r'.app.env.log.isSome = true)
    (rt rt1 : Rt σ P) (rt' rt1' : Rt σ' P) (hfresh : rt.w.trace = []) (hfresh' : rt'.w.trace = [])
    (hpool : SamePool r.app.plan rt.mgr rt'.mgr)
    (hmem : ∀ t, IsRegular r.app.plan t → mem rt.w.st t = mem' rt'.w.st t)
    (cls cls' : List (CL (List (Msg P)))) (hsrc : Pointwise (SameSources r.app.plan) cls cls')
    (h : replay r cls rt = .ok rt1) (hq : ∀ ev ∈ rt1.w.trace, ev.stops = false)
    (h' : replay r' cls' rt' = .ok rt1') (hq' : ∀ ev ∈ rt1'.w.trace, ev.stops = false) :
    Pointwise (SameSources r.app.plan) cls (loggedLists rt1.w.trace) ∧
    Pointwise (SameList r.app.plan) (loggedLists rt1.w.trace) (loggedLists rt1'.w.trace) ∧
    ∀ t, IsRegular r.app.plan t → mem rt1.w.st t = mem' rt1'.w.st t := by
  have hw := wired_of_plan hg hp
  have hns := sinksUnread_of_plan hg hp
  unfold replay at h h'
  cases hs : startAll (r.app.withSim (defaultCallback r.app.plan)) rt with
  | mk rta e =>
    cases hs' : startAll (r'.app.withSim (defaultCallback r'.app.plan)) rt' with
    | mk rta' e' =>
      rw [hs] at h
      rw [hs'] at h'
      cases e with
      | some e => cases h
      | none =>
        cases e' with
        | some e => cases h'
        | none =>
          simp only at h h'
          obtain ⟨tr, htr⟩ := replayLoop_trace r _ rta h
          obtain ⟨tr', htr'⟩ := replayLoop_trace r' _ rta' h'
          have hqa : ∀ ev ∈ rta.w.trace, ev.stops = false := fun ev hev => hq ev (by rw [htr]; simp [hev])
          have hqa' : ∀ ev ∈ rta'.w.trace, ev.stops = false := fun ev hev => hq' ev (by rw [htr']; simp [hev])
          have hF : Fair r.app.plan code mem (r.app.withSim (defaultCallback r.app.plan)).env :=
            hrep.withSim (default_leaves hw.nodup mem)
          have hF' : Fair r.app.plan code mem' (r'.app.withSim (defaultCallback r'.app.plan)).env := by
            rw [hplan]
            exact hrep'.withSim (default_leaves hw.nodup mem')
          obtain ⟨hmg, hm⟩ := start_sync hF hs hqa
          obtain ⟨hmg', hm'⟩ := start_sync hF' hs' hqa'
          have htk : (r'.app.withSim (defaultCallback (σ := σ') (P := P) r'.app.plan)).tasks =
            (r.app.withSim (defaultCallback (σ := σ) (P := P) r.app.plan)).tasks := htasks
          have hsync : Synced r.app.plan mem mem' rta rta' := by
            refine ⟨by rw [hmg, hmg']; exact hpool, fun t ht => ?_⟩
            rw [hm, hm', htk]
            exact lifeMem_congr _ _ _ _ _ _ hmem t ht
          have hll : loggedLists rta.w.trace = [] := start_quiet _ hs hfresh
          have hll' : loggedLists rta'.w.trace = [] := start_quiet _ hs' hfresh'
          obtain ⟨h1, t, t', h2, h3, h4, h5⟩ := pairs_sync hw hns hacc rfl hplan htasks hrep hrep' hclock hclock'
            hlog hlog' hsrc rta rt1 rta' rt1' hsync h hq h' hq'
          rw [h2, h3, loggedLists_append, loggedLists_append, hll, hll', List.nil_append, List.nil_append]
          exact ⟨h4, h5, h1.2⟩

/-- The log of a replay replays to itself: whatever lists were replayed, replaying what that replay
logged gives the same lists once more, and the same memories.  Missing: as for
`C58_replay_partial`. -/
theorem C58_again_partial (g : Graph) (hg : g.WF) (r : Replayer σ P) (r' : Replayer σ' P)
    (hp : computePlan g = .ok (some r.app.plan)) (hacc : SourcesReadable r.app.plan)
    (hplan : r'.app.plan = r.app.plan) (htasks : r'.app.tasks = r.app.tasks)
    (code : TaskCode P τ)
    (mem : σ → Nat → τ) (hrep : Plays r.app.plan code mem r.app.env)
    (mem' : σ' → Nat → τ) (hrep' : Plays r.app.plan code mem' r'.app.env)
    (hclock : ∀ msgs s, mem (r.setClock msgs s) = mem s)
    (hclock' : ∀ msgs s, mem' (r'.setClock msgs s) = mem' s)
    (hlog : r.app.env.log.isSome = true) (hlog' : r'.app.env.log.isSome = true)
    (rt rt1 : Rt σ P) (rt' rt1' : Rt σ' P) (hfresh : rt.w.trace = []) (hfresh' : rt'.w.trace = [])
    (hpool : SamePool r.app.plan rt.mgr rt'.mgr)
    (hmem : ∀ t, IsRegular r.app.plan t → mem rt.w.st t = mem' rt'.w.st t)
    (cls : List (CL (List (Msg P)))) (hlen : ∀ cl ∈ cls, cl.msgs.length = r.app.plan.length)
    (h : replay r cls rt = .ok rt1) (hq : ∀ ev ∈ rt1.w.trace, ev.stops = false)
    (h' : replay r' (loggedLists rt1.w.trace) rt' = .ok rt1') (hq' : ∀ ev ∈ rt1'.w.trace, ev.stops = false) :
    (loggedLists rt1.w.trace).length = cls.length ∧
    Pointwise (SameList r.app.plan) (loggedLists rt1.w.trace) (loggedLists rt1'.w.trace) ∧
    ∀ t, IsRegular r.app.plan t → mem rt1.w.st t = mem' rt1'.w.st t := by
  have hrefl : Pointwise (SameSources r.app.plan) cls cls := by
    clear h
    induction cls with
    | nil => exact .nil
    | cons cl cls ih =>
      exact .cons ⟨hlen cl (by simp), hlen cl (by simp), fun _ _ _ _ => rfl⟩ (ih fun c hc => hlen c (by simp [hc]))
  have hpool1 : SamePool r.app.plan rt.mgr rt.mgr := by
    refine ⟨hpool.1, hpool.1, rfl, fun c c' hc hc' _ _ _ _ => ?_⟩
    rw [hc] at hc'
    cases hc'
    rfl
  have h1 := (C58_deterministic_partial g hg r r hp hacc rfl rfl code mem hrep mem hrep hclock hclock hlog hlog
    rt rt1 rt rt1 hfresh hfresh hpool1 (fun _ _ => rfl) cls cls hrefl h hq h hq).1
  obtain ⟨_, h2, h3⟩ := C58_deterministic_partial g hg r r' hp hacc hplan htasks code mem hrep mem' hrep' hclock
    hclock' hlog hlog' rt rt1 rt' rt1' hfresh hfresh' hpool hmem cls _ h1 h hq h' hq'
  exact ⟨(pointwise_length h1).symm, h2, h3⟩

/-- A replay comes to its end, whatever the recorded lists are: for every acyclic graph of tasks
declared producers first, a monotone clock (the mock clock stands still during a list), a monitor
that never stops anything, and as long as there are list numbers left. -/
theorem C58_completes (g : Graph) (hg : g.WF) (ha : g.Acyclic) (hn : 0 < g.nodes)
    (r : Replayer σ P) (hp : computePlan g = .ok (some r.app.plan))
    (hdecl : ProducersFirst g ∨ r.app.overflow = .wrapping)
    (T : σ → Nat) (hc : MonotoneClock r.app.env T) (hk : KeepsStart r.app.env)
    (hlog : LogAccepts r.app.env.log) (ht : Tolerant r.app.env)
    (cls : List (CL (List (Msg P)))) (rt : Rt σ P) (hfresh : rt.w.trace = [])
    (hi : Idle r.app.plan.length rt.mgr)
    (hid : rt.mgr.currentClId.toNat + cls.length < 2 ^ 32 ∨ r.app.overflow = .wrapping) :
    ∃ rt', replay r cls rt = .ok rt' ∧ ∀ ev ∈ rt'.w.trace, ev.stops = false := by
  have hC : ∀ sim : Sim σ P, (∀ ph t s, T s ≤ T (sim.life ph t s).1) →
      (∀ t ins out s, T s ≤ T (sim.process t ins out s).1) → MonotoneClock (r.app.withSim sim).env T := by
    intro sim h1 h2
    refine ⟨hc.now, hc.life, hc.source, hc.regular, hc.sink, hc.onError, hc.monCL, hc.monStart,
      hc.monStop, hc.log, ?_, ?_⟩ <;>
    · intro s hs
      simp only [App.withSim, Option.some.injEq] at hs
      subst hs
      assumption
  have hK : ∀ sim : Sim σ P, KeepsStart (r.app.withSim sim).env := fun _ => ⟨hk.source, hk.regular⟩
  have hT : ∀ sim : Sim σ P, Tolerant (r.app.withSim sim).env :=
    fun _ => ⟨ht.onError, ht.monCL, ht.monStart⟩
  have hloop : ∀ (cls : List (CL (List (Msg P)))) (rt : Rt σ P), Idle r.app.plan.length rt.mgr →
      (rt.mgr.currentClId.toNat + cls.length < 2 ^ 32 ∨ r.app.overflow = .wrapping) →
      (∀ ev ∈ rt.w.trace, ev.stops = false) →
      ∃ rt', replayLoop r cls rt = .ok rt' ∧ ∀ ev ∈ rt'.w.trace, ev.stops = false := by
    intro cls
    induction cls with
    | nil => intro rt _ _ hq; exact ⟨rt, rfl, hq⟩
    | cons cl cls ih =>
      intro rt hi hid hq
      have hid' : rt.mgr.currentClId ≠ 0xFFFFFFFF ∨ r.app.overflow = .wrapping := by
        rcases hid with h | h
        · left
          intro h0
          rw [h0] at h
          simp only [List.length_cons] at h
          have : (0xFFFFFFFF : UInt32).toNat = 4294967295 := rfl
          omega
        · exact .inr h
      obtain ⟨⟨rt1, e⟩, hone⟩ := C52_no_panic_partial g hg ha hn
        (r.app.withSim (resimCallback r.app.plan r.sinkOut cl.msgs)) hp hdecl T
        (hC _ (fun _ _ _ => Nat.le_refl _) (fun t ins out s => by
          unfold resimCallback; simp only; split <;> exact Nat.le_refl _)) (hK _) hlog
        { rt with w := { rt.w with st := r.setClock cl.msgs rt.w.st } } hi hid'
      obtain ⟨rfl, hq1⟩ := iteration_tolerant (hT _) hone hq
      obtain ⟨hi1, _, t, ht1, hpool⟩ := iteration_pool (k := r.app.plan.length) _
        { rt with w := { rt.w with st := r.setClock cl.msgs rt.w.st } } hi hone
      rcases hpool with ⟨_, _, _, _, ev, hev, hst⟩ | ⟨hnid, _⟩
      · rw [hq1 ev (by rw [ht1]; simp [hev])] at hst; cases hst
      have hid1 : rt1.mgr.currentClId.toNat + cls.length < 2 ^ 32 ∨ r.app.overflow = .wrapping := by
        rcases hid with h | h
        · left
          rw [hnid, UInt32.toNat_add]
          simp only [List.length_cons, UInt32.toNat_ofNat] at h ⊢
          omega
        · exact .inr h
      obtain ⟨rt', h1, h2⟩ := ih rt1 hi1 hid1 hq1
      refine ⟨rt', ?_, h2⟩
      unfold replayLoop replayOne
      rw [hone]
      exact h1
  unfold replay
  obtain ⟨c, hc1, hc2⟩ := lifeAll_trace (r.app.withSim (defaultCallback r.app.plan)).env .start
    (List.range (r.app.withSim (defaultCallback (σ := σ) (P := P) r.app.plan)).tasks) rt.w
  have hf1 := lifeAll_tolerant (hT (defaultCallback r.app.plan)) .start
    (List.range (r.app.withSim (defaultCallback (σ := σ) (P := P) r.app.plan)).tasks) rt.w
  unfold startAll
  generalize lifeAll (r.app.withSim (defaultCallback r.app.plan)).env .start
    (List.range (r.app.withSim (defaultCallback (σ := σ) (P := P) r.app.plan)).tasks) rt.w = q at hc1 hc2 hf1 ⊢
  obtain ⟨w1, f⟩ := q
  simp only at hf1
  subst hf1
  simp only at hc1 hc2 ⊢
  rw [(hT (defaultCallback r.app.plan)).monStart]
  simp only
  refine hloop cls _ hi hid ?_
  intro ev hev
  simp only [World.emit, List.mem_append, List.mem_singleton, hc1, hfresh, List.nil_append] at hev
  rcases hev with hev | rfl
  · exact hc2.stops.2 rfl ev hev
  · rfl

/-- Tasks declared in call order, or in any order that is its own inverse: the accessors used by the
replay read the right messages. -/
theorem C58_declared_in_order (plan : List Step) (h : SelfInverse (callOrder plan)) :
    SourcesReadable plan := by
  intro k s hk _
  exact h k s.nodeId (by simp [callOrder, hk])

/-! ### A recorded run and its replay -/

/-- State: the clock, and the sum kept by task 1.  The source reads an unpredictable value off the
clock.  Task 1 adds what it gets to its sum, counts its own preprocess calls in it, publishes the
sum, and fails when the sum is a multiple of 5. -/
def sumEnv (ticks : Nat) : Env (Nat × Nat) Nat where
  now s := ((s.1 + ticks, s.2), ⟨UInt64.ofNat (min s.1 18446744073709551614)⟩)
  life ph tid s := if tid = 1 ∧ ph = .preprocess then ((s.1, s.2 + 1), none) else (s, none)
  source tid out s := (s, out.setPayload (100 * tid + 7 * s.1), none)
  regular tid ins out s :=
    let sum := s.2 + (ins.map (fun m => m.payload.getD 0)).sum
    if tid = 1 then ((s.1, sum), out.setPayload sum, if sum % 5 = 0 then some "bad sum" else none)
    else (s, out, none)
  sink _ _ s := (s, none)
  onError _ _ _ s := (s, .ignore)
  monCL _ s := (s, none)
  monStart s := (s, none)
  monStop s := (s, none)
  log := some (fun s _ => .ok s)
  sim := none

/-- Task 1, as code of its own. -/
def sumCode : TaskCode Nat Nat where
  life ph t m := if t = 1 ∧ ph = .preprocess then m + 1 else m
  process t ins out m :=
    let sum := m + (ins.map (fun c => c.payload.getD 0)).sum
    if t = 1 then (sum, { out with payload := some sum }, decide (sum % 5 = 0)) else (m, out, false)

/-- The memory of task 1 is the sum; the others have none. -/
def sumMem (s : Nat × Nat) (t : Nat) : Nat := if t = 1 then s.2 else 0

def sumApp : App (Nat × Nat) Nat := ⟨3, demoPlan, sumEnv 3, .checked⟩

/-- The replay: the clock is a mock, set to the recorded start time of the first message. -/
def sumReplayer : Replayer (Nat × Nat) Nat where
  app := ⟨3, demoPlan, sumEnv 0, .checked⟩
  sinkOut _ _ out := out
  setClock msgs s := ((msgs[0]?.bind (fun m => m.md.processTime.start.toOption)).elim 0 (·.ns.toNat), s.2)

theorem sum_plays (ticks : Nat) : Plays demoPlan sumCode sumMem (sumEnv ticks) := by
  have hreg : ∀ t, IsRegular demoPlan t ↔ t = 1 := by
    intro t
    simp [IsRegular, demoPlan, eq_comm]
  refine ⟨?_, ?_, ?_, ?_, ?_, ?_, ?_, ?_, ?_, ?_⟩
  · intro ph t s ht
    rw [hreg] at ht
    subst ht
    funext u
    by_cases hp : ph = .preprocess <;> by_cases hu : u = 1 <;> simp [sumEnv, sumMem, sumCode, setAt, hp, hu]
  · intro t ins out s
    have hsum : (ins.map (fun m => m.payload.getD 0)).sum =
        ((ins.map Msg.content).map (fun c => c.payload.getD 0)).sum := by
      rw [List.map_map]; rfl
    by_cases ht : t = 1
    · subst ht
      simp only [sumEnv, sumCode, if_true, hsum, sumMem]
      refine ⟨?_, rfl, ?_⟩
      · funext u; by_cases hu : u = 1 <;> simp [setAt, sumMem, hu]
      · split <;> simp_all
    · simp only [sumEnv, sumCode, if_neg ht, sumMem]
      refine ⟨?_, trivial, rfl⟩
      funext u
      by_cases hu : u = t
      · subst hu; simp [setAt, sumMem, ht]
      · simp [setAt, hu, sumMem]
  · intro ph t s ht
    rw [hreg] at ht
    simp [sumEnv, ht]
  · intro s; rfl
  · intro _ _ _; rfl
  · intro _ _ _; rfl
  · intro _ _ _ _; rfl
  · intro _ _; rfl
  · intro _; rfl
  · intro f hf s cl s' h
    simp only [sumEnv, Option.some.injEq] at hf
    subst hf
    simp only [Rs.ok.injEq] at h
    rw [h]

def sumStart (clock : Nat) : Rt (Nat × Nat) Nat :=
  ⟨⟨(clock, 0), []⟩, Manager.new 2 [Msg.new none, Msg.new none, Msg.new none]⟩

def getRt {α : Type} (d : α) : Rs α → α
  | .ok a => a
  | .panic => d

def sumRecorded : Rt (Nat × Nat) Nat := getRt (sumStart 0) (record sumApp 4 (sumStart 40))
def sumReplayed : Rt (Nat × Nat) Nat :=
  getRt (sumStart 0) (replay sumReplayer (loggedLists sumRecorded.w.trace) (sumStart 0))

/-- Four iterations are recorded, in one of which the task fails, and replayed with another clock. -/
example :
    record sumApp 4 (sumStart 40) = .ok sumRecorded ∧
    replay sumReplayer (loggedLists sumRecorded.w.trace) (sumStart 0) = .ok sumReplayed ∧
    (∀ ev ∈ sumRecorded.w.trace, ev.stops = false) ∧ (∀ ev ∈ sumReplayed.w.trace, ev.stops = false) ∧
    (loggedLists sumRecorded.w.trace).map (fun cl => cl.msgs.map Msg.payload) =
      [[some 301, some 302, none], [some 427, none, none], [some 553, some 1284, none],
        [some 679, some 1964, none]] ∧
    sumRecorded.w.st.2 = sumReplayed.w.st.2 ∧
    loggedLists sumRecorded.w.trace ≠ loggedLists sumReplayed.w.trace := by
  refine ⟨?_, ?_, ?_, ?_, ?_, ?_, ?_⟩ <;> decide +kernel

/-- That run meets all the hypotheses of `C58_replay_partial`. -/
example : Pointwise (SameList demoPlan) (loggedLists sumRecorded.w.trace)
    (loggedLists sumReplayed.w.trace) := by
  have hpool : ∀ a b, SamePool demoPlan (sumStart a).mgr (sumStart b).mgr := by
    intro a b
    have hidle : Idle demoPlan.length (Manager.new 2 [Msg.new (none : Option Nat), Msg.new none, Msg.new none]) :=
      ⟨rfl, rfl, by decide, by decide, by decide⟩
    refine ⟨hidle, hidle, rfl, ?_⟩
    intro c c' hc hc' k s _ _
    have : (sumStart a).mgr = (sumStart b).mgr := rfl
    rw [this, hc'] at hc
    cases hc
    rfl
  refine (C58_replay_partial demoGraph (by decide) sumApp sumReplayer (by decide +kernel)
    (C58_declared_in_order _ ?_) rfl rfl sumCode sumMem (sum_plays 3) ?_ sumMem (sum_plays 0) ?_ rfl rfl
    (sumStart 40) sumRecorded (sumStart 0) sumReplayed rfl rfl (hpool _ _) ?_ 4 (by decide +kernel)
    (by decide +kernel) (by decide +kernel) (by decide +kernel)).2.1
  · intro k t h
    have hk : k < 3 := (List.getElem?_eq_some_iff.1 h).1
    match k, hk with
    | 0, _ | 1, _ | 2, _ => simp [callOrder, sumApp, demoPlan] at h; subst h; rfl
  · intro sim h; cases h
  · intro msgs s; rfl
  · intro t _; rfl

/-- Any recorded lists can be replayed by that application. -/
example (cls : List (CL (List (Msg Nat)))) (h : cls.length < 2 ^ 32) :
    ∃ rt', replay sumReplayer cls (sumStart 0) = .ok rt' ∧ ∀ ev ∈ rt'.w.trace, ev.stops = false := by
  refine C58_completes demoGraph (by decide) ?_ (by decide) sumReplayer (by decide +kernel)
    (.inl (by unfold ProducersFirst; decide)) (fun s => min s.1 18446744073709551614) ?_ ?_ ?_ ?_ cls _ rfl
    ⟨rfl, rfl, by decide, by decide, by decide⟩ (.inl ?_)
  · exact ⟨id, by decide⟩
  · refine ⟨?_, ?_, ?_, ?_, ?_, ?_, ?_, ?_, ?_, ?_, ?_, ?_⟩
    · intro s
      have hlt : min s.1 18446744073709551614 < 2 ^ 64 := by omega
      have hmod : (UInt64.ofNat (min s.1 18446744073709551614)).toNat =
          min s.1 18446744073709551614 := by
        rw [UInt64.toNat_ofNat', Nat.mod_eq_of_lt hlt]
      refine ⟨?_, ?_, ?_⟩
      · simp only [sumReplayer, sumEnv]; rw [hmod]; exact Nat.le_refl _
      · simp only [sumReplayer, sumEnv, Nat.add_zero]; rw [hmod]; exact Nat.le_refl _
      · simp only [sumReplayer, sumEnv]
        intro h0
        have := congrArg UInt64.toNat h0
        rw [hmod] at this
        have h1 : NONE_VALUE.toNat = 18446744073709551615 := by decide +kernel
        rw [h1] at this
        generalize hz : s.1 = z at this
        omega
    · intro ph tid s
      simp only [sumReplayer, sumEnv]
      split <;> exact Nat.le_refl _
    · intro _ _ _; exact Nat.le_refl _
    · intro tid ins out s
      simp only [sumReplayer, sumEnv]
      split <;> exact Nat.le_refl _
    · intro _ _ _; exact Nat.le_refl _
    · intro _ _ _ _; exact Nat.le_refl _
    · intro _ _; exact Nat.le_refl _
    · intro _; exact Nat.le_refl _
    · intro _; exact Nat.le_refl _
    · intro f hf s cl s' h
      simp only [sumReplayer, sumEnv, Option.some.injEq] at hf
      subst hf
      simp only [Rs.ok.injEq] at h
      rw [h]; exact Nat.le_refl _
    · intro _ h; cases h
    · intro _ h; cases h
  · refine ⟨fun _ _ _ => rfl, ?_⟩
    intro tid ins out s
    simp only [sumReplayer, sumEnv]
    split <;> rfl
  · intro f hf s cl
    simp only [sumReplayer, sumEnv, Option.some.injEq] at hf
    subst hf
    exact ⟨_, rfl⟩
  · exact ⟨fun _ _ _ _ => rfl, fun _ _ => rfl, fun _ => rfl⟩
  · simpa [sumStart, Manager.new] using h

/-! ### Where it fails -/

/-- The tasks of the demo application have no memory. -/
def demoCode : TaskCode Nat Unit where
  life _ _ _ := ()
  process t ins out _ :=
    ((), { out with payload := some (1000 * t + (ins.map (fun c => c.payload.getD 0)).sum) }, false)

/-- The logged demo application of C23 is of this kind: its log can be replayed. -/
example : Plays demoPlan demoCode (fun _ _ => ()) demoLogged.env ∧
    record demoLogged 2 demoLoggedStart = .ok demoLoggedEnd := by
  refine ⟨⟨fun _ _ _ _ => rfl, ?_, fun _ _ _ _ => rfl, fun _ => rfl, fun _ _ _ => rfl,
      fun _ _ _ => rfl, fun _ _ _ _ => rfl, fun _ _ => rfl, fun _ => rfl, fun _ _ _ _ _ _ => rfl⟩,
    by rfl⟩
  intro t ins out s
  refine ⟨rfl, ?_, rfl⟩
  have hsum : (ins.map (fun m => m.payload.getD 0)).sum =
      ((ins.map Msg.content).map (fun c => c.payload.getD 0)).sum := by
    rw [List.map_map]; rfl
  simp only [demoCode, ← hsum]
  rfl

def rotatedReplayer : Replayer Nat Nat where
  app := rotatedApp .wrapping
  sinkOut _ _ out := out
  setClock _ s := s

def rotatedRecorded : Rt Nat Nat := getRt demoStart (record (rotatedApp .wrapping) 1 demoStart)
def rotatedReplayed : Rt Nat Nat :=
  getRt demoStart (replay rotatedReplayer (loggedLists rotatedRecorded.w.trace) demoStart)

/-- With the tasks declared in another order, the accessor of the source reads the message of the
sink: the replay of a recorded run feeds the task with that and produces other messages, although
nothing fails and the task is the same code in both runs. -/
theorem C58_violated_accessor :
    rotatedGraph.WF ∧ computePlan rotatedGraph = .ok (some rotatedPlan) ∧
    Plays rotatedPlan demoCode (fun _ _ => ()) (rotatedApp .wrapping).env ∧
    record (rotatedApp .wrapping) 1 demoStart = .ok rotatedRecorded ∧
    replay rotatedReplayer (loggedLists rotatedRecorded.w.trace) demoStart = .ok rotatedReplayed ∧
    (∀ ev ∈ rotatedRecorded.w.trace, ev.failed = false) ∧
    (∀ ev ∈ rotatedReplayed.w.trace, ev.failed = false) ∧
    (loggedLists rotatedRecorded.w.trace).map (fun cl => cl.msgs.map Msg.payload) =
      [[some 106, some 2106, none]] ∧
    (loggedLists rotatedReplayed.w.trace).map (fun cl => cl.msgs.map Msg.payload) =
      [[none, some 2000, none]] := by
  refine ⟨by decide, ?_, ?_, ?_, ?_, ?_, ?_, ?_, ?_⟩
  case refine_2 =>
    refine ⟨fun _ _ _ _ => rfl, ?_, fun _ _ _ _ => rfl, fun _ => rfl, fun _ _ _ => rfl,
      fun _ _ _ => rfl, fun _ _ _ _ => rfl, fun _ _ => rfl, fun _ => rfl, fun _ _ _ _ _ _ => rfl⟩
    intro t ins out s
    refine ⟨rfl, ?_, rfl⟩
    have hsum : (ins.map (fun m => m.payload.getD 0)).sum =
        ((ins.map Msg.content).map (fun c => c.payload.getD 0)).sum := by
      rw [List.map_map]; rfl
    simp only [demoCode, ← hsum]
    rfl
  all_goals decide +kernel

/-- A task that publishes what it reads on the clock. -/
def clockEnv (ticks : Nat) : Env (Nat × Nat) Nat :=
  { sumEnv ticks with regular := fun _ _ out s => (s, out.setPayload s.1, none) }

def clockApp : App (Nat × Nat) Nat := ⟨3, demoPlan, clockEnv 3, .checked⟩
def clockReplayer : Replayer (Nat × Nat) Nat :=
  { sumReplayer with app := ⟨3, demoPlan, clockEnv 0, .checked⟩ }

def clockRecorded : Rt (Nat × Nat) Nat := getRt (sumStart 0) (record clockApp 2 (sumStart 40))
def clockReplayed : Rt (Nat × Nat) Nat :=
  getRt (sumStart 0) (replay clockReplayer (loggedLists clockRecorded.w.trace) (sumStart 0))

/-- The replay sets the mock clock once per list, to the recorded time of the source, so a task that
reads the clock sees another time than it did when recorded. -/
theorem C58_violated_clock :
    SourcesReadable demoPlan ∧
    record clockApp 2 (sumStart 40) = .ok clockRecorded ∧
    replay clockReplayer (loggedLists clockRecorded.w.trace) (sumStart 0) = .ok clockReplayed ∧
    (∀ ev ∈ clockRecorded.w.trace, ev.failed = false) ∧
    (∀ ev ∈ clockReplayed.w.trace, ev.failed = false) ∧
    (loggedLists clockRecorded.w.trace).map (fun cl => cl.msgs.map Msg.payload) =
      [[some 301, some 49, none], [some 427, some 67, none]] ∧
    (loggedLists clockReplayed.w.trace).map (fun cl => cl.msgs.map Msg.payload) =
      [[some 301, some 40, none], [some 427, some 58, none]] := by
  refine ⟨?_, ?_, ?_, ?_, ?_, ?_, ?_⟩
  · intro k s h hs
    have hk : k < 3 := (List.getElem?_eq_some_iff.1 h).1
    match k, hk with
    | 0, _ | 1, _ | 2, _ => simp [demoPlan] at h; subst h; first | rfl | cases hs
  all_goals decide +kernel

/-! ### Runs that are shut down, and iterations that are aborted -/

/-- Task 2, the sink, is not ready once the clock has reached 58 but not yet 62; the monitor answers
its failures with `d`. -/
def sinkEnv (d : Decision) : Env (Nat × Nat) Nat :=
  { sumEnv 3 with
    life := fun ph tid s =>
      if tid = 2 ∧ ph = .preprocess ∧ 58 ≤ s.1 ∧ s.1 < 62 then ((s.1 + 2, s.2), some "not ready")
      else (sumEnv 3).life ph tid s
    onError := fun _ _ _ s => (s, d) }

def sinkApp (d : Decision) : App (Nat × Nat) Nat := ⟨3, demoPlan, sinkEnv d, .checked⟩

def sinkRecorded (d : Decision) (n : Nat) : Rt (Nat × Nat) Nat := getRt (sumStart 0) (record (sinkApp d) n (sumStart 40))
def sinkReplayed (d : Decision) (n : Nat) : Rt (Nat × Nat) Nat :=
  getRt (sumStart 0) (replay sumReplayer (loggedLists (sinkRecorded d n).w.trace) (sumStart 0))

theorem sink_plays (d : Decision) : Plays demoPlan sumCode sumMem (sinkEnv d) := by
  have h := sum_plays 3
  have hreg : ∀ t, IsRegular demoPlan t ↔ t = 1 := by
    intro t
    simp [IsRegular, demoPlan, eq_comm]
  refine ⟨?_, h.regular, ?_, h.now, h.source, h.sink, ?_, h.monCL, h.monStart, h.log⟩
  · intro ph t s ht
    have ht' := (hreg t).1 ht
    subst ht'
    exact h.life ph 1 s ht
  · intro ph t s ht
    simp only [sinkEnv]
    split
    · rfl
    · exact h.lifeOther ph t s ht
  · intro _ _ _ _; rfl

theorem sum_pool (a b : Nat) : SamePool demoPlan (sumStart a).mgr (sumStart b).mgr := by
  have hidle : Idle demoPlan.length (Manager.new 2 [Msg.new (none : Option Nat), Msg.new none, Msg.new none]) :=
    ⟨rfl, rfl, by decide, by decide, by decide⟩
  refine ⟨hidle, hidle, rfl, ?_⟩
  intro c c' hc hc' k s _ _
  have : (sumStart a).mgr = (sumStart b).mgr := rfl
  rw [this, hc'] at hc
  cases hc
  rfl

theorem demo_readable : SourcesReadable demoPlan := by
  intro k s h hs
  have hk : k < 3 := (List.getElem?_eq_some_iff.1 h).1
  match k, hk with
  | 0, _ | 1, _ | 2, _ => simp [demoPlan] at h; subst h; first | rfl | cases hs

/-- A decision of the monitor in the postprocess phase. -/
def Ev.isPost : Ev P → Bool
  | .decided .postprocess _ _ _ => true
  | _ => false

def sinkEnded : Rt (Nat × Nat) Nat :=
  match run (sinkApp .shutdown) 2 (sumStart 40) with
  | .ok (rt, _) => rt
  | .panic => sumStart 0

/-- A run shut down in its second iteration meets the hypotheses of `C58_ended_partial`; task 1 has
been called once more than in the replay. -/
example : (loggedLists sinkEnded.w.trace).map (fun cl => cl.msgs.map Msg.payload) = [[some 301, some 302, none]] ∧
    Pointwise (SameList demoPlan) (loggedLists sinkEnded.w.trace) (loggedLists (sinkReplayed .shutdown 1).w.trace) ∧
    (∀ u e, Ev.decided .postprocess u e .shutdown ∉ sinkEnded.w.trace) ∧
    sinkEnded.w.st.2 = 303 ∧ (sinkReplayed .shutdown 1).w.st.2 = 302 := by
  refine ⟨by decide +kernel, ?_, ?_, by decide +kernel, by decide +kernel⟩
  · exact (C58_ended_partial demoGraph (by decide) (sinkApp .shutdown) sumReplayer (by decide +kernel)
      demo_readable rfl rfl sumCode sumMem (sink_plays _) (fun _ h => nomatch h) sumMem (sum_plays 0) (fun _ _ => rfl)
      rfl rfl (sumStart 40) (sinkRecorded .shutdown 1) sinkEnded (sumStart 0) (sinkReplayed .shutdown 1) rfl rfl
      (sum_pool _ _) (fun _ _ => rfl) 1 "not ready" (by decide +kernel) (by decide +kernel) (by decide +kernel)
      (by decide +kernel) (by decide +kernel)).2.1
  · intro t e h
    have : ∀ ev ∈ sinkEnded.w.trace, ev.isPost = false := by decide +kernel
    exact nomatch this _ h

/-- A sink that fails in its second postprocess call, which makes the monitor shut the application down. -/
def lateEnv : Env (Nat × Nat) Nat :=
  { sumEnv 3 with
    life := fun ph tid s =>
      if tid = 2 ∧ ph = .postprocess ∧ 60 < s.1 then (s, some "too late") else (sumEnv 3).life ph tid s
    onError := fun ph _ _ s => (s, if ph = .postprocess then .shutdown else .ignore) }

def lateApp : App (Nat × Nat) Nat := ⟨3, demoPlan, lateEnv, .checked⟩
def lateRecorded : Rt (Nat × Nat) Nat := getRt (sumStart 0) (record lateApp 1 (sumStart 40))
def lateEnded : Rt (Nat × Nat) Nat := (getRt (sumStart 0, .running) (run lateApp 2 (sumStart 40))).1
def lateReplayed : Rt (Nat × Nat) Nat :=
  getRt (sumStart 0) (replay sumReplayer (loggedLists lateEnded.w.trace) (sumStart 0))

theorem late_plays : Plays demoPlan sumCode sumMem lateEnv := by
  have h := sum_plays 3
  have hreg : ∀ t, IsRegular demoPlan t ↔ t = 1 := by
    intro t
    simp [IsRegular, demoPlan, eq_comm]
  refine ⟨?_, h.regular, ?_, h.now, h.source, h.sink, ?_, h.monCL, h.monStart, h.log⟩
  · intro ph t s ht
    have ht' := (hreg t).1 ht
    subst ht'
    exact h.life ph 1 s ht
  · intro ph t s ht
    simp only [lateEnv]
    split
    · rfl
    · exact h.lifeOther ph t s ht
  · intro _ _ _ _; rfl

/-- That run too: the list of the iteration in which it was shut down is in the log, and is replayed. -/
example : (loggedLists lateEnded.w.trace).map (fun cl => cl.msgs.map Msg.payload) =
      [[some 301, some 302, none], [some 427, none, none]] ∧
    Pointwise (SameList demoPlan) (loggedLists lateEnded.w.trace) (loggedLists lateReplayed.w.trace) := by
  refine ⟨by decide +kernel, ?_⟩
  exact (C58_ended_partial demoGraph (by decide) lateApp sumReplayer (by decide +kernel)
    demo_readable rfl rfl sumCode sumMem late_plays (fun _ h => nomatch h) sumMem (sum_plays 0) (fun _ _ => rfl)
    rfl rfl (sumStart 40) lateRecorded lateEnded (sumStart 0) lateReplayed rfl rfl
    (sum_pool _ _) (fun _ _ => rfl) 1 "too late" (by decide +kernel) (by decide +kernel) (by decide +kernel)
    (by decide +kernel) (by decide +kernel)).2.1

/-- The monitor has two iterations aborted because the sink is not ready for them: no list is
logged, but the tasks before the sink had their preprocess calls.  The replay, with as many
iterations as there are lists, does not have them, and gives other sums from there on. -/
theorem C58_violated_abort :
    SourcesReadable demoPlan ∧ Plays demoPlan sumCode sumMem (sinkApp .abort).env ∧
    Plays demoPlan sumCode sumMem sumReplayer.app.env ∧
    record (sinkApp .abort) 4 (sumStart 40) = .ok (sinkRecorded .abort 4) ∧
    replay sumReplayer (loggedLists (sinkRecorded .abort 4).w.trace) (sumStart 0) = .ok (sinkReplayed .abort 4) ∧
    (∀ ev ∈ (sinkReplayed .abort 4).w.trace, ev.failed = false) ∧
    (loggedLists (sinkRecorded .abort 4).w.trace).map (fun cl => cl.msgs.map Msg.payload) =
      [[some 301, some 302, none], [some 455, some 760, none]] ∧
    (loggedLists (sinkReplayed .abort 4).w.trace).map (fun cl => cl.msgs.map Msg.payload) =
      [[some 301, some 302, none], [some 455, some 758, none]] := by
  refine ⟨demo_readable, sink_plays _, sum_plays 0, ?_, ?_, ?_, ?_, ?_⟩ <;> decide +kernel

def sumAgain : Rt (Nat × Nat) Nat :=
  getRt (sumStart 0) (replay { sumReplayer with app := sumApp } (loggedLists sumReplayed.w.trace) (sumStart 7))

/-- The replay of the four lists of `sumRecorded`, replayed in its turn with a running clock, meets
the hypotheses of `C58_again_partial` and of `C58_deterministic_partial`. -/
example : (loggedLists sumReplayed.w.trace).length = 4 ∧
    Pointwise (SameList demoPlan) (loggedLists sumReplayed.w.trace) (loggedLists sumAgain.w.trace) ∧
    loggedLists sumReplayed.w.trace ≠ loggedLists sumAgain.w.trace := by
  have h := C58_again_partial demoGraph (by decide) sumReplayer { sumReplayer with app := sumApp } (by decide +kernel)
    demo_readable rfl rfl sumCode sumMem (sum_plays 0) sumMem (sum_plays 3) (fun _ _ => rfl) (fun _ _ => rfl)
    rfl rfl (sumStart 0) sumReplayed (sumStart 7) sumAgain rfl rfl (sum_pool _ _) (fun _ _ => rfl)
    (loggedLists sumRecorded.w.trace) (by decide +kernel) (by decide +kernel) (by decide +kernel) (by decide +kernel)
    (by decide +kernel)
  exact ⟨by decide +kernel, h.2.1, by decide +kernel⟩

end Runtime
end Verif
