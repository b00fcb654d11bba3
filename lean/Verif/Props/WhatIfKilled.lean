import Verif.Props.WhatIf
import Verif.Props.KilledReplay
import Verif.Props.PowerReplay
/-!
C123, after a crash: replaying with changed tasks the log of a robot that was killed or lost power.
-/
namespace Verif
namespace Dataflow
open Clock CopperList Planner Verif.Runtime
variable {σ σ' S P Q : Type}

/-- `C123_changed_partial` from the start of the robot and of the replay. -/
theorem changed_of_record {read : Msg P → Option Q} (hr : IgnoresTimes read) {g : Graph} (hg : g.WF) (ha : g.Acyclic)
    (hpar : g.NoParallel) (hty : g.ConsistentTypes) {robot : App σ P} {r : Replayer σ' P}
    (hp : computePlan g = .ok (some robot.plan)) (hplan : r.app.plan = robot.plan) (hacc : SourcesReadable robot.plan)
    {view : σ → Nat → S} {view' : σ' → Nat → S} {m m' : Tasks S Q} (hi : Drives read robot.env robot.plan view m)
    (hb : Rebuilt read r view' m') {changed : Nat → Prop}
    (hm : ∀ t, Inner g t → ¬ changed t → m'.init t = m.init t ∧ m'.next t = m.next t)
    (hlog : robot.env.log.isSome = true) (hlog' : r.app.env.log.isSome = true)
    {rt rt1 : Rt σ P} {rt' rt1' : Rt σ' P} (hfresh : rt.w.trace = [])
    (hfresh' : rt'.w.trace = []) (hidle : Idle robot.plan.length rt.mgr) (hidle' : Idle robot.plan.length rt'.mgr)
    (hinit : ∀ t < g.nodes, view (startAll robot rt).1.w.st t = m.init t)
    (hinit' : ∀ t, Inner g t →
      view' (startAll (r.app.withSim (defaultCallback r.app.plan)) rt').1.w.st t = m'.init t)
    {n : Nat} (h : record robot n rt = .ok rt1) (hrep : replay r (loggedLists rt1.w.trace) rt' = .ok rt1') :
    (∀ t, Inner g t → ¬ Behind g changed t → view' rt1'.w.st t = view rt1.w.st t) ∧
    (loggedLists rt1.w.trace).length = n ∧
    Pointwise (fun cl cl' => ∀ e ∈ g.edges, ¬ Behind g changed e.src →
        sentBy read robot.plan e.src cl = sentBy read robot.plan e.src cl')
      (loggedLists rt1.w.trace) (loggedLists rt1'.w.trace) := by
  have hq := startAll_quiet robot rt
  have hg1 := startAll_mgr robot rt
  have hrun : runLoop robot n (startAll robot rt).1 = .ok (rt1, none) := by
    unfold record at h
    generalize startAll robot rt = q at h ⊢
    obtain ⟨rta, e⟩ := q
    cases e with
    | some e => cases h
    | none =>
      simp only at h ⊢
      split at h
      · rename_i rtb hb
        simp only [Rs.ok.injEq] at h
        subst h
        exact hb
      · cases h
  have hq' := startAll_quiet (r.app.withSim (defaultCallback r.app.plan)) rt'
  have hg2 := startAll_mgr (r.app.withSim (defaultCallback r.app.plan)) rt'
  have hloop : replayLoop r (loggedLists rt1.w.trace) (startAll (r.app.withSim (defaultCallback r.app.plan)) rt').1 =
      .ok rt1' := by
    unfold replay at hrep
    generalize startAll (r.app.withSim (defaultCallback r.app.plan)) rt' = q at hrep ⊢
    obtain ⟨rta, e⟩ := q
    cases e with
    | some e => cases hrep
    | none => exact hrep
  have none : ∀ {τ : Type} {a b : Rt τ P}, (∃ t, b.w.trace = a.w.trace ++ t ∧ loggedLists t = []) → a.w.trace = [] →
      loggedLists b.w.trace = [] := by
    rintro τ a b ⟨t, e1, e2⟩ e3
    rw [e1, e3, List.nil_append, e2]
  exact C123_changed_partial hr hg ha hpar hty hp hplan hacc hi hb hm hlog hlog' (none hq hfresh) (none hq' hfresh')
    (hg1 ▸ hidle) (hg2 ▸ hidle') hinit hinit' hrun hloop

/-- The robot runs and its process is killed at any instant: `done` of the operations on its log were made, and the
kill falls anywhere in the next one, `op`.  What is left of the files is read as a stream of copper lists, with any
buffer sizes, until the reader stops delivering, in whatever way, and the lists found are replayed by an application
some of whose tasks were changed.

The lists found are those of the first turns of the run.  In each of these every task that is not behind a changed one
sends what it sent on the robot, and it ends in the state it had on the robot after exactly these turns.

Missing: as in `C123_replay_partial`; iterations that a monitor has aborted. -/
theorem C123_killed_partial {page slabSize : Nat} (hz : ULog.SizesOk page slabSize) (h256 : 256 ∣ page)
    (hist : σ → List ULog.LogOp) (strm : Nat) (slots : List (Bincode.Codec P)) (pieces : CL (List (Msg P)) → List Bytes)
    {read : Msg P → Option Q} (hr : IgnoresTimes read) {g : Graph} (hg : g.WF) (ha : g.Acyclic)
    (hpar : g.NoParallel) (hty : g.ConsistentTypes) {robot : App σ P} {r : Replayer σ' P}
    (hl : LogsTo robot.env hist strm pieces) (hpieces : ∀ cl, (pieces cl).flatten = (Wire.clCodec slots).enc cl)
    (hslots : ∀ c ∈ slots, Dec.Sequential c.dec)
    (hp : computePlan g = .ok (some robot.plan)) (hplan : r.app.plan = robot.plan) (hacc : SourcesReadable robot.plan)
    {view : σ → Nat → S} {view' : σ' → Nat → S} {m m' : Tasks S Q} (hi : Drives read robot.env robot.plan view m)
    (hb : Rebuilt read r view' m') {changed : Nat → Prop}
    (hm : ∀ t, Inner g t → ¬ changed t → m'.init t = m.init t ∧ m'.next t = m.next t)
    (hlog' : r.app.env.log.isSome = true) {rt rt1 rt2 : Rt σ P} {rt' : Rt σ' P} (hfresh : rt.w.trace = [])
    (hfresh' : rt'.w.trace = []) (hidle : Idle robot.plan.length rt.mgr) (hidle' : Idle robot.plan.length rt'.mgr)
    (hinit : ∀ t < g.nodes, view (startAll robot rt).1.w.st t = m.init t)
    (hinit' : ∀ t, Inner g t →
      view' (startAll (r.app.withSim (defaultCallback r.app.plan)) rt').1.w.st t = m'.init t)
    (h0 : StreamReady strm [] (hist rt.w.st)) {k n : Nat} (hk : record robot k rt = .ok rt1)
    (hq : ∀ ev ∈ rt1.w.trace, ev.stops = false) (hkn : k ≤ n) {res : RunResult} (hrun : run robot n rt = .ok (rt2, res))
    (hops : ULog.HistoryOk page slabSize [] (hist rt2.w.st))
    (htyped : ∀ cl ∈ loggedLists rt2.w.trace, Typed slots cl)
    {done rest : List ULog.LogOp} {op : ULog.LogOp} (hc : hist rt2.w.st = hist rt.w.st ++ done ++ op :: rest)
    (hcover : logCalls strm done ≤ k) :
    ∃ s, ULog.runLog slabSize page (hist rt.w.st ++ done) = .ok s ∧
      ∀ files', ULog.KilledDuring s.lg.files (s.effects op) files' →
        ∃ kept rtk, kept <+: loggedLists rt2.w.trace ∧ kept.length ≤ logCalls strm done ∧
          record robot kept.length rt = .ok rtk ∧ loggedLists rtk.w.trace = kept ∧
          ∀ ns : List Nat, (∀ b ∈ ns, 0 < b) → (ULog.drainLog files' .copperList ns).2 ≠ .more →
            @dumpObjects _ (Wire.clCodec slots) (ULog.drainLog files' .copperList ns).1 = kept ∧
            ∀ rt1', replay r kept rt' = .ok rt1' →
              (∀ t, Inner g t → ¬ Behind g changed t → view' rt1'.w.st t = view rtk.w.st t) ∧
              Pointwise (fun cl cl' => ∀ e ∈ g.edges, ¬ Behind g changed e.src →
                  sentBy read robot.plan e.src cl = sentBy read robot.plan e.src cl')
                kept (loggedLists rt1'.w.trace) := by
  have hlog : robot.env.log.isSome = true := by obtain ⟨f, hf, _⟩ := hl.log; rw [hf]; rfl
  obtain ⟨t, s, ht, hs, hkill⟩ := C94_safe hz h256 robot hist strm slots pieces hl hpieces hslots n rt rt2 res h0 hrun
    hops htyped done rest op hc
  rw [hfresh, List.nil_append] at ht
  refine ⟨s, hs, fun files' hkf => ?_⟩
  obtain ⟨kept, lost, later, hkl, hlen, hread⟩ := hkill files' hkf
  rw [← ht, List.append_assoc] at hkl
  have hpre : kept <+: loggedLists rt2.w.trace := ⟨_, hkl.symm⟩
  have hle : kept.length ≤ logCalls strm done := by rw [← hlen]; simp
  obtain ⟨rtk, h1, h2, h3⟩ := record_take hlog hfresh hidle hk hq hkn hrun hpre (by omega)
  refine ⟨kept, rtk, hpre, hle, h1, h2, fun ns hns hne => ⟨(hread ns hns).1 hne, fun rt1' hrep => ?_⟩⟩
  rw [← h2] at hrep
  obtain ⟨k1, -, k3⟩ := changed_of_record hr hg ha hpar hty hp hplan hacc hi hb hm hlog hlog' hfresh hfresh' hidle hidle'
    hinit hinit' h1 hrep
  rw [h2] at k3
  exact ⟨k1, k3⟩

/-- The robot logs from several threads and the power fails.  When the calls `done` on its log had been made (those for
copper lists had returned), its streams were in certain sections; since then each of them went on to another one, and
all slabs of that moment but the last were released.  At the instant of the failure one thread performs any action and
others encode objects, each anywhere, and the disk has what was flushed and anything else of the rest.

Then all the lists of `done` are found, and a replay of what is found, by an application some of whose tasks were
changed, goes through these turns: in each of them every task that is not behind a changed one sends what it sent on
the robot, and after the last of them it has the state it had then.

Missing: as in `C123_replay_partial` and `C121_power_partial`. -/
theorem C123_power_partial {page slabSize : Nat} (hz : ULog.SizesOk page slabSize)
    (hist : σ → List ULog.LogOp) (strm : Nat) (slots : List (Bincode.Codec P)) (pieces : CL (List (Msg P)) → List Bytes)
    {read : Msg P → Option Q} (hr : IgnoresTimes read) {g : Graph} (hg : g.WF) (ha : g.Acyclic)
    (hpar : g.NoParallel) (hty : g.ConsistentTypes) {robot : App σ P} {r : Replayer σ' P}
    (hl : LogsTo robot.env hist strm pieces) (hpieces : ∀ cl, (pieces cl).flatten = (Wire.clCodec slots).enc cl)
    (hp : computePlan g = .ok (some robot.plan)) (hplan : r.app.plan = robot.plan) (hacc : SourcesReadable robot.plan)
    {view : σ → Nat → S} {view' : σ' → Nat → S} {m m' : Tasks S Q} (hi : Drives read robot.env robot.plan view m)
    (hb : Rebuilt read r view' m') {changed : Nat → Prop}
    (hm : ∀ t, Inner g t → ¬ changed t → m'.init t = m.init t ∧ m'.next t = m.next t)
    (hlog' : r.app.env.log.isSome = true) {rt rt1 rt2 : Rt σ P} {rt' : Rt σ' P} (hfresh : rt.w.trace = [])
    (hfresh' : rt'.w.trace = []) (hidle : Idle robot.plan.length rt.mgr) (hidle' : Idle robot.plan.length rt'.mgr)
    (hinit : ∀ t < g.nodes, view (startAll robot rt).1.w.st t = m.init t)
    (hinit' : ∀ t, Inner g t →
      view' (startAll (r.app.withSim (defaultCallback r.app.plan)) rt').1.w.st t = m'.init t)
    (h0 : StreamReady strm [] (hist rt.w.st)) {k n : Nat} (hk : record robot k rt = .ok rt1)
    (hq : ∀ ev ∈ rt1.w.trace, ev.stops = false) (hkn : k ≤ n) {res : RunResult} (hrun : run robot n rt = .ok (rt2, res))
    (hops : ULog.HistoryOk page slabSize [] (hist rt2.w.st))
    (htyped : ∀ cl ∈ loggedLists rt2.w.trace, Typed slots cl)
    {done : List ULog.LogOp} (hcover : logCalls strm done ≤ k)
    {before after : List ULog.ConcOp} {op : ULog.ConcOp} (hbefore : ULog.calls before = hist rt.w.st ++ done)
    (hin : ULog.Interleaved [] (before ++ after))
    (hcalls : ULog.calls (before ++ after ++ [op]) <+: hist rt2.w.st)
    {c1 c : ULog.ConcSys} {disk disk' files' : List Bytes} (h1 : ULog.runConc slabSize page before = .ok c1)
    (hwait : ∀ (i : Nat) (st : ULog.Stream), c1.sys.streams[i]? = some (some st) → st.entryType = .copperList →
      c1.waiting i = none)
    (h : ULog.PoweredThreads true page slabSize (before ++ after) c disk)
    (hnew : ULog.Renewed c1.sys c.sys) (hold : c1.sys.lg.files.length ≤ c.sys.lg.oldestMapped + 1)
    {others : List (Nat × List Bytes)}
    (hkt : ULog.KilledTogether c.sys.lg.files (c.effects op :: others.map (fun b => c.effects (.begin_ b.1 b.2))) files')
    (hlost : ULog.PowerFailed files' disk disk') :
    ∃ rtk, record robot (logCalls strm done) rt = .ok rtk ∧
      ∀ ns : List Nat, (∀ b ∈ ns, 0 < b) → (ULog.drainLog disk' .copperList ns).2 ≠ .more →
        let found := @dumpObjects _ (Wire.clCodec slots) (ULog.drainLog disk' .copperList ns).1
        loggedLists rtk.w.trace <+: found ∧ (loggedLists rtk.w.trace).length = logCalls strm done ∧
        ∀ rt1', replay r found rt' = .ok rt1' →
          ∃ rtm, replay r (loggedLists rtk.w.trace) rt' = .ok rtm ∧ rtm.w.trace <+: rt1'.w.trace ∧
            (∀ t, Inner g t → ¬ Behind g changed t → view' rtm.w.st t = view rtk.w.st t) ∧
            Pointwise (fun cl cl' => ∀ e ∈ g.edges, ¬ Behind g changed e.src →
                sentBy read robot.plan e.src cl = sentBy read robot.plan e.src cl')
              (loggedLists rtk.w.trace) (loggedLists rtm.w.trace) := by
  have hlog : robot.env.log.isSome = true := by obtain ⟨f, hf, _⟩ := hl.log; rw [hf]; rfl
  obtain ⟨rest, hrest⟩ : ∃ rest, hist rt2.w.st = hist rt.w.st ++ done ++ rest := by
    obtain ⟨x, hx⟩ := hcalls
    rw [ULog.calls_append, ULog.calls_append, hbefore] at hx
    exact ⟨_, by rw [← hx, List.append_assoc, List.append_assoc]⟩
  obtain ⟨t, later, e1, e2, e3, e4, e5, e6⟩ := crash_objs hl h0 hrun hops hrest
  rw [hfresh, List.nil_append] at e1
  subst e1
  have hty' : ∀ cl ∈ (loggedLists rt2.w.trace).take (logCalls strm done), Typed slots cl :=
    fun cl hcl => htyped cl (List.mem_of_mem_take hcl)
  have hpre : (loggedLists rt2.w.trace).take (logCalls strm done) <+: loggedLists rt2.w.trace := ⟨_, e2⟩
  obtain ⟨rtk, k1, k2, -⟩ := record_take hlog hfresh hidle hk hq hkn hrun hpre (by omega)
  rw [e3] at k1
  refine ⟨rtk, k1, fun ns hns hne => ?_⟩
  have hfound := @ULog.C114_export_partial _ (Wire.clCodec slots) _ (fun a ha => Wire.rt_cl (hty' a ha))
    (fun a _ => Wire.cl_pos slots a) page slabSize hz .copperList (by decide) (by decide) before after op hin
    (by obtain ⟨x, hx⟩ := hcalls; rw [← hx] at hops; exact ULog.historyOk_prefix hops)
    (by
      rw [hbefore, e6, List.map_map]
      exact List.map_congr_left (fun cl _ => hpieces cl))
    c1 c disk disk' files' h1 hwait
    (by rw [hbefore]; exact ULog.used_of_never e4 e5 (by simp)) h hnew hold others hkt hlost ns hns hne
  rw [← k2] at hfound
  refine ⟨hfound, by rw [k2, e3], fun rt1' hrep => ?_⟩
  obtain ⟨x, hx⟩ := hfound
  rw [← hx] at hrep
  obtain ⟨rtm, r1, r2⟩ := replay_append hrep
  obtain ⟨r3, -, r4⟩ := changed_of_record hr hg ha hpar hty hp hplan hacc hi hb hm hlog hlog' hfresh hfresh' hidle hidle'
    hinit hinit' k1 r1
  exact ⟨rtm, r1, r2, r3, r4⟩

/-! ### The counting robot killed in its third turn -/

def sumsKillDone : List ULog.LogOp :=
  [.log 0 [[0, 4, 1, 1, 0, 1, 0, 0, 1, 1, 2, 3, 0, 0, 1, 0, 4, 5, 0, 0, 0, 6, 7, 0, 0]],
    .log 0 [[1, 4, 1, 2, 8, 9, 0, 0, 1, 3, 10, 11, 0, 0, 1, 1, 12, 13, 0, 0, 0, 14, 15, 0, 0]]]
/-- The operation in which it is killed: logging its third list. -/
def sumsKillOp : ULog.LogOp :=
  .log 0 [[2, 4, 1, 3, 16, 17, 0, 0, 1, 6, 18, 19, 0, 0, 1, 3, 20, 21, 0, 0, 0, 22, 23, 0, 0]]

theorem sumsLogged_record : record sumsLogged 3 sumsLoggedStart = .ok sumsLoggedEnd := by
  have h : (record sumsLogged 3 sumsLoggedStart).map' (fun _ => ()) = .ok () := by decide +kernel
  unfold sumsLoggedEnd
  cases hr : record sumsLogged 3 sumsLoggedStart with
  | ok rt => rfl
  | panic => rw [hr] at h; cases h

theorem run_of_record {app : App σ P} {n : Nat} {rt rt1 : Rt σ P} (h : record app n rt = .ok rt1) :
    run app n rt = .ok (rt1, .running) := by
  unfold record at h
  unfold run
  generalize startAll app rt = q at h ⊢
  obtain ⟨rta, e⟩ := q
  cases e with
  | some e => cases h
  | none =>
    simp only at h ⊢
    split at h
    · rename_i rtb hb
      simp only [Rs.ok.injEq] at h
      subst h
      rw [hb]
    · cases h

/-- Killed at any instant of that operation: what is found in the log, and what task 1 keeps in its replay. -/
theorem sums_killed : ∃ s, ULog.runLog 2048 256 (sumsLoggedStart.w.st.2 ++ sumsKillDone) = .ok s ∧
    ∀ files', ULog.KilledDuring s.lg.files (s.effects sumsKillOp) files' →
      ∃ kept rtk, kept <+: loggedLists sumsLoggedEnd.w.trace ∧ kept.length ≤ 2 ∧
        record sumsLogged kept.length sumsLoggedStart = .ok rtk ∧
        ∀ ns : List Nat, (∀ b ∈ ns, 0 < b) → (ULog.drainLog files' .copperList ns).2 ≠ .more →
          @dumpObjects _ (Wire.clCodec sumsSlots) (ULog.drainLog files' .copperList ns).1 = kept ∧
          ∀ rt1', replay sumsReplayer kept (hostedStart sumsGraph sumsNew) = .ok rt1' →
            rt1'.w.st.1 1 = rtk.w.st.1.1 1 := by
  obtain ⟨s, h1, h2⟩ := C123_killed_partial (page := 256) (slabSize := 2048) ⟨by decide, by decide, by decide⟩ (by decide)
    (fun s => s.2) 0 sumsSlots sumsPieces payload_ignoresTimes (g := sumsGraph) (robot := sumsLogged) (r := sumsReplayer)
    (m := sums) (m' := sumsNew) (changed := fun t => t = 2) (by decide) ⟨id, by decide⟩ (by decide) (by decide)
    sumsLogged_logsTo (fun cl => by simp [sumsPieces]) (by
      intro c hc
      rw [List.eq_of_mem_replicate hc]
      exact Dec.Sequential.u64.bind fun _ => .pure _) (by decide +kernel) rfl sums_readable sumsLogged_drives
    sums_rebuilt sums_unchanged rfl (rt := sumsLoggedStart) (rt1 := sumsLoggedEnd) (rt2 := sumsLoggedEnd)
    (rt' := hostedStart sumsGraph sumsNew) rfl rfl ⟨rfl, rfl, by decide, by decide, by decide +kernel⟩
    ⟨rfl, rfl, by decide, by decide, by decide +kernel⟩ (fun _ _ => rfl) (fun _ _ => rfl)
    (show StreamReady 0 [] [.openStream .copperList 64] from ⟨64, rfl⟩) sumsLogged_record (by decide +kernel)
    (Nat.le_refl _) (run_of_record sumsLogged_record) sumsLogged_history sumsLogged_typed
    (done := sumsKillDone) (rest := []) (op := sumsKillOp) (by decide +kernel) (by decide)
  refine ⟨s, h1, fun files' hk => ?_⟩
  obtain ⟨kept, rtk, k1, k2, k3, _, k5⟩ := h2 files' hk
  exact ⟨kept, rtk, k1, k2, k3, fun ns hns hne => ⟨(k5 ns hns hne).1, fun rt1' hr =>
    ((k5 ns hns hne).2 rt1' hr).1 1 (by simp [Inner, sumsGraph]) sums_not_behind⟩⟩

def sumsKillLog : ULog.LogSys :=
  getRt ⟨⟨0, 0, [], ⟨0, 0, [], 0⟩, []⟩, []⟩ (ULog.runLog 2048 256 (.openStream .copperList 64 :: sumsKillDone))
def sumsKillFiles : List Bytes := ULog.cutAt sumsKillLog.lg.files (sumsKillLog.effects sumsKillOp) 2 2

/-- Killed within that operation: the first two lists are found, and replayed with the changed task. -/
example :
    (match ULog.drainLog sumsKillFiles .copperList [40, 40, 40] with
      | (d, e) => (@dumpObjects _ (Wire.clCodec sumsSlots) d, e)) =
      ((loggedLists sumsLoggedEnd.w.trace).take 2, .failed) ∧
    (replay sumsReplayer ((loggedLists sumsLoggedEnd.w.trace).take 2) (hostedStart sumsGraph sumsNew)).map'
      (fun rt => (rt.w.st.1 1, (loggedLists rt.w.trace).map
        (fun cl => [0, 1, 2].map (fun t => payloadOf (hosted sumsGraph sums).plan t cl)))) =
      .ok (3, [[some (some 1), some (some 1), some (some 2)], [some (some 2), some (some 3), some (some 5)]]) := by
  refine ⟨?_, ?_⟩ <;> decide +kernel

/-! ### The counting robot when the power fails in its fourth turn -/

/-- Its sections have 80 bytes. -/
def sumsPowerStart : Rt (((Nat → Int) × Nat) × List ULog.LogOp) Int :=
  ⟨⟨((sums.init, 0), [.openStream .copperList 80]), []⟩, (hostedStart sumsGraph sums).mgr⟩

def sumsFourEnd : Rt (((Nat → Int) × Nat) × List ULog.LogOp) Int :=
  getRt sumsPowerStart (record sumsLogged 4 sumsPowerStart)

/-- Two lists are logged in the first section. -/
def sumsPowerBefore : List ULog.ConcOp :=
  [.openStream .copperList 80,
    .begin_ 0 [[0, 4, 1, 1, 0, 1, 0, 0, 1, 1, 2, 3, 0, 0, 1, 0, 4, 5, 0, 0, 0, 6, 7, 0, 0]], .finish 0,
    .begin_ 0 [[1, 4, 1, 2, 8, 9, 0, 0, 1, 3, 10, 11, 0, 0, 1, 1, 12, 13, 0, 0, 0, 14, 15, 0, 0]], .finish 0]
/-- The third one needs another. -/
def sumsPowerAfter : List ULog.ConcOp :=
  [.begin_ 0 [[2, 4, 1, 3, 16, 17, 0, 0, 1, 6, 18, 19, 0, 0, 1, 3, 20, 21, 0, 0, 0, 22, 23, 0, 0]], .finish 0]
/-- The power fails while the fourth one is encoded. -/
def sumsPowerOp : ULog.ConcOp :=
  .begin_ 0 [[3, 4, 1, 4, 24, 25, 0, 0, 1, 10, 26, 27, 0, 0, 1, 6, 28, 29, 0, 0, 0, 30, 31, 0, 0]]

def sumsPowerLog : ULog.ConcSys := ULog.powerLog (sumsPowerBefore ++ sumsPowerAfter)

/-- The disk then: the first section was flushed when the second one was begun. -/
def sumsPowerDisk : List Bytes :=
  [[180, 165, 80, 255, 16, 16] ++ List.replicate 10 0 ++ [250, 87, 2, 80, 50] ++ List.replicate 10 0 ++
    [0, 4, 1, 1, 0, 1, 0, 0, 1, 1, 2, 3, 0, 0, 1, 0, 4, 5, 0, 0, 0, 6, 7, 0, 0] ++
    [1, 4, 1, 2, 8, 9, 0, 0, 1, 3, 10, 11, 0, 0, 1, 1, 12, 13, 0, 0, 0, 14, 15, 0, 0] ++ List.replicate 111 0]

theorem sumsPower_powered :
    ULog.PoweredThreads true 16 192 (sumsPowerBefore ++ sumsPowerAfter) sumsPowerLog sumsPowerDisk := by
  obtain ⟨lg, hl⟩ : ∃ lg, ULog.Logger.new 192 16 = .ok lg := ⟨_, rfl⟩
  obtain ⟨c, hc⟩ := ULog.disksAre_powered
    (l := ((sumsPowerBefore ++ sumsPowerAfter).take 6).map (fun o => (o, [List.replicate 192 0])) ++
      [(.finish 0, sumsPowerDisk)]) (.new hl) (by
        cases hl
        decide +kernel)
  replace hc : ULog.PoweredThreads true 16 192 (sumsPowerBefore ++ sumsPowerAfter) c sumsPowerDisk := hc
  have h1 := ULog.powered_run hc
  have h2 : ULog.runConc 192 16 (sumsPowerBefore ++ sumsPowerAfter) = .ok sumsPowerLog :=
    ULog.powerLog_run (by decide +kernel)
  rw [h2] at h1
  rw [Rs.ok.inj h1]
  exact hc

theorem sumsFour_record : record sumsLogged 4 sumsPowerStart = .ok sumsFourEnd := by
  have h : (record sumsLogged 4 sumsPowerStart).map' (fun _ => ()) = .ok () := by decide +kernel
  unfold sumsFourEnd
  cases hr : record sumsLogged 4 sumsPowerStart with
  | ok rt => rfl
  | panic => rw [hr] at h; cases h

theorem sumsFour_history : sumsFourEnd.w.st.2 = ULog.calls (sumsPowerBefore ++ sumsPowerAfter ++ [sumsPowerOp]) := by
  decide +kernel

theorem sumsFour_ok : ULog.HistoryOk 16 192 [] sumsFourEnd.w.st.2 := by
  rw [sumsFour_history]
  simp only [sumsPowerBefore, sumsPowerAfter, sumsPowerOp, List.cons_append, List.nil_append, ULog.calls, ULog.HistoryOk]
  refine ⟨by decide, by decide, by simp, ⟨by decide, by decide, by decide⟩, ?_⟩
  simp

theorem sums_typed {lists : List (CL (List (Msg Int)))} (h : ∀ cl ∈ lists, cl.msgs.length = 4 ∧
    ∀ m ∈ cl.msgs, (∀ p ∈ m.payload, 0 ≤ p ∧ p < 18446744073709551616) ∧
      m.md.statusTxt.utf8ByteSize < 18446744073709551616) : ∀ cl ∈ lists, Typed sumsSlots cl := by
  intro cl hcl
  obtain ⟨h1, h2⟩ := h cl hcl
  unfold Typed
  generalize cl.msgs = l at h1 h2
  have hone : ∀ m ∈ l, ∀ p, m.payload = some p → ((UInt64.ofNat p.toNat).toNat : Int) = p := by
    intro m hm p hp
    obtain ⟨a, b⟩ := (h2 m hm).1 p (by simpa using hp)
    simp only [UInt64.toNat_ofNat']
    omega
  match l, h1 with
  | [a, b, c, d], _ =>
    refine .cons ⟨fun p hp rest => ?_, (h2 _ (by simp)).2⟩ (.cons ⟨fun p hp rest => ?_, (h2 _ (by simp)).2⟩
      (.cons ⟨fun p hp rest => ?_, (h2 _ (by simp)).2⟩ (.cons ⟨fun p hp rest => ?_, (h2 _ (by simp)).2⟩ .nil))) <;>
    · simp only
      rw [Dec.bind_ok (Bincode.rt_u64 _ _)]
      rw [hone _ (by simp) p hp]
      rfl

theorem sumsPower_idle (i : Nat) : (ULog.powerLog sumsPowerBefore).sys.streams[i]?.join.isSome →
    (ULog.powerLog sumsPowerBefore).waiting i = none :=
  one_idle (by decide +kernel) (by decide +kernel) i

/-- Whatever instant of the encoding it is, and whatever is on the disk beside what was flushed. -/
theorem sumsPower_replayed {files' disk' : List Bytes}
    (hk : ULog.KilledTogether sumsPowerLog.sys.lg.files [sumsPowerLog.effects sumsPowerOp] files')
    (hlost : ULog.PowerFailed files' sumsPowerDisk disk') :
    ∃ rtk, record sumsLogged 2 sumsPowerStart = .ok rtk ∧
      ∀ ns : List Nat, (∀ b ∈ ns, 0 < b) → (ULog.drainLog disk' .copperList ns).2 ≠ .more →
        ∀ rt1', replay sumsReplayer (@dumpObjects _ (Wire.clCodec sumsSlots) (ULog.drainLog disk' .copperList ns).1)
            (hostedStart sumsGraph sumsNew) = .ok rt1' →
          ∃ rtm, replay sumsReplayer (loggedLists rtk.w.trace) (hostedStart sumsGraph sumsNew) = .ok rtm ∧
            rtm.w.trace <+: rt1'.w.trace ∧ rtm.w.st.1 1 = rtk.w.st.1.1 1 := by
  obtain ⟨rtk, k1, k2⟩ := C123_power_partial (page := 16) (slabSize := 192) ⟨by decide, by decide, by decide⟩
    (fun s => s.2) 0 sumsSlots sumsPieces payload_ignoresTimes (g := sumsGraph) (robot := sumsLogged) (r := sumsReplayer)
    (m := sums) (m' := sumsNew) (changed := fun t => t = 2) (by decide) ⟨id, by decide⟩ (by decide) (by decide)
    sumsLogged_logsTo (fun cl => by simp [sumsPieces]) (by decide +kernel) rfl sums_readable sumsLogged_drives
    sums_rebuilt sums_unchanged rfl (rt := sumsPowerStart) (rt1 := sumsFourEnd) (rt2 := sumsFourEnd)
    (rt' := hostedStart sumsGraph sumsNew) rfl rfl ⟨rfl, rfl, by decide, by decide, by decide +kernel⟩
    ⟨rfl, rfl, by decide, by decide, by decide +kernel⟩ (fun _ _ => rfl) (fun _ _ => rfl)
    (show StreamReady 0 [] [.openStream .copperList 80] from ⟨80, rfl⟩) sumsFour_record (by decide +kernel)
    (Nat.le_refl _) (run_of_record sumsFour_record) sumsFour_ok (sums_typed (by decide +kernel))
    (done := sumsKillDone) (by decide) (before := sumsPowerBefore) (after := sumsPowerAfter) (op := sumsPowerOp) (by rfl)
    (by simp [sumsPowerBefore, sumsPowerAfter, ULog.Interleaved])
    (by rw [← sumsFour_history]; exact List.prefix_refl _)
    (c1 := ULog.powerLog sumsPowerBefore) (ULog.powerLog_run (by decide +kernel))
    (fun i st h _ => sumsPower_idle i (by rw [h]; rfl))
    sumsPower_powered (ULog.renewed_of (by decide +kernel)) (by decide +kernel) (others := []) hk hlost
  refine ⟨rtk, k1, fun ns hns hne rt1' hr => ?_⟩
  obtain ⟨rtm, b1, b2, b3, -⟩ := (k2 ns hns hne).2.2 rt1' hr
  exact ⟨rtm, b1, b2, b3 1 (by simp [Inner, sumsGraph]) sums_not_behind⟩

/-- One such disk, on which nothing but what was flushed has arrived: two lists are found. -/
example : ULog.PowerFailed sumsPowerLog.sys.lg.files sumsPowerDisk sumsPowerDisk ∧
    (match ULog.drainLog sumsPowerDisk .copperList [50, 50, 50] with
      | (d, e) => (@dumpObjects _ (Wire.clCodec sumsSlots) d, e)) =
      ((loggedLists sumsFourEnd.w.trace).take 2, .failed) := by
  refine ⟨ULog.powerFailed_of (by decide +kernel), ?_⟩
  decide +kernel

end Dataflow
end Verif
