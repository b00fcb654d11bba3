import Verif.Proofs.KilledReplay
import Verif.Props.Killed
import Verif.Props.Replay
/-!
C110: the log of a robot that was killed, replayed.
-/
namespace Verif
namespace Runtime
open Clock CopperList Planner Bincode
variable {σ σ' P τ : Type}

/-- A robot runs and its process is killed at any instant: `done` of the operations of the run on its log were made,
and the kill falls anywhere in the next one, `op`.  The lists logged until then are of iterations that no monitor's
decision has disturbed (`m` is any number of such iterations that covers them; how the run would have gone on, or
would have ended, does not matter).  What is left of the files is read as a stream of copper lists, with any buffer
sizes, until the reader stops delivering, in whatever way; the lists found are replayed, with the sources and the sinks
answered for by the replay.

The lists found are those of the first iterations of the run.  The replay logs as many lists, with the same numbers,
and with the same payload, time of validity and status in the messages of every source and every task; and the tasks
end up with the memories they had in the robot after exactly these iterations.  If the section that was being filled
is in the oldest slab still in use, the iterations not replayed are among those whose lists are in this section.

Missing: as for `C58_replay_partial`, applications whose generated accessors do not read the sources' messages, tasks
that read the clock, and runs with iterations that a monitor has aborted. -/
theorem C110_killed_partial {page slabSize : Nat} (hz : ULog.SizesOk page slabSize) (h256 : 256 ∣ page)
    (hist : σ → List ULog.LogOp) (strm : Nat) (slots : List (Codec P))
    (pieces : CL (List (Msg P)) → List Bytes) (g : Graph) (hg : g.WF) (app : App σ P) (r : Replayer σ' P)
    (hl : LogsTo app.env hist strm pieces)
    (hpieces : ∀ cl, (pieces cl).flatten = (Wire.clCodec slots).enc cl)
    (hslots : ∀ c ∈ slots, Dec.Sequential c.dec)
    (hp : computePlan g = .ok (some app.plan)) (hacc : SourcesReadable app.plan)
    (hplan : r.app.plan = app.plan) (htasks : r.app.tasks = app.tasks)
    (code : TaskCode P τ)
    (mem : σ → Nat → τ) (hrec : Plays app.plan code mem app.env)
    (hsim : ∀ sim, app.env.sim = some sim → LeavesRegular app.plan mem sim)
    (mem' : σ' → Nat → τ) (hrep : Plays app.plan code mem' r.app.env)
    (hclock : ∀ msgs s, mem' (r.setClock msgs s) = mem' s)
    (hlog' : r.app.env.log.isSome = true)
    (rt rt1 rt2 : Rt σ P) (rt' : Rt σ' P) (hfresh : rt.w.trace = []) (hfresh' : rt'.w.trace = [])
    (hpool : SamePool app.plan rt.mgr rt'.mgr)
    (hmem : ∀ t, IsRegular app.plan t → mem rt.w.st t = mem' rt'.w.st t)
    (h0 : StreamReady strm [] (hist rt.w.st))
    (m n : Nat) (hm : record app m rt = .ok rt1) (hq : ∀ ev ∈ rt1.w.trace, ev.stops = false)
    (hmn : m ≤ n) (res : RunResult) (hrun : run app n rt = .ok (rt2, res))
    (hops : ULog.HistoryOk page slabSize [] (hist rt2.w.st))
    (htyped : ∀ cl ∈ loggedLists rt2.w.trace, Typed slots cl)
    (done rest : List ULog.LogOp) (op : ULog.LogOp) (hc : hist rt2.w.st = hist rt.w.st ++ done ++ op :: rest)
    (hcover : logCalls strm done ≤ m) :
    ∃ s, ULog.runLog slabSize page (hist rt.w.st ++ done) = .ok s ∧
      ∀ files', ULog.KilledDuring s.lg.files (s.effects op) files' →
        ∃ kept rtk, kept <+: loggedLists rt2.w.trace ∧ kept.length ≤ logCalls strm done ∧
          record app kept.length rt = .ok rtk ∧ loggedLists rtk.w.trace = kept ∧
          (∀ ns : List Nat, (∀ b ∈ ns, 0 < b) → (ULog.drainLog files' .copperList ns).2 ≠ .more →
            @dumpObjects _ (Wire.clCodec slots) (ULog.drainLog files' .copperList ns).1 = kept ∧
            ∀ rt1', replay r kept rt' = .ok rt1' → (∀ ev ∈ rt1'.w.trace, ev.stops = false) →
              Pointwise (SameList app.plan) kept (loggedLists rt1'.w.trace) ∧
              ∀ t, IsRegular app.plan t → mem rtk.w.st t = mem' rt1'.w.st t) ∧
          ∀ (i : Nat) (st : ULog.Stream), s.streams[i]? = some (some st) → st.entryType = .copperList →
            st.section_.slab ≤ s.lg.oldestMapped →
            ∃ before held later, loggedLists rt2.w.trace = before ++ held ++ later ∧
              (before ++ held).length = logCalls strm done ∧
              (@encAll _ (Wire.clCodec slots) held).length = st.section_.used ∧ before <+: kept := by
  have hlog : app.env.log.isSome = true := by obtain ⟨f, hf, _⟩ := hl.log; rw [hf]; rfl
  obtain ⟨t, s, ht, hs, hkill⟩ := C94_safe hz h256 app hist strm slots pieces hl hpieces hslots n rt rt2 res h0 hrun
    hops htyped done rest op hc
  rw [hfresh, List.nil_append] at ht
  refine ⟨s, hs, fun files' hk => ?_⟩
  obtain ⟨kept, lost, later, hkl, hlen, hread⟩ := hkill files' hk
  rw [← ht, List.append_assoc] at hkl
  have hpre : kept <+: loggedLists rt2.w.trace := ⟨_, hkl.symm⟩
  have hle : kept.length ≤ logCalls strm done := by rw [← hlen]; simp
  obtain ⟨rtk, h1, h2, h3⟩ := record_take hlog hfresh hpool.1 hm hq hmn hrun hpre (by omega)
  refine ⟨kept, rtk, hpre, hle, h1, h2, fun ns hns hne => ⟨(hread ns hns).1 hne, fun rt1' hr hq' => ?_⟩,
    fun i st hst hty hsl => ?_⟩
  · rw [← h2] at hr
    obtain ⟨_, k2, k3⟩ := C58_replay_partial g hg app r hp hacc hplan htasks code mem hrec hsim mem' hrep
      hclock hlog hlog' rt rtk rt' rt1' hfresh hfresh' hpool hmem kept.length h1 h3 hr hq'
    rw [h2] at k2
    exact ⟨k2, k3⟩
  · obtain ⟨t', s', ht', hs', hcrash⟩ := C94_crash_partial hz h256 app hist strm slots pieces hl hpieces hslots n rt rt2
      res h0 hrun hops htyped done rest op hc
    rw [hfresh, List.nil_append] at ht'
    rw [hs] at hs'
    cases hs'
    obtain ⟨before, held, later', e1, e2, e3, _, kept', e4, _, e5⟩ := hcrash files' hk i st hst hty hsl
    rw [← ht'] at e1
    have hns : ∀ k : Nat, ∀ b ∈ List.replicate k 1, 0 < b := fun k b hb => by
      rw [List.eq_of_mem_replicate hb]; exact Nat.one_pos
    have h5 := e5 _ (hns ((@encAll _ (Wire.clCodec slots) (before ++ held)).length + 1))
    have hne := h5.2 (by simp)
    have : kept' = kept := by rw [← h5.1 hne, (hread _ (hns _)).1 hne]
    exact ⟨before, held, later', e1, e2, e3, this ▸ e4⟩

/-! ### A robot that is killed in its third iteration -/

/-- The summing application of C58 with a unified log, whose only stream is that of its copper lists. -/
def sumLoggedEnv : Env ((Nat × Nat) × List ULog.LogOp) Nat where
  now s := ((((sumEnv 3).now s.1).1, s.2), ((sumEnv 3).now s.1).2)
  life ph t s := ((((sumEnv 3).life ph t s.1).1, s.2), ((sumEnv 3).life ph t s.1).2)
  source t out s := ((((sumEnv 3).source t out s.1).1, s.2), ((sumEnv 3).source t out s.1).2)
  regular t ins out s := ((((sumEnv 3).regular t ins out s.1).1, s.2), ((sumEnv 3).regular t ins out s.1).2)
  sink _ _ s := (s, none)
  onError _ _ _ s := (s, .ignore)
  monCL _ s := (s, none)
  monStart s := (s, none)
  monStop s := (s, none)
  log := some (fun s cl => .ok (s.1, s.2 ++ [.log 0 (demoPieces cl)]))
  sim := none

def sumLogged : App ((Nat × Nat) × List ULog.LogOp) Nat := ⟨3, demoPlan, sumLoggedEnv, .checked⟩

def sumLoggedStart : Rt ((Nat × Nat) × List ULog.LogOp) Nat :=
  ⟨⟨((40, 0), [.openStream .copperList 64]), []⟩, Manager.new 2 [Msg.new none, Msg.new none, Msg.new none]⟩

/-- The robot after three iterations, had it lived. -/
def sumLoggedEnd : Rt ((Nat × Nat) × List ULog.LogOp) Nat := getRt sumLoggedStart (record sumLogged 3 sumLoggedStart)

def sumKillDone : List ULog.LogOp :=
  [.log 0 [[0, 4, 1, 251, 45, 1, 40, 43, 0, 0, 1, 251, 46, 1, 46, 49, 0, 0, 0, 52, 55, 0, 0]],
    .log 0 [[1, 4, 1, 251, 171, 1, 58, 61, 0, 0, 0, 64, 67, 0, 0, 0, 70, 73, 0, 0]]]
/-- The operation in which it is killed: logging its third list. -/
def sumKillOp : ULog.LogOp :=
  .log 0 [[2, 4, 1, 251, 41, 2, 76, 79, 0, 0, 1, 251, 4, 5, 82, 85, 0, 0, 0, 88, 91, 0, 0]]
def sumKillLog : ULog.LogSys :=
  getRt ⟨⟨0, 0, [], ⟨0, 0, [], 0⟩, []⟩, []⟩ (ULog.runLog 2048 256 (.openStream .copperList 64 :: sumKillDone))
def sumKillFiles : List Bytes := ULog.cutAt sumKillLog.lg.files (sumKillLog.effects sumKillOp) 2 2
/-- The replay of the two lists that are found. -/
def sumKillReplayed : Rt (Nat × Nat) Nat :=
  getRt (sumStart 0) (replay sumReplayer ((loggedLists sumLoggedEnd.w.trace).take 2) (sumStart 0))

theorem sumLogged_plays : Plays demoPlan sumCode (fun s => sumMem s.1) sumLoggedEnv := by
  have h := sum_plays 3
  exact ⟨fun ph t s => h.life ph t s.1, fun t ins out s => h.regular t ins out s.1,
    fun ph t s => h.lifeOther ph t s.1, fun s => h.now s.1, fun t out s => h.source t out s.1, fun _ _ _ => rfl,
    fun _ _ _ _ => rfl, fun _ _ => rfl, fun _ => rfl, fun f hf s cl s' hs => by
      simp only [sumLoggedEnv, Option.some.injEq] at hf
      subst hf
      cases hs
      rfl⟩

theorem sumLogged_logsTo : LogsTo sumLogged.env (fun s => s.2) 0 demoPieces := by
  have h : ∀ l : List ULog.LogOp, Leaves 0 l l := fun l => ⟨[], by simp, by simp, by simp⟩
  exact ⟨⟨_, rfl, fun s cl s' hs => by cases hs; rfl⟩, fun s => h s.2, fun _ _ s => h s.2, fun _ _ s => h s.2,
    fun _ _ _ s => h s.2, fun _ _ s => h s.2, fun _ _ _ s => h s.2, fun _ s => h s.2, fun s => h s.2,
    fun s => h s.2, fun _ hs => by simp [sumLogged, sumLoggedEnv] at hs,
    fun _ hs => by simp [sumLogged, sumLoggedEnv] at hs⟩

theorem sumLogged_history : ULog.HistoryOk 256 2048 [] (.openStream .copperList 64 :: (sumKillDone ++ [sumKillOp])) := by
  simp only [sumKillDone, sumKillOp, List.cons_append, List.nil_append, ULog.HistoryOk]
  refine ⟨by decide, by decide, by simp, ⟨by decide, by decide, by decide⟩, ?_⟩
  simp

/-- The hypotheses of `C110_killed_partial` about the run, the kill and the replay. -/
example : record sumLogged 3 sumLoggedStart = .ok sumLoggedEnd ∧
    (∀ ev ∈ sumLoggedEnd.w.trace, ev.stops = false) ∧
    run sumLogged 3 sumLoggedStart = .ok (sumLoggedEnd, .running) ∧
    sumLoggedEnd.w.st.2 = sumLoggedStart.w.st.2 ++ sumKillDone ++ sumKillOp :: [] ∧
    logCalls 0 sumKillDone = 2 ∧
    (match ULog.drainLog sumKillFiles .copperList [30, 30, 30] with
      | (d, e) => (@dumpObjects _ (Wire.clCodec demoSlots) d, e)) =
      ((loggedLists sumLoggedEnd.w.trace).take 2, .failed) ∧
    replay sumReplayer ((loggedLists sumLoggedEnd.w.trace).take 2) (sumStart 0) = .ok sumKillReplayed ∧
    (∀ ev ∈ sumKillReplayed.w.trace, ev.stops = false) ∧
    sumKillReplayed.w.st.2 = 730 ∧ sumLoggedEnd.w.st.1.2 = 1284 := by
  refine ⟨?_, ?_, ?_, ?_, ?_, ?_, ?_, ?_, ?_, ?_⟩ <;> decide +kernel

theorem sumLogged_typed : ∀ cl ∈ loggedLists sumLoggedEnd.w.trace, Typed demoSlots cl := by
  have h : ∀ cl ∈ loggedLists sumLoggedEnd.w.trace, cl.msgs.length = 3 ∧
      (∀ p ∈ cl.msgs[0]?.bind Msg.payload, p < 18446744073709551616) ∧ (∀ p ∈ cl.msgs[1]?.bind Msg.payload, p < 65536) ∧
      (∀ p ∈ cl.msgs[2]?.bind Msg.payload, p = 0) ∧
      ∀ m ∈ cl.msgs, m.md.statusTxt.utf8ByteSize < 18446744073709551616 := by decide +kernel
  intro cl hcl
  obtain ⟨h1, h2, h3, h4, h5⟩ := h cl hcl
  unfold Typed
  generalize cl.msgs = l at h1 h2 h3 h4 h5
  match l, h1 with
  | [a, b, c], _ =>
    refine .cons ⟨fun p hp rest => ?_, h5 _ (by simp)⟩ (.cons ⟨fun p hp rest => ?_, h5 _ (by simp)⟩
      (.cons ⟨fun p hp rest => ?_, h5 _ (by simp)⟩ .nil))
    · simp only
      rw [Dec.bind_ok (rt_u64 _ _)]
      simp [Nat.mod_eq_of_lt (h2 p (by simpa using hp))]
    · simp only
      rw [Dec.bind_ok (rt_u16 _ _)]
      simp [Nat.mod_eq_of_lt (h3 p (by simpa using hp))]
    · rw [h4 p (by simpa using hp)]; rfl

/-- Killed at any instant of that operation: what is found in the log, and its replay. -/
example : ∃ s, ULog.runLog 2048 256 (sumLoggedStart.w.st.2 ++ sumKillDone) = .ok s ∧
    ∀ files', ULog.KilledDuring s.lg.files (s.effects sumKillOp) files' →
      ∃ kept rtk, kept <+: loggedLists sumLoggedEnd.w.trace ∧ kept.length ≤ 2 ∧
        record sumLogged kept.length sumLoggedStart = .ok rtk ∧
        ∀ ns : List Nat, (∀ b ∈ ns, 0 < b) → (ULog.drainLog files' .copperList ns).2 ≠ .more →
          @dumpObjects _ (Wire.clCodec demoSlots) (ULog.drainLog files' .copperList ns).1 = kept ∧
          ∀ rt1', replay sumReplayer kept (sumStart 0) = .ok rt1' → (∀ ev ∈ rt1'.w.trace, ev.stops = false) →
            rtk.w.st.1.2 = rt1'.w.st.2 := by
  obtain ⟨s, h1, h2⟩ := C110_killed_partial (page := 256) (slabSize := 2048) ⟨by decide, by decide, by decide⟩ (by decide)
    (fun s : (Nat × Nat) × List ULog.LogOp => s.2) 0 demoSlots demoPieces demoGraph (by decide) sumLogged sumReplayer
    sumLogged_logsTo
    (fun cl => by simp [demoPieces]) (by
      intro c hc
      simp only [demoSlots, List.mem_cons, List.not_mem_nil, or_false] at hc
      rcases hc with rfl | rfl | rfl
      · exact Dec.Sequential.u64.bind fun _ => .pure _
      · exact Dec.Sequential.u16.bind fun _ => .pure _
      · exact .pure _)
    (by decide +kernel) demo_readable rfl rfl sumCode (fun s => sumMem s.1) sumLogged_plays (fun _ h => by cases h)
    sumMem (sum_plays 0) (fun _ _ => rfl) rfl sumLoggedStart sumLoggedEnd sumLoggedEnd (sumStart 0) rfl rfl
    (sum_pool 40 0) (fun _ _ => rfl) (show StreamReady 0 [] [.openStream .copperList 64] from ⟨64, rfl⟩) 3 3
    (by decide +kernel) (by decide +kernel) (Nat.le_refl _) .running
    (by decide +kernel) (by
      have : sumLoggedEnd.w.st.2 = .openStream .copperList 64 :: (sumKillDone ++ [sumKillOp]) := by decide +kernel
      rw [this]
      exact sumLogged_history) sumLogged_typed sumKillDone [] sumKillOp (by decide +kernel) (by decide)
  refine ⟨s, h1, fun files' hk => ?_⟩
  obtain ⟨kept, rtk, k1, k2, k3, _, k5, _⟩ := h2 files' hk
  refine ⟨kept, rtk, k1, k2, k3, fun ns hns hne => ⟨(k5 ns hns hne).1, fun rt1' hr hq => ?_⟩⟩
  exact ((k5 ns hns hne).2 rt1' hr hq).2 1 (by simp [IsRegular, sumLogged, demoPlan])

end Runtime
end Verif
