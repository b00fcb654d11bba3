import Verif.Proofs.KilledReplay
import Verif.Props.KilledReplay
import Verif.Props.PowerThreads
/-!
C121: the log of a robot that lost power, replayed.
-/
namespace Verif
namespace Runtime
open Clock CopperList Planner Bincode
variable {σ σ' P τ : Type}

theorem replayLoop_append {r : Replayer σ P} {a b : List (CL (List (Msg P)))} : ∀ {rt rt' : Rt σ P},
    replayLoop r (a ++ b) rt = .ok rt' → ∃ rtm, replayLoop r a rt = .ok rtm ∧ replayLoop r b rtm = .ok rt' := by
  induction a with
  | nil => intro rt rt' h; exact ⟨rt, rfl, h⟩
  | cons cl a ih =>
    intro rt rt' h
    simp only [List.cons_append, replayLoop] at h ⊢
    generalize replayOne r cl rt = q at h ⊢
    match q with
    | .ok (rt1, none) => exact ih h
    | .ok (_, some _) => cases h
    | .panic => cases h

theorem replay_append {r : Replayer σ P} {a b : List (CL (List (Msg P)))} {rt rt' : Rt σ P}
    (h : replay r (a ++ b) rt = .ok rt') : ∃ rtm, replay r a rt = .ok rtm ∧ rtm.w.trace <+: rt'.w.trace := by
  unfold replay at h ⊢
  generalize startAll (r.app.withSim (defaultCallback r.app.plan)) rt = q at h ⊢
  match q with
  | (_, some _) => cases h
  | (rt0, none) =>
    obtain ⟨rtm, h1, h2⟩ := replayLoop_append h
    obtain ⟨t, ht⟩ := replayLoop_trace r b rtm h2
    exact ⟨rtm, h1, t, ht.symm⟩

/-- A robot logs from several threads, and the power fails.  When the calls `done` on its log had been made (those
for copper lists had returned), its streams were in certain sections; since then each of them went on to another one,
and all slabs of that moment but the last were released.  At the instant of the failure one thread performs any action and others encode objects, each
anywhere, and the disk has what was flushed and anything else of the rest.

Then all the lists of `done` are found, and the replay of what is found goes through what the tasks computed in these
iterations: same lists, and the memories the tasks had then.

Missing: what was logged in the sections that were in use, flushes that do not wait for the disk (`C83_async_violated`)
and a stream that stays where it was (`C114_idle_violated`). -/
theorem C121_power_partial {page slabSize : Nat} (hz : ULog.SizesOk page slabSize)
    (hist : σ → List ULog.LogOp) (strm : Nat) (slots : List (Codec P))
    (pieces : CL (List (Msg P)) → List Bytes) (g : Graph) (hg : g.WF) (app : App σ P) (r : Replayer σ' P)
    (hl : LogsTo app.env hist strm pieces)
    (hpieces : ∀ cl, (pieces cl).flatten = (Wire.clCodec slots).enc cl)
    (hp : computePlan g = .ok (some app.plan)) (hacc : SourcesReadable app.plan)
    (hplan : r.app.plan = app.plan) (htasks : r.app.tasks = app.tasks)
    (code : TaskCode P τ)
    (mem : σ → Nat → τ) (hrec : Plays app.plan code mem app.env)
    (hsim : ∀ sim, app.env.sim = some sim → LeavesRegular app.plan mem sim)
    (mem' : σ' → Nat → τ) (hrep : Plays app.plan code mem' r.app.env)
    (hclock : ∀ msgs s, mem' (r.setClock msgs s) = mem' s)
    (hlog' : r.app.env.log.isSome = true)
    (rt rt1 rt2 : Rt σ P) (rt' : Rt σ' P) (hfresh : rt.w.trace = []) (hfresh' : rt'.w.trace = [])
    (hpool : SamePool app.plan rt.mgr rt'.mgr)
    (hmem : ∀ t, IsRegular app.plan t → mem rt.w.st t = mem' rt'.w.st t)
    (h0 : StreamReady strm [] (hist rt.w.st))
    (m n : Nat) (hm : record app m rt = .ok rt1) (hq : ∀ ev ∈ rt1.w.trace, ev.stops = false)
    (hmn : m ≤ n) (res : RunResult) (hrun : run app n rt = .ok (rt2, res))
    (hops : ULog.HistoryOk page slabSize [] (hist rt2.w.st))
    (htyped : ∀ cl ∈ loggedLists rt2.w.trace, Typed slots cl)
    (done : List ULog.LogOp) (hcover : logCalls strm done ≤ m)
    {before after : List ULog.ConcOp} {op : ULog.ConcOp} (hbefore : ULog.calls before = hist rt.w.st ++ done)
    (hin : ULog.Interleaved [] (before ++ after))
    (hcalls : ULog.calls (before ++ after ++ [op]) <+: hist rt2.w.st)
    {c1 c : ULog.ConcSys} {disk disk' files' : List Bytes} (h1 : ULog.runConc slabSize page before = .ok c1)
    (hwait : ∀ (i : Nat) (st : ULog.Stream), c1.sys.streams[i]? = some (some st) → st.entryType = .copperList →
      c1.waiting i = none)
    (h : ULog.PoweredThreads true page slabSize (before ++ after) c disk)
    (hnew : ULog.Renewed c1.sys c.sys) (hold : c1.sys.lg.files.length ≤ c.sys.lg.oldestMapped + 1)
    {others : List (Nat × List Bytes)}
    (hk : ULog.KilledTogether c.sys.lg.files (c.effects op :: others.map (fun b => c.effects (.begin_ b.1 b.2))) files')
    (hlost : ULog.PowerFailed files' disk disk') :
    ∃ rtk, record app (logCalls strm done) rt = .ok rtk ∧
      ∀ ns : List Nat, (∀ b ∈ ns, 0 < b) → (ULog.drainLog disk' .copperList ns).2 ≠ .more →
        let found := @dumpObjects _ (Wire.clCodec slots) (ULog.drainLog disk' .copperList ns).1
        loggedLists rtk.w.trace <+: found ∧ (loggedLists rtk.w.trace).length = logCalls strm done ∧
        ∀ rt1', replay r found rt' = .ok rt1' → (∀ ev ∈ rt1'.w.trace, ev.stops = false) →
          ∃ rtm, replay r (loggedLists rtk.w.trace) rt' = .ok rtm ∧ rtm.w.trace <+: rt1'.w.trace ∧
            Pointwise (SameList app.plan) (loggedLists rtk.w.trace) (loggedLists rtm.w.trace) ∧
            ∀ t, IsRegular app.plan t → mem rtk.w.st t = mem' rtm.w.st t := by
  have hlog : app.env.log.isSome = true := by obtain ⟨f, hf, _⟩ := hl.log; rw [hf]; rfl
  obtain ⟨rest, hrest⟩ : ∃ rest, hist rt2.w.st = hist rt.w.st ++ done ++ rest := by
    obtain ⟨x, hx⟩ := hcalls
    rw [ULog.calls_append, ULog.calls_append, hbefore] at hx
    exact ⟨_, by rw [← hx, List.append_assoc, List.append_assoc]⟩
  obtain ⟨t, later, e1, e2, e3, e4, e5, e6⟩ := crash_objs hl h0 hrun hops hrest
  rw [hfresh, List.nil_append] at e1
  subst e1
  have hty : ∀ cl ∈ (loggedLists rt2.w.trace).take (logCalls strm done), Typed slots cl :=
    fun cl hcl => htyped cl (List.mem_of_mem_take hcl)
  have hpre : (loggedLists rt2.w.trace).take (logCalls strm done) <+: loggedLists rt2.w.trace := ⟨_, e2⟩
  obtain ⟨rtk, k1, k2, k3⟩ := record_take hlog hfresh hpool.1 hm hq hmn hrun hpre (by omega)
  rw [e3] at k1
  refine ⟨rtk, k1, fun ns hns hne => ?_⟩
  have hfound := @ULog.C114_export_partial _ (Wire.clCodec slots) _ (fun a ha => Wire.rt_cl (hty a ha))
    (fun a _ => Wire.cl_pos slots a) page slabSize hz .copperList (by decide) (by decide) before after op hin
    (by obtain ⟨x, hx⟩ := hcalls; rw [← hx] at hops; exact ULog.historyOk_prefix hops)
    (by
      rw [hbefore, e6, List.map_map]
      exact List.map_congr_left (fun cl _ => hpieces cl))
    c1 c disk disk' files' h1 hwait
    (by rw [hbefore]; exact ULog.used_of_never e4 e5 (by simp)) h hnew hold others hk hlost ns hns hne
  rw [← k2] at hfound
  refine ⟨hfound, by rw [k2, e3], fun rt1' hr hq' => ?_⟩
  obtain ⟨x, hx⟩ := hfound
  rw [← hx] at hr
  obtain ⟨rtm, r1, r2⟩ := replay_append hr
  obtain ⟨_, r3, r4⟩ := C58_replay_partial g hg app r hp hacc hplan htasks code mem hrec hsim mem' hrep
      hclock hlog hlog' rt rtk rt' rtm hfresh hfresh' hpool hmem (logCalls strm done) k1 k3 r1
      (fun ev hev => hq' ev (r2.subset hev))
  exact ⟨rtm, r1, r2, r3, r4⟩

/-! ### A robot that loses power in its fourth iteration -/

/-- The robot of C110 after four iterations, had the power not failed. -/
def sumFourEnd : Rt ((Nat × Nat) × List ULog.LogOp) Nat := getRt sumLoggedStart (record sumLogged 4 sumLoggedStart)

/-- Two lists are logged in the first section. -/
def sumPowerBefore : List ULog.ConcOp :=
  [.openStream .copperList 64,
    .begin_ 0 [[0, 4, 1, 251, 45, 1, 40, 43, 0, 0, 1, 251, 46, 1, 46, 49, 0, 0, 0, 52, 55, 0, 0]], .finish 0,
    .begin_ 0 [[1, 4, 1, 251, 171, 1, 58, 61, 0, 0, 0, 64, 67, 0, 0, 0, 70, 73, 0, 0]], .finish 0]
/-- The third one needs another. -/
def sumPowerAfter : List ULog.ConcOp :=
  [.begin_ 0 [[2, 4, 1, 251, 41, 2, 76, 79, 0, 0, 1, 251, 4, 5, 82, 85, 0, 0, 0, 88, 91, 0, 0]], .finish 0]
/-- The power fails while the fourth one is encoded. -/
def sumPowerOp : ULog.ConcOp :=
  .begin_ 0 [[3, 4, 1, 251, 167, 2, 94, 97, 0, 0, 1, 251, 172, 7, 100, 103, 0, 0, 0, 106, 109, 0, 0]]

def sumPowerLog : ULog.ConcSys := ULog.powerLog (sumPowerBefore ++ sumPowerAfter)

/-- The disk then: the first section was flushed when the second one was begun. -/
def sumPowerDisk : List Bytes :=
  [[180, 165, 80, 255, 16, 16] ++ List.replicate 10 0 ++ [250, 87, 2, 64, 43] ++ List.replicate 10 0 ++
    [0, 4, 1, 251, 45, 1, 40, 43, 0, 0, 1, 251, 46, 1, 46, 49, 0, 0, 0, 52, 55, 0, 0] ++
    [1, 4, 1, 251, 171, 1, 58, 61, 0, 0, 0, 64, 67, 0, 0, 0, 70, 73, 0, 0] ++ List.replicate 118 0]

theorem sumPower_powered : ULog.PoweredThreads true 16 192 (sumPowerBefore ++ sumPowerAfter) sumPowerLog sumPowerDisk := by
  obtain ⟨lg, hl⟩ : ∃ lg, ULog.Logger.new 192 16 = .ok lg := ⟨_, rfl⟩
  obtain ⟨c, hc⟩ := ULog.disksAre_powered
    (l := ((sumPowerBefore ++ sumPowerAfter).take 6).map (fun o => (o, [List.replicate 192 0])) ++
      [(.finish 0, sumPowerDisk)]) (.new hl) (by
        cases hl
        decide +kernel)
  replace hc : ULog.PoweredThreads true 16 192 (sumPowerBefore ++ sumPowerAfter) c sumPowerDisk := hc
  have h1 := ULog.powered_run hc
  have h2 : ULog.runConc 192 16 (sumPowerBefore ++ sumPowerAfter) = .ok sumPowerLog := ULog.powerLog_run (by decide +kernel)
  rw [h2] at h1
  rw [Rs.ok.inj h1]
  exact hc

theorem sumFour_history : sumFourEnd.w.st.2 = ULog.calls (sumPowerBefore ++ sumPowerAfter ++ [sumPowerOp]) := by
  decide +kernel

theorem sumFour_ok : ULog.HistoryOk 16 192 [] sumFourEnd.w.st.2 := by
  rw [sumFour_history]
  simp only [sumPowerBefore, sumPowerAfter, sumPowerOp, List.cons_append, List.nil_append, ULog.calls, ULog.HistoryOk]
  refine ⟨by decide, by decide, by simp, ⟨by decide, by decide, by decide⟩, ?_⟩
  simp

theorem sumFour_typed : ∀ cl ∈ loggedLists sumFourEnd.w.trace, Typed demoSlots cl := by
  have h : ∀ cl ∈ loggedLists sumFourEnd.w.trace, cl.msgs.length = 3 ∧
      (∀ p ∈ cl.msgs[0]?.bind Msg.payload, p < 18446744073709551616) ∧ (∀ p ∈ cl.msgs[1]?.bind Msg.payload, p < 65536) ∧
      (∀ p ∈ cl.msgs[2]?.bind Msg.payload, p = 0) ∧
      ∀ m ∈ cl.msgs, m.md.statusTxt.utf8ByteSize < 18446744073709551616 := by decide +kernel
  intro cl hcl
  obtain ⟨h1, h2, h3, h4, h5⟩ := h cl hcl
  unfold Typed
  generalize cl.msgs = l at h1 h2 h3 h4 h5
  match l, h1 with
  | [a, b, c], _ =>
    refine .cons ⟨fun p hp rest => ?_, h5 _ (by simp)⟩ (.cons ⟨fun p hp rest => ?_, h5 _ (by simp)⟩
      (.cons ⟨fun p hp rest => ?_, h5 _ (by simp)⟩ .nil))
    · simp only
      rw [Dec.bind_ok (rt_u64 _ _)]
      simp [Nat.mod_eq_of_lt (h2 p (by simpa using hp))]
    · simp only
      rw [Dec.bind_ok (rt_u16 _ _)]
      simp [Nat.mod_eq_of_lt (h3 p (by simpa using hp))]
    · rw [h4 p (by simpa using hp)]; rfl

theorem one_idle {α β : Type} {l : List (Option α)} {w : Nat → Option β} (h : l.length = 1) (h0 : (w 0).isNone = true)
    (i : Nat) (hi : l[i]?.join.isSome) : w i = none := by
  match i with
  | 0 => exact Option.isNone_iff_eq_none.1 h0
  | i + 1 => rw [List.getElem?_eq_none (by omega)] at hi; cases hi

theorem sumPower_idle (i : Nat) : (ULog.powerLog sumPowerBefore).sys.streams[i]?.join.isSome →
    (ULog.powerLog sumPowerBefore).waiting i = none :=
  one_idle (by decide +kernel) (by decide +kernel) i

/-- Whatever instant of the encoding it is, and whatever is on the disk beside what was flushed. -/
theorem sumPower_replayed {files' disk' : List Bytes}
    (hk : ULog.KilledTogether sumPowerLog.sys.lg.files [sumPowerLog.effects sumPowerOp] files')
    (hlost : ULog.PowerFailed files' sumPowerDisk disk') :
    ∃ rtk, record sumLogged 2 sumLoggedStart = .ok rtk ∧
      ∀ ns : List Nat, (∀ b ∈ ns, 0 < b) → (ULog.drainLog disk' .copperList ns).2 ≠ .more →
        let found := @dumpObjects _ (Wire.clCodec demoSlots) (ULog.drainLog disk' .copperList ns).1
        loggedLists rtk.w.trace <+: found ∧ (loggedLists rtk.w.trace).length = 2 ∧
        ∀ rt1', replay sumReplayer found (sumStart 0) = .ok rt1' → (∀ ev ∈ rt1'.w.trace, ev.stops = false) →
          ∃ rtm, replay sumReplayer (loggedLists rtk.w.trace) (sumStart 0) = .ok rtm ∧
            rtm.w.trace <+: rt1'.w.trace ∧ rtk.w.st.1.2 = rtm.w.st.2 := by
  obtain ⟨rtk, k1, k2⟩ := C121_power_partial (page := 16) (slabSize := 192) ⟨by decide, by decide, by decide⟩
    (fun s : (Nat × Nat) × List ULog.LogOp => s.2) 0 demoSlots demoPieces demoGraph (by decide) sumLogged sumReplayer
    sumLogged_logsTo (fun cl => by simp [demoPieces])
    (by decide +kernel) demo_readable rfl rfl sumCode (fun s => sumMem s.1) sumLogged_plays (fun _ h => by cases h)
    sumMem (sum_plays 0) (fun _ _ => rfl) rfl sumLoggedStart sumFourEnd sumFourEnd (sumStart 0) rfl rfl
    (sum_pool 40 0) (fun _ _ => rfl) (show StreamReady 0 [] [.openStream .copperList 64] from ⟨64, rfl⟩) 4 4
    (by decide +kernel) (by decide +kernel) (Nat.le_refl _) .running (by decide +kernel) sumFour_ok sumFour_typed
    sumKillDone (by decide) (before := sumPowerBefore) (after := sumPowerAfter) (op := sumPowerOp) (by rfl)
    (by simp [sumPowerBefore, sumPowerAfter, ULog.Interleaved]) (by rw [← sumFour_history]; exact List.prefix_refl _)
    (c1 := ULog.powerLog sumPowerBefore) (ULog.powerLog_run (by decide +kernel)) (fun i st h _ => sumPower_idle i (by rw [h]; rfl))
    sumPower_powered (ULog.renewed_of (by decide +kernel)) (by decide +kernel) (others := []) hk hlost
  refine ⟨rtk, k1, fun ns hns hne => ?_⟩
  obtain ⟨a1, a2, a3⟩ := k2 ns hns hne
  refine ⟨a1, a2, fun rt1' hr hq => ?_⟩
  obtain ⟨rtm, b1, b2, _, b4⟩ := a3 rt1' hr hq
  exact ⟨rtm, b1, b2, b4 1 (by simp [IsRegular, sumLogged, demoPlan])⟩

/-- The replay of the two lists. -/
def sumPowerReplayed : Rt (Nat × Nat) Nat :=
  getRt (sumStart 0) (replay sumReplayer ((loggedLists sumFourEnd.w.trace).take 2) (sumStart 0))

/-- One such disk, on which nothing but what was flushed has arrived: two lists are found, and replayed. -/
example : ULog.PowerFailed sumPowerLog.sys.lg.files sumPowerDisk sumPowerDisk ∧
    (match ULog.drainLog sumPowerDisk .copperList [50, 50, 50] with
      | (d, e) => (@dumpObjects _ (Wire.clCodec demoSlots) d, e)) =
      ((loggedLists sumFourEnd.w.trace).take 2, .failed) ∧
    replay sumReplayer ((loggedLists sumFourEnd.w.trace).take 2) (sumStart 0) = .ok sumPowerReplayed ∧
    (∀ ev ∈ sumPowerReplayed.w.trace, ev.stops = false) ∧
    sumPowerReplayed.w.st.2 = 730 ∧ sumFourEnd.w.st.1.2 = 1964 := by
  refine ⟨ULog.powerFailed_of (by decide +kernel), ?_, ?_, ?_, ?_, ?_⟩ <;> decide +kernel

end Runtime
end Verif
