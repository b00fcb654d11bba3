import Verif.Props.BalanceKilled
import Verif.Props.PowerReplay
/-!
C117, without power: the log of a balancing robot that lost power, resimulated.
-/
namespace Verif
namespace Bot
open Clock CopperList Planner Verif.Runtime Fp Bincode
variable {inp inp' : Inputs}

theorem lists_trace {cls : List (CL (List (Msg Payload)))} : ∀ {rt rt' : Rt Robot Payload} {e : Option Err},
    BotResim.lists inp cls rt = .ok (rt', e) → rt.w.trace <+: rt'.w.trace := by
  induction cls with
  | nil =>
    intro rt rt' e h
    simp only [BotResim.lists, Rs.ok.injEq, Prod.mk.injEq] at h
    rw [h.1]
  | cons cl cls ih =>
    intro rt rt' e h
    have one : ∀ {rt1 : Rt Robot Payload} {e1 : Option Err}, BotResim.one inp cl rt = .ok (rt1, e1) →
        rt.w.trace <+: rt1.w.trace := by
      intro rt1 e1 h1
      unfold BotResim.one at h1
      split at h1
      · cases h1
      · obtain ⟨t, ht, -⟩ := iteration_trace _ _ h1
        exact ⟨t, ht.symm⟩
    simp only [BotResim.lists] at h
    split at h
    · cases h
    · rename_i h1
      simp only [Rs.ok.injEq, Prod.mk.injEq] at h
      rw [← h.1]
      exact one h1
    · rename_i h1
      exact (one h1).trans (ih h)

theorem lists_append {a b : List (CL (List (Msg Payload)))} : ∀ {rt rt' : Rt Robot Payload},
    BotResim.lists inp a rt = .ok (rt', none) → BotResim.lists inp (a ++ b) rt = BotResim.lists inp b rt' := by
  induction a with
  | nil =>
    intro rt rt' h
    simp only [BotResim.lists, Rs.ok.injEq, Prod.mk.injEq] at h
    rw [← h.1]; rfl
  | cons cl a ih =>
    intro rt rt' h
    simp only [List.cons_append, BotResim.lists] at h ⊢
    generalize BotResim.one inp cl rt = q at h ⊢
    match q with
    | .ok (rt1, none) => exact ih h
    | .ok (_, some _) => cases h
    | .panic => cases h

theorem resim_append {a b : List (CL (List (Msg Payload)))} {rtm rt' : Rt Robot Payload} {e : Option Err}
    (ha : BotResim.resim inp a = .ok (rtm, none)) (h : BotResim.resim inp (a ++ b) = .ok (rt', e)) :
    rtm.w.trace <+: rt'.w.trace := by
  unfold BotResim.resim at h ha
  generalize startAll (BotResim.app inp ⟨0⟩ []) fresh = q at h ha
  match q with
  | (_, some _) => cases ha
  | (rt0, none) =>
    simp only at h ha
    rw [lists_append ha] at h
    exact lists_trace h

/-- The robot logs from several threads (the structured log has its own streams), and the power fails.  When the
actions `before` on its log had been made, and those for copper lists were complete, its streams were in certain sections; since then each of them went on to
another one, and all slabs of that moment but the last were released.  At the instant of the failure one thread performs
any action and others encode objects, each anywhere, and the disk has what was flushed and anything else of the rest.

Then what is found begins with the lists of the first iterations of the run, all those logged by then.  The
resimulation of these goes to their end without an error or a panic; it logs the same messages of the sensors, the two
PIDs and the merger, payload, time of validity and status; the PIDs end up with the state that they had in the robot after
exactly these iterations; and the resimulation of whatever else is found only adds to that.

Missing: what was logged in the sections that were in use, flushes that do not wait for the disk (`C83_async_violated`)
and a stream that stays where it was (`C114_idle_violated`). -/
theorem C117_power_partial {page slabSize : Nat} (hz : ULog.SizesOk page slabSize)
    (hc : Clocked inp) (ht : ∀ p, Short (inp.text p)) {n : Nat} (hn : n < 4294967295) {rt : Rt Robot Payload}
    (h : loop inp n = .ok (rt, none)) (htext : inp'.text = inp.text) (hquit : ∀ k, inp'.quit k = false)
    {before after : List ULog.ConcOp} {op : ULog.ConcOp} (hin : ULog.Interleaved [] (before ++ after))
    (hops : ULog.HistoryOk page slabSize [] (ULog.calls (before ++ after ++ [op])))
    (hlog : ULog.objsOf .copperList [] (ULog.calls (before ++ after ++ [op])) <+:
      (loggedLists rt.w.trace).map (Wire.clCodec slots).enc)
    {c1 c : ULog.ConcSys} {disk disk' files' : List Bytes} (h1 : ULog.runConc slabSize page before = .ok c1)
    (hwait : ∀ (i : Nat) (st : ULog.Stream), c1.sys.streams[i]? = some (some st) → st.entryType = .copperList →
      c1.waiting i = none)
    (hu : ULog.UsedFirst .copperList false [] (ULog.calls before))
    (hpow : ULog.PoweredThreads true page slabSize (before ++ after) c disk)
    (hnew : ULog.Renewed c1.sys c.sys) (hold : c1.sys.lg.files.length ≤ c.sys.lg.oldestMapped + 1)
    {others : List (Nat × List Bytes)}
    (hk : ULog.KilledTogether c.sys.lg.files (c.effects op :: others.map (fun b => c.effects (.begin_ b.1 b.2))) files')
    (hlost : ULog.PowerFailed files' disk disk') :
    ∃ k rtk, k ≤ n ∧ loop inp k = .ok (rtk, none) ∧ (loggedLists rtk.w.trace).length = k ∧
      (loggedLists rtk.w.trace).map (Wire.clCodec slots).enc = ULog.objsOf .copperList [] (ULog.calls before) ∧
      ∃ rtm, BotResim.resim inp' (loggedLists rtk.w.trace) = .ok (rtm, none) ∧ rtm.w.st.panicked = [] ∧
        Pointwise (SameList plan) (loggedLists rtk.w.trace) (loggedLists rtm.w.trace) ∧
        rtm.w.st.rodPid = rtk.w.st.rodPid ∧ rtm.w.st.railPid = rtk.w.st.railPid ∧
        ∀ ns : List Nat, (∀ b ∈ ns, 0 < b) → (ULog.drainLog disk' .copperList ns).2 ≠ .more →
          let found := @dumpObjects _ (Wire.clCodec slots) (ULog.drainLog disk' .copperList ns).1
          loggedLists rtk.w.trace <+: found ∧
          ∀ rt' e, BotResim.resim inp' found = .ok (rt', e) → rtm.w.trace <+: rt'.w.trace := by
  obtain ⟨tail, htail⟩ := hlog
  obtain ⟨later, hlater⟩ : ∃ later, ULog.objsOf .copperList [] (ULog.calls before) ++ later =
      (loggedLists rt.w.trace).map (Wire.clCodec slots).enc := by
    rw [ULog.calls_append, ULog.calls_append, List.append_assoc, ULog.objsOf_append] at htail
    exact ⟨_, by rw [← htail, List.append_assoc]⟩
  obtain ⟨kept, lost, e1, e2, -⟩ := List.map_eq_append_iff.1 hlater.symm
  obtain ⟨hle, rtk, h3, h4⟩ := loop_take hc hn h (kept := kept) ⟨lost, e1.symm⟩
  obtain ⟨h5, rtm, r1, r2, r3, r4, r5⟩ := BotResim.C92_hardware hc (by omega) h3 htext hquit
  refine ⟨kept.length, rtk, hle, h3, h5, by rw [h4, e2], rtm, r1, r2, r3, r4, r5, fun ns hns hne => ?_⟩
  have hfound := @ULog.C114_export_partial _ (Wire.clCodec slots) (loggedLists rtk.w.trace)
    (fun a ha => Wire.rt_cl (loop_typed ht h3 a ha)) (fun a _ => Wire.cl_pos slots a) page slabSize hz .copperList
    (by decide) (by decide) before after op hin hops (by rw [h4, e2]) c1 c disk disk' files' h1 hwait hu hpow hnew hold
    others hk hlost ns hns hne
  refine ⟨hfound, fun rt' e hr => ?_⟩
  obtain ⟨x, hx⟩ := hfound
  rw [← hx] at hr
  exact resim_append r1 hr

/-! ### A robot that loses power in its fourth iteration -/

/-- What the robot would have logged in four iterations. -/
def fourLists : List (CL (List (Msg Payload))) :=
  match loop BotResim.calm 4 with
  | .ok (rt, none) => loggedLists rt.w.trace
  | _ => []

/-- Its bytes. -/
def fourBytes : Nat → Bytes
  | 0 =>
    [0, 4, 1, 251, 28, 12, 0, 252, 0, 9, 61, 0, 1, 252, 128, 132, 30, 0, 0, 0, 252, 64, 75, 76, 0, 252, 128,
    141, 91, 0, 0, 24, 0, 0, 0, 0, 0, 0, 0, 0, 0, 0, 0, 0, 0, 0, 0, 0, 0, 0, 0, 0, 0, 0, 0, 0, 1, 20, 252, 192,
    207, 106, 0, 252, 64, 84, 137, 0, 1, 252, 0, 18, 122, 0, 0, 0, 252, 128, 150, 152, 0, 252, 192, 216, 167, 0,
    0, 24, 0, 0, 0, 0, 0, 0, 0, 0, 0, 0, 0, 0, 0, 0, 0, 0, 0, 0, 0, 0, 0, 0, 0, 0, 0, 252, 0, 27, 183, 0, 252,
    64, 93, 198, 0, 0, 24, 0, 0, 0, 0, 0, 0, 0, 0, 0, 0, 0, 0, 0, 0, 0, 0, 0, 0, 0, 0, 0, 0, 0, 0, 0, 252, 128,
    159, 213, 0, 252, 192, 225, 228, 0, 0, 24, 0, 0, 0, 0, 0, 0, 0, 0, 0, 0, 0, 0, 0, 0, 0, 0, 0, 0, 0, 0, 0, 0,
    0, 0]
  | 1 =>
    [1, 4, 1, 251, 28, 12, 252, 0, 36, 244, 0, 252, 0, 45, 49, 1, 1, 252, 128, 168, 18, 1, 0, 1, 61, 10, 215,
    190, 0, 0, 0, 0, 0, 0, 0, 0, 61, 10, 215, 190, 252, 64, 111, 64, 1, 252, 128, 177, 79, 1, 0, 0, 1, 20, 252,
    192, 243, 94, 1, 252, 64, 120, 125, 1, 1, 252, 0, 54, 110, 1, 0, 1, 11, 215, 163, 187, 0, 0, 0, 0, 0, 0, 0,
    0, 11, 215, 163, 187, 252, 128, 186, 140, 1, 252, 192, 252, 155, 1, 0, 0, 1, 225, 122, 212, 190, 252, 0, 63,
    171, 1, 252, 64, 129, 186, 1, 0, 7, 65, 112, 112, 108, 105, 101, 100, 0, 252, 128, 195, 201, 1, 252, 192, 5,
    217, 1, 0, 24, 0, 0, 0, 0, 0, 0, 0, 0, 0, 0, 0, 0, 0, 0, 0, 0, 0, 0, 0, 0, 0, 0, 0, 0]
  | 2 =>
    [2, 4, 1, 251, 28, 12, 252, 0, 72, 232, 1, 252, 0, 81, 37, 2, 1, 252, 128, 204, 6, 2, 0, 1, 61, 10, 215,
    190, 0, 0, 0, 0, 0, 0, 0, 0, 61, 10, 215, 190, 252, 64, 147, 52, 2, 252, 128, 213, 67, 2, 0, 0, 1, 20, 252,
    192, 23, 83, 2, 252, 64, 156, 113, 2, 1, 252, 0, 90, 98, 2, 0, 1, 11, 215, 163, 187, 0, 0, 0, 0, 0, 0, 0, 0,
    11, 215, 163, 187, 252, 128, 222, 128, 2, 252, 192, 32, 144, 2, 0, 0, 1, 225, 122, 212, 190, 252, 0, 99,
    159, 2, 252, 64, 165, 174, 2, 0, 7, 65, 112, 112, 108, 105, 101, 100, 0, 252, 128, 231, 189, 2, 252, 192,
    41, 205, 2, 0, 24, 0, 0, 0, 0, 0, 0, 0, 0, 0, 0, 0, 0, 0, 0, 0, 0, 0, 0, 0, 0, 0, 0, 0, 0]
  | 3 =>
    [3, 4, 1, 251, 28, 12, 252, 0, 108, 220, 2, 252, 0, 117, 25, 3, 1, 252, 128, 240, 250, 2, 0, 1, 61, 10, 215,
    190, 0, 0, 0, 0, 0, 0, 0, 0, 61, 10, 215, 190, 252, 64, 183, 40, 3, 252, 128, 249, 55, 3, 0, 0, 1, 20, 252,
    192, 59, 71, 3, 252, 64, 192, 101, 3, 1, 252, 0, 126, 86, 3, 0, 1, 11, 215, 163, 187, 0, 0, 0, 0, 0, 0, 0,
    0, 11, 215, 163, 187, 252, 128, 2, 117, 3, 252, 192, 68, 132, 3, 0, 0, 1, 225, 122, 212, 190, 252, 0, 135,
    147, 3, 252, 64, 201, 162, 3, 0, 7, 65, 112, 112, 108, 105, 101, 100, 0, 252, 128, 11, 178, 3, 252, 192, 77,
    193, 3, 0, 24, 0, 0, 0, 0, 0, 0, 0, 0, 0, 0, 0, 0, 0, 0, 0, 0, 0, 0, 0, 0, 0, 0, 0, 0]
  | _ => []

theorem four_bytes : fourLists.map (Wire.clCodec slots).enc = [fourBytes 0, fourBytes 1, fourBytes 2, fourBytes 3] := by
  decide +kernel

/-- Two lists are logged in the first section. -/
def fourBefore : List ULog.ConcOp :=
  [.openStream .copperList 384, .begin_ 0 [fourBytes 0], .finish 0, .begin_ 0 [fourBytes 1], .finish 0]
/-- The third one needs another. -/
def fourAfter : List ULog.ConcOp := [.begin_ 0 [fourBytes 2], .finish 0]
/-- The power fails while the fourth one is encoded. -/
def fourOp : ULog.ConcOp := .begin_ 0 [fourBytes 3]

def fourLog (ops : List ULog.ConcOp) : ULog.ConcSys :=
  match ULog.runConc 832 16 ops with
  | .panic => ⟨⟨⟨0, 0, [], ⟨0, 0, [], 0⟩, []⟩, []⟩, fun _ => none⟩
  | .ok c => c

theorem fourLog_run {ops : List ULog.ConcOp} (h : (fourLog ops).sys.lg.files ≠ []) :
    ULog.runConc 832 16 ops = .ok (fourLog ops) := by
  unfold fourLog at h ⊢
  split at h
  · exact absurd rfl h
  · rename_i c hc
    rw [hc]

theorem steps_powered {durable : Bool} {page slabSize : Nat} {ops : List ULog.ConcOp} : ∀ {done : List ULog.ConcOp}
    {c c' : ULog.ConcSys} {disk : List Bytes}, ULog.PoweredThreads durable page slabSize done c disk → c.steps ops = .ok c' →
    ∃ disk', ULog.PoweredThreads durable page slabSize (done ++ ops) c' disk' := by
  induction ops with
  | nil => intro done c c' disk h hs; cases hs; exact ⟨disk, by simpa using h⟩
  | cons op ops ih =>
    intro done c c' disk h hs
    simp only [ULog.ConcSys.steps] at hs
    split at hs
    · cases hs
    · rename_i c1 h1
      obtain ⟨disk', h2⟩ := ih (h.act h1) hs
      exact ⟨disk', by simpa using h2⟩

/-- There is a disk for every use of the log. -/
theorem run_powered {durable : Bool} {page slabSize : Nat} {ops : List ULog.ConcOp} {c : ULog.ConcSys}
    (h : ULog.runConc slabSize page ops = .ok c) : ∃ disk, ULog.PoweredThreads durable page slabSize ops c disk := by
  unfold ULog.runConc at h
  split at h
  · cases h
  · rename_i lg hlg
    exact steps_powered (.new hlg) h

theorem four_ops : ULog.calls (fourBefore ++ fourAfter ++ [fourOp]) =
    .openStream .copperList 384 :: logOps fourLists := by
  have h := four_bytes
  have hl : fourLists.length = 4 := by simpa using congrArg List.length h
  unfold logOps
  generalize fourLists = l at h hl
  match l, hl with
  | [a, b, c, d], _ =>
    simp only [List.map_cons, List.map_nil, List.cons.injEq, and_true] at h
    obtain ⟨h0, h1, h2, h3⟩ := h
    simp only [List.map_cons, List.map_nil, h0, h1, h2, h3]
    rfl

theorem four_idle (i : Nat) : (fourLog fourBefore).sys.streams[i]?.join.isSome → (fourLog fourBefore).waiting i = none :=
  one_idle (by decide +kernel) (by decide +kernel) i

/-- Whatever instant of the encoding it is, and whatever is on the disk beside what was flushed. -/
example {disk files' disk' : List Bytes}
    (hpow : ULog.PoweredThreads true 16 832 (fourBefore ++ fourAfter) (fourLog (fourBefore ++ fourAfter)) disk)
    (hk : ULog.KilledTogether (fourLog (fourBefore ++ fourAfter)).sys.lg.files
      [(fourLog (fourBefore ++ fourAfter)).effects fourOp] files')
    (hlost : ULog.PowerFailed files' disk disk') :
    ∃ k rtk, k ≤ 4 ∧ loop BotResim.calm k = .ok (rtk, none) ∧
      (loggedLists rtk.w.trace).map (Wire.clCodec slots).enc = [fourBytes 0, fourBytes 1] ∧
      ∃ rtm, BotResim.resim BotResim.calm (loggedLists rtk.w.trace) = .ok (rtm, none) ∧
        rtm.w.st.rodPid = rtk.w.st.rodPid := by
  obtain ⟨rt, h, -⟩ := (C88_total BotResim.calm_clocked 4 (by decide)).1 (by decide) (fun _ _ => rfl)
  have hl : loggedLists rt.w.trace = fourLists := by unfold fourLists; rw [h]
  have hsz : ∀ cl ∈ fourLists, ((Wire.clCodec slots).enc cl).length + 15 ≤ 384 := by
    intro cl hcl
    have h := List.mem_map_of_mem (f := (Wire.clCodec slots).enc) hcl
    rw [four_bytes] at h
    have : ∀ bs ∈ [fourBytes 0, fourBytes 1, fourBytes 2, fourBytes 3], bs.length + 15 ≤ 384 := by decide +kernel
    exact this _ h
  obtain ⟨k, rtk, k1, k2, -, k3, rtm, k4, -, -, k5, -⟩ := C117_power_partial (page := 16) (slabSize := 832)
    (inp' := BotResim.calm) (before := fourBefore) (after := fourAfter) (op := fourOp)
    ⟨by decide, by decide, by decide⟩ BotResim.calm_clocked
    (fun p => ⟨by cases p <;> simp only [BotResim.calm] <;> decide⟩) (by decide) h rfl (fun _ => rfl)
    (by simp [fourBefore, fourAfter, ULog.Interleaved])
    (by
      rw [four_ops]
      exact ⟨by decide, by decide, by simp, ⟨by decide, by decide, by decide⟩, logOps_ok hsz⟩)
    (by
      rw [four_ops, hl]
      exact (logOps_objs fourLists 384) ▸ List.prefix_refl _)
    (c1 := fourLog fourBefore) (fourLog_run (by decide +kernel))
    (fun i st h _ => four_idle i (by rw [h]; rfl))
    ⟨fun _ => rfl, trivial⟩
    hpow (ULog.renewed_of (by decide +kernel)) (by decide +kernel) (others := []) hk hlost
  exact ⟨k, rtk, k1, k2, k3, rtm, k4, k5⟩

/-- There is such a disk; and what is found when nothing but what was flushed has arrived, two lists. -/
example : (∃ disk, ULog.PoweredThreads true 16 832 (fourBefore ++ fourAfter) (fourLog (fourBefore ++ fourAfter)) disk) ∧
    (match ULog.drainLog [[180, 165, 80, 255, 16, 16] ++ List.replicate 10 0 ++ [250, 87, 2, 251, 128, 1, 251, 91, 1] ++
        List.replicate 6 0 ++ fourBytes 0 ++ fourBytes 1 ++ List.replicate 454 0] .copperList [400, 400, 400] with
      | (d, e) => (@dumpObjects _ (Wire.clCodec slots) d, e)) = (fourLists.take 2, .failed) :=
  ⟨run_powered (fourLog_run (by decide +kernel)), by decide +kernel⟩

end Bot
end Verif
