import Verif.Proofs.BalanceKilled
import Verif.Props.Killed
/-!
C117: the log of a balancing robot that was killed, resimulated.
-/
namespace Verif
namespace Bot
open Clock CopperList Planner Verif.Runtime Fp Bincode
variable {inp inp' : Inputs}

/-- What the robot logs, whatever its sensors delivered, whichever readings failed and however the run ended, is read
back from its bytes as it was: the numbers of the controllers are written with all their bits, NaN and the infinities
included. -/
theorem C117_wire (ht : ∀ p, Short (inp.text p)) {n : Nat} {rt : Rt Robot Payload} {e : Option Err}
    (h : loop inp n = .ok (rt, e)) {cl : CL (List (Msg Payload))} (hcl : cl ∈ loggedLists rt.w.trace) (rest : Bytes) :
    (Wire.clCodec slots).dec ((Wire.clCodec slots).enc cl ++ rest) = .ok (cl, rest) :=
  Wire.rt_cl (loop_typed ht h cl hcl) rest

/-- The robot is killed: `done` of the operations on its log were made, and the kill falls anywhere in the next one,
`op`.  The operations are any, on any streams (the structured log has its own), of which those on the stream of copper
lists log what the robot logged.  What is left of the files is read, with any buffer sizes, until the reader stops
delivering, in whatever way.

The lists found are those of the first iterations of the run, as many as there are, none altered.  The resimulation
goes to the end of them without an error or a panic; it logs the same messages of the sensors, the two PIDs and the
merger, payload, time of validity and status; and the PIDs end up with the state that they had in the robot after
exactly these iterations. -/
theorem C117_resimulated {page slabSize : Nat} (hz : ULog.SizesOk page slabSize) (h256 : 256 ∣ page)
    (hc : Clocked inp) (ht : ∀ p, Short (inp.text p)) {n : Nat} (hn : n < 4294967295) {rt : Rt Robot Payload}
    (h : loop inp n = .ok (rt, none)) (htext : inp'.text = inp.text) (hquit : ∀ k, inp'.quit k = false)
    {done rest : List ULog.LogOp} {op : ULog.LogOp} (hops : ULog.HistoryOk page slabSize [] (done ++ op :: rest))
    (hlog : ULog.objsOf .copperList [] (done ++ op :: rest) =
      (loggedLists rt.w.trace).map (Wire.clCodec slots).enc) :
    ∃ s, ULog.runLog slabSize page done = .ok s ∧
      ∀ files', ULog.KilledDuring s.lg.files (s.effects op) files' →
        ∃ k rtk, k ≤ n ∧ loop inp k = .ok (rtk, none) ∧
          (∀ ns : List Nat, (∀ b ∈ ns, 0 < b) → (ULog.drainLog files' .copperList ns).2 ≠ .more →
            @dumpObjects _ (Wire.clCodec slots) (ULog.drainLog files' .copperList ns).1 = loggedLists rtk.w.trace) ∧
          ∃ rt', BotResim.resim inp' (loggedLists rtk.w.trace) = .ok (rt', none) ∧ rt'.w.st.panicked = [] ∧
            Pointwise (SameList plan) (loggedLists rtk.w.trace) (loggedLists rt'.w.trace) ∧
            rt'.w.st.rodPid = rtk.w.st.rodPid ∧ rt'.w.st.railPid = rtk.w.st.railPid := by
  have hops' : ULog.HistoryOk page slabSize [] (done ++ [op]) := ULog.historyOk_prefix (b := rest) (by simpa using hops)
  obtain ⟨s, h1, h2⟩ := ULog.log_kill (t := .copperList) hz h256 (by decide) (by decide) hops'
  refine ⟨s, h1, fun files' hk => ?_⟩
  obtain ⟨part, hpart, hread, -⟩ := h2 files' hk
  have hpre : part <+: @encAll _ (Wire.clCodec slots) (loggedLists rt.w.trace) := by
    rw [← @flatten_enc _ (Wire.clCodec slots), ← hlog, ULog.objsOf_append, List.flatten_append]
    exact hpart.trans (List.prefix_append _ _)
  obtain ⟨kept, lost, e1, e2, -⟩ := @dump_part _ (Wire.clCodec slots) (Dec.Sequential.cl slots_sequential) _
    (fun a ha => Wire.rt_cl (loop_typed ht h a ha)) (fun a _ => Wire.cl_pos slots a) _ (Wire.cl_end slots) _ hpre
  obtain ⟨hle, rtk, h3, h4⟩ := loop_take hc hn h (kept := kept) ⟨lost, e1.symm⟩
  refine ⟨kept.length, rtk, hle, h3, fun ns hns hne => ?_, ?_⟩
  · rw [(hread ns hns).2.1 hne, e2, h4]
  · exact (BotResim.C92_hardware hc (by omega) h3 htext hquit).2

/-- How much is found: if the section of copper lists that was being filled is in the oldest slab still in use, all
the iterations but those whose lists are in this section.  Missing: a section in a later slab (see `C59_violated`). -/
theorem C117_found_partial {page slabSize : Nat} (hz : ULog.SizesOk page slabSize) (h256 : 256 ∣ page)
    (hc : Clocked inp) (ht : ∀ p, Short (inp.text p)) {n : Nat} (hn : n < 4294967295) {rt : Rt Robot Payload}
    (h : loop inp n = .ok (rt, none))
    {done rest : List ULog.LogOp} {op : ULog.LogOp} (hops : ULog.HistoryOk page slabSize [] (done ++ op :: rest))
    (hlog : ULog.objsOf .copperList [] (done ++ op :: rest) =
      (loggedLists rt.w.trace).map (Wire.clCodec slots).enc) (hused : ULog.UsedFirst .copperList false [] done) :
    ∃ s, ULog.runLog slabSize page done = .ok s ∧
      ∀ files', ULog.KilledDuring s.lg.files (s.effects op) files' →
        ∀ (i : Nat) (st : ULog.Stream), s.streams[i]? = some (some st) → st.entryType = .copperList →
          st.section_.slab ≤ s.lg.oldestMapped →
          ∃ k rtk before held later, loop inp k = .ok (rtk, none) ∧
            (∀ ns : List Nat, (∀ b ∈ ns, 0 < b) → (ULog.drainLog files' .copperList ns).2 ≠ .more →
              @dumpObjects _ (Wire.clCodec slots) (ULog.drainLog files' .copperList ns).1 = loggedLists rtk.w.trace) ∧
            loggedLists rt.w.trace = before ++ held ++ later ∧
            (before ++ held).map (Wire.clCodec slots).enc = ULog.objsOf .copperList [] done ∧
            (@encAll _ (Wire.clCodec slots) held).length = st.section_.used ∧ before.length ≤ k := by
  have hops' : ULog.HistoryOk page slabSize [] (done ++ [op]) := ULog.historyOk_prefix (b := rest) (by simpa using hops)
  obtain ⟨s, h1, h2⟩ := ULog.log_kill (t := .copperList) hz h256 (by decide) (by decide) hops'
  refine ⟨s, h1, fun files' hk i st hst hty hsl => ?_⟩
  obtain ⟨part, hpart, hread, hcov⟩ := h2 files' hk
  obtain ⟨a, b, hab, hb, -, ha⟩ := hcov hused i st hst hty hsl
  have hpre : part <+: @encAll _ (Wire.clCodec slots) (loggedLists rt.w.trace) := by
    rw [← @flatten_enc _ (Wire.clCodec slots), ← hlog, ULog.objsOf_append, List.flatten_append]
    exact hpart.trans (List.prefix_append _ _)
  obtain ⟨kept, lost, e1, e2, e3⟩ := @dump_part _ (Wire.clCodec slots) (Dec.Sequential.cl slots_sequential) _
    (fun a ha => Wire.rt_cl (loop_typed ht h a ha)) (fun a _ => Wire.cl_pos slots a) _ (Wire.cl_end slots) _ hpre
  obtain ⟨hle, rtk, h3, h4⟩ := loop_take hc hn h (kept := kept) ⟨lost, e1.symm⟩
  rw [ULog.objsOf_append] at hlog
  obtain ⟨xy, later, k1, k2, k3⟩ := List.map_eq_append_iff.1 hlog.symm
  rw [hab] at k2
  obtain ⟨before, held, rfl, k4, k5⟩ := List.map_eq_append_iff.1 k2
  refine ⟨kept.length, rtk, before, held, later, h3, fun ns hns hne => ?_, k1, ?_, ?_, ?_⟩
  · rw [(hread ns hns).2.1 hne, e2, h4]
  · rw [k2, hab]
  · rw [← @flatten_enc _ (Wire.clCodec slots)]
    exact (congrArg (fun x => (List.flatten x).length) k5).trans hb
  · refine (e3 before (held ++ later) (by rw [k1, List.append_assoc]) ?_).length_le
    rw [← @flatten_enc _ (Wire.clCodec slots)]
    exact (congrArg List.flatten k4) ▸ ha

/-! ### A robot that is killed in its third iteration -/

/-- What the robot logs in three iterations. -/
def calmLists : List (CL (List (Msg Payload))) :=
  match loop BotResim.calm 3 with
  | .ok (rt, none) => loggedLists rt.w.trace
  | _ => []

/-- Its log, whose only stream is that of its copper lists. -/
def logOps (cls : List (CL (List (Msg Payload)))) : List ULog.LogOp :=
  cls.map (fun cl => .log 0 [(Wire.clCodec slots).enc cl])

def calmDone : List ULog.LogOp := .openStream .copperList 256 :: logOps (calmLists.take 2)
def calmOp : ULog.LogOp := .log 0 ((calmLists.drop 2).map (Wire.clCodec slots).enc)

theorem logOps_objs (cls : List (CL (List (Msg Payload)))) (k : Nat) :
    ULog.objsOf .copperList [some (.copperList, k)] (logOps cls) = cls.map (Wire.clCodec slots).enc := by
  induction cls with
  | nil => rfl
  | cons a cls ih =>
    show ULog.objOf .copperList [some (.copperList, k)] (.log 0 [(Wire.clCodec slots).enc a]) ++
      ULog.objsOf .copperList [some (.copperList, k)] (logOps cls) = _
    rw [ih]
    simp [ULog.objOf]

theorem logOps_ok {page slabSize k : Nat} {cls : List (CL (List (Msg Payload)))}
    (h : ∀ cl ∈ cls, ((Wire.clCodec slots).enc cl).length + 15 ≤ k) :
    ULog.HistoryOk page slabSize [some (.copperList, k)] (logOps cls) := by
  induction cls with
  | nil => trivial
  | cons a cls ih =>
    refine ⟨fun t n hn => ?_, ih fun cl hcl => h cl (by simp [hcl])⟩
    have := h a (by simp)
    simp only [List.getElem?_cons_zero, Option.some.injEq, Prod.mk.injEq] at hn
    obtain ⟨-, rfl⟩ := hn
    simp only [List.flatten_cons, List.flatten_nil, List.append_nil]
    omega

theorem calm_split : calmDone ++ [calmOp] = .openStream .copperList 256 :: logOps calmLists := by
  have h : calmLists.length = 3 := by decide +kernel
  unfold calmDone calmOp logOps
  generalize calmLists = l at h
  match l, h with
  | [a, b, c], _ => rfl

/-- Killed at any instant of logging its third list: what the resimulation does. -/
example : ∃ s, ULog.runLog 2048 256 calmDone = .ok s ∧
    ∀ files', ULog.KilledDuring s.lg.files (s.effects calmOp) files' →
      ∃ k rtk, k ≤ 3 ∧ loop BotResim.calm k = .ok (rtk, none) ∧
        ∃ rt', BotResim.resim BotResim.calm (loggedLists rtk.w.trace) = .ok (rt', none) ∧
          rt'.w.st.rodPid = rtk.w.st.rodPid := by
  obtain ⟨rt, h, -⟩ := (C88_total BotResim.calm_clocked 3 (by decide)).1 (by decide) (fun _ _ => rfl)
  have hl : loggedLists rt.w.trace = calmLists := by unfold calmLists; rw [h]
  have hsz : ∀ cl ∈ calmLists, ((Wire.clCodec slots).enc cl).length + 15 ≤ 256 := by decide +kernel
  obtain ⟨s, h1, h2⟩ := C117_resimulated (page := 256) (slabSize := 2048) (inp' := BotResim.calm)
    (done := calmDone) (op := calmOp) (rest := [])
    ⟨by decide, by decide, by decide⟩ (by decide) BotResim.calm_clocked
    (fun p => ⟨by cases p <;> simp only [BotResim.calm] <;> decide⟩) (by decide) h rfl (fun _ => rfl)
    (by
      rw [calm_split]
      exact ⟨by decide, by decide, by simp, ⟨by decide, by decide, by decide⟩, logOps_ok hsz⟩)
    (by
      rw [calm_split, hl]
      exact logOps_objs calmLists 256)
  refine ⟨s, h1, fun files' hk => ?_⟩
  obtain ⟨k, rtk, k1, k2, -, rt', k3, -, -, k4, -⟩ := h2 files' hk
  exact ⟨k, rtk, k1, k2, rt', k3, k4⟩

/-- The log when the third list is being logged, and a kill in the middle of it: the first two lists are found. -/
def calmLog : ULog.LogSys :=
  match ULog.runLog 2048 256 calmDone with
  | .ok s => s
  | .panic => ⟨⟨0, 0, [], ⟨0, 0, [], 0⟩, []⟩, []⟩

example : (match ULog.drainLog (ULog.cutAt calmLog.lg.files (calmLog.effects calmOp) 2 2) .copperList [400, 400, 400] with
    | (d, e) => (decide (@dumpObjects _ (Wire.clCodec slots) d = calmLists.take 2), e)) = (true, .failed) := by
  decide +kernel

/-- The bytes of a command of -0.415, in the middle of the bytes of the last list. -/
example : Fp.codec.enc (.fin (-13925089 / 33554432)) = [225, 122, 212, 190] ∧
    calmLists.map (fun cl => cl.msgs[4]?.bind Msg.payload) =
      [none, some (.motor (.fin (-13925089 / 33554432))), some (.motor (.fin (-13925089 / 33554432)))] := by
  decide +kernel

theorem logOps_used (cls : List (CL (List (Msg Payload)))) (idle : Bool) (live : List (Option (ULog.EntryType × Nat))) :
    ULog.UsedFirst .copperList idle live (logOps cls) := by
  induction cls generalizing idle with
  | nil => trivial
  | cons a cls ih => exact ih _

/-- The further hypotheses of `C117_found_partial`. -/
example : ULog.UsedFirst .copperList false [] calmDone ∧ calmLog.lg.files.length = 1 ∧
    calmLog.streams.map (·.map (fun st => (st.entryType, decide (st.section_.slab ≤ calmLog.lg.oldestMapped),
      st.section_.used))) = [some (.copperList, true, 161)] :=
  ⟨⟨fun _ => rfl, logOps_used _ _ _⟩, by decide +kernel, by decide +kernel⟩

end Bot
end Verif
