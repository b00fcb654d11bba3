import Verif.Proofs.KillExport
import Verif.Props.CrashExport
import Verif.Spec.Killed
/-!
C94: a process killed at any instant of an operation on its log, and the copper lists exported from
what is left.
-/
namespace Verif

namespace ULog

/-- The effects considered below are those of the operation: if they all happen, the files are those
of the log after the operation. -/
theorem C94_effects {page slabSize : Nat} (hz : SizesOk page slabSize) {ops : List LogOp} {op : LogOp}
    (hops : HistoryOk page slabSize [] (ops ++ [op])) :
    ∃ s s', runLog slabSize page ops = .ok s ∧ s.step op = .ok s' ∧
      (s.effects op).foldl Effect.apply s.lg.files = s'.lg.files :=
  log_effects hz hops

/-- Any history of operations on the streams of a log; the process is killed at any instant of the
next one, in the middle of a store included.  Read what is left as a byte stream of a type, with any
buffer sizes, until the reader stops delivering: it delivered an initial part of what was logged with
that type before the kill.  If something was logged on every stream of this type before the next one
was opened, and the section of the last one is in the oldest slab still in use, that part contains
everything but what is in this section. -/
theorem C94_stream {page slabSize : Nat} (hz : SizesOk page slabSize) (hp : 256 ∣ page) {t : EntryType}
    (ht : t ≠ .lastEntry) (ht' : t ≠ .empty) {ops : List LogOp} {op : LogOp}
    (hops : HistoryOk page slabSize [] (ops ++ [op])) :
    ∃ s, runLog slabSize page ops = .ok s ∧
      ∀ files', KilledDuring s.lg.files (s.effects op) files' →
        ∃ part, part <+: (objsOf t [] ops).flatten ∧
          (∀ ns : List Nat, (∀ n ∈ ns, 0 < n) →
            (drainLog files' t ns).1 <+: part ∧
            ((drainLog files' t ns).2 ≠ .more → (drainLog files' t ns).1 = part) ∧
            (part.length < ns.length → (drainLog files' t ns).2 ≠ .more)) ∧
          (UsedFirst t false [] ops →
            ∀ (i : Nat) (st : Stream), s.streams[i]? = some (some st) → st.entryType = t →
            st.section_.slab ≤ s.lg.oldestMapped →
            ∃ a b, objsOf t [] ops = a ++ b ∧ b.flatten.length = st.section_.used ∧
              15 + b.flatten.length ≤ st.minAlloc ∧ a.flatten <+: part) :=
  log_kill hz hp ht ht' hops

end ULog

namespace Runtime
open Planner CopperList Clock Bincode
variable {σ P : Type}

/-- Any run, whatever the tasks, the monitor and the simulation do; `done` of the operations of the
run on its log were made when the process is killed, at any instant of the next one, `op`.  Read what
is left of the files as a byte stream of copper lists with any buffer sizes until the reader stops
delivering, in whatever way, and dump what it delivered: the lists obtained are an initial segment of
those logged before the kill, none altered, none invented, none cut. -/
theorem C94_safe {page slabSize : Nat} (hz : ULog.SizesOk page slabSize) (hp : 256 ∣ page)
    (app : App σ P) (hist : σ → List ULog.LogOp) (k : Nat) (slots : List (Codec P))
    (pieces : CL (List (Msg P)) → List Bytes) (hl : LogsTo app.env hist k pieces)
    (hpieces : ∀ cl, (pieces cl).flatten = (Wire.clCodec slots).enc cl)
    (hslots : ∀ c ∈ slots, Dec.Sequential c.dec)
    (n : Nat) (rt rt' : Rt σ P) (r : RunResult) (h0 : StreamReady k [] (hist rt.w.st))
    (h : run app n rt = .ok (rt', r))
    (hops : ULog.HistoryOk page slabSize [] (hist rt'.w.st))
    (htyped : ∀ cl ∈ loggedLists rt'.w.trace, Typed slots cl)
    (done rest : List ULog.LogOp) (op : ULog.LogOp)
    (hc : hist rt'.w.st = hist rt.w.st ++ done ++ op :: rest) :
    ∃ t s, rt'.w.trace = rt.w.trace ++ t ∧
      ULog.runLog slabSize page (hist rt.w.st ++ done) = .ok s ∧
      ∀ files', ULog.KilledDuring s.lg.files (s.effects op) files' →
        ∃ kept lost later, loggedLists t = kept ++ lost ++ later ∧
          (kept ++ lost).length = logCalls k done ∧
          ∀ ns : List Nat, (∀ b ∈ ns, 0 < b) →
            let read := ULog.drainLog files' .copperList ns
            (read.2 ≠ .more → @dumpObjects _ (Wire.clCodec slots) read.1 = kept) ∧
              ((@encAll _ (Wire.clCodec slots) (kept ++ lost)).length < ns.length → read.2 ≠ .more) := by
  obtain ⟨t, later, h1, h2, h3, _, _, h6⟩ := crash_objs hl h0 h hops hc
  have hops' : ULog.HistoryOk page slabSize [] ((hist rt.w.st ++ done) ++ [op]) := by
    rw [hc] at hops
    exact ULog.historyOk_prefix (b := rest) (by simpa using hops)
  obtain ⟨s, h7, h8⟩ := ULog.log_kill (t := .copperList) hz hp (by decide) (by decide) hops'
  refine ⟨t, s, h1, h7, fun files' hk => ?_⟩
  obtain ⟨o, ho, hd, _⟩ := h8 files' hk
  rw [h6, flatten_pieces hpieces] at ho
  have hty : ∀ cl ∈ (loggedLists t).take (logCalls k done), Typed slots cl := by
    intro cl hcl
    refine htyped cl ?_
    rw [h1, loggedLists_append]
    exact List.mem_append_right _ (List.mem_of_mem_take hcl)
  obtain ⟨kept, lost, e1, e2, _⟩ := @dump_part _ (Wire.clCodec slots) (Dec.Sequential.cl hslots) _
    (fun a ha => Wire.rt_cl (hty a ha)) (fun a _ => Wire.cl_pos slots a) _ (Wire.cl_end slots) _ ho
  refine ⟨kept, lost, later, by rw [← e1, h2], by rw [← e1, h3], fun ns hns => ?_⟩
  obtain ⟨d1, d2, d3⟩ := hd ns hns
  refine ⟨fun hne => by rw [d2 hne, e2], fun hlen => d3 ?_⟩
  have := ho.length_le
  rw [← e1] at hlen
  omega

/-- The same, when the section of the copper lists is in the oldest slab of the log that is still in
use: the lists lost are in the section that was being filled when the operation began.  Missing: a
later slab (see `C59_violated`). -/
theorem C94_crash_partial {page slabSize : Nat} (hz : ULog.SizesOk page slabSize) (hp : 256 ∣ page)
    (app : App σ P) (hist : σ → List ULog.LogOp) (k : Nat) (slots : List (Codec P))
    (pieces : CL (List (Msg P)) → List Bytes) (hl : LogsTo app.env hist k pieces)
    (hpieces : ∀ cl, (pieces cl).flatten = (Wire.clCodec slots).enc cl)
    (hslots : ∀ c ∈ slots, Dec.Sequential c.dec)
    (n : Nat) (rt rt' : Rt σ P) (r : RunResult) (h0 : StreamReady k [] (hist rt.w.st))
    (h : run app n rt = .ok (rt', r))
    (hops : ULog.HistoryOk page slabSize [] (hist rt'.w.st))
    (htyped : ∀ cl ∈ loggedLists rt'.w.trace, Typed slots cl)
    (done rest : List ULog.LogOp) (op : ULog.LogOp)
    (hc : hist rt'.w.st = hist rt.w.st ++ done ++ op :: rest) :
    ∃ t s, rt'.w.trace = rt.w.trace ++ t ∧
      ULog.runLog slabSize page (hist rt.w.st ++ done) = .ok s ∧
      ∀ files', ULog.KilledDuring s.lg.files (s.effects op) files' →
      ∀ (i : Nat) (st : ULog.Stream), s.streams[i]? = some (some st) → st.entryType = .copperList →
        st.section_.slab ≤ s.lg.oldestMapped →
        ∃ before held later, loggedLists t = before ++ held ++ later ∧
          (before ++ held).length = logCalls k done ∧
          (@encAll _ (Wire.clCodec slots) held).length = st.section_.used ∧
          (@encAll _ (Wire.clCodec slots) held).length + 15 ≤ st.minAlloc ∧
          ∃ kept, before <+: kept ∧ kept <+: before ++ held ∧
            ∀ ns : List Nat, (∀ b ∈ ns, 0 < b) →
              let read := ULog.drainLog files' .copperList ns
              (read.2 ≠ .more → @dumpObjects _ (Wire.clCodec slots) read.1 = kept) ∧
                ((@encAll _ (Wire.clCodec slots) (before ++ held)).length < ns.length → read.2 ≠ .more) := by
  obtain ⟨t, later, h1, h2, h3, _, h5, h6⟩ := crash_objs hl h0 h hops hc
  have hops' : ULog.HistoryOk page slabSize [] ((hist rt.w.st ++ done) ++ [op]) := by
    rw [hc] at hops
    exact ULog.historyOk_prefix (b := rest) (by simpa using hops)
  obtain ⟨s, h7, h8⟩ := ULog.log_kill (t := .copperList) hz hp (by decide) (by decide) hops'
  refine ⟨t, s, h1, h7, fun files' hk i st hst hst2 hsl => ?_⟩
  obtain ⟨o, ho, hd, hcov⟩ := h8 files' hk
  obtain ⟨a, b, h9, hu, hfit, hao⟩ := hcov (ULog.used_of_never (ULog.historyOk_prefix hops') h5 (by simp)) i st hst hst2 hsl
  rw [h6] at h9
  obtain ⟨x, y, h10, h11, h12⟩ := pieces_split hpieces h9
  rw [h12] at hu hfit
  rw [h11] at hao
  rw [h6, flatten_pieces hpieces] at ho
  have hty : ∀ cl ∈ (loggedLists t).take (logCalls k done), Typed slots cl := by
    intro cl hcl
    refine htyped cl ?_
    rw [h1, loggedLists_append]
    exact List.mem_append_right _ (List.mem_of_mem_take hcl)
  obtain ⟨kept, lost, e1, e2, e3⟩ := @dump_part _ (Wire.clCodec slots) (Dec.Sequential.cl hslots) _
    (fun a ha => Wire.rt_cl (hty a ha)) (fun a _ => Wire.cl_pos slots a) _ (Wire.cl_end slots) _ ho
  refine ⟨x, y, later, by rw [← h10, h2], by rw [← h10, h3], hu, by omega, kept, e3 x y h10 hao,
    ⟨lost, by rw [← e1, h10]⟩, fun ns hns => ?_⟩
  obtain ⟨d1, d2, d3⟩ := hd ns hns
  refine ⟨fun hne => by rw [d2 hne, e2], fun hlen => d3 ?_⟩
  have := ho.length_le
  rw [← h10] at hlen
  omega

/-! ### A kill that makes the reader hang -/

/-- The third copper list of the demo application needs a new section.  The first part of what the
run does with its log, before that list is logged. -/
def hangHistory : List ULog.LogOp := demoCrashEnd.w.st.2.take 13

/-- The log at that moment, in pages of 256 bytes. -/
def hangLog : ULog.LogSys :=
  match ULog.runLog 2048 256 hangHistory with
  | .ok s => s
  | .panic => ⟨⟨0, 0, [], ⟨0, 0, [], 0⟩, []⟩, []⟩

def hangOp : ULog.LogOp :=
  .log 1 [[2, 4, 1, 18, 17, 18, 0, 0, 1, 251, 250, 3, 19, 20, 0, 0, 0, 21, 22, 0, 0]]

/-- The process is killed when the first two bytes of the header of the new section are stored. -/
def hangFiles : List Bytes := ULog.cutAt hangLog.lg.files (hangLog.effects hangOp) 2 2

example : demoCrashEnd.w.st.2 = demoLoggedStart.w.st.2 ++ hangHistory.drop 2 ++ [hangOp] ∧
    (∀ c ∈ demoSlots, Dec.Sequential c.dec) ∧ ULog.SizesOk 256 2048 := by
  refine ⟨by decide +kernel, ?_, by decide, by decide, by decide⟩
  intro c hc
  simp only [demoSlots, List.mem_cons, List.not_mem_nil, or_false] at hc
  rcases hc with rfl | rfl | rfl
  · exact Dec.Sequential.u64.bind fun _ => .pure _
  · exact Dec.Sequential.u16.bind fun _ => .pure _
  · exact .pure _

example : hangLog.streams[1]?.any (fun o => o.any (fun st => st.entryType = .copperList ∧
      st.section_.used = 42 ∧ st.section_.slab ≤ hangLog.lg.oldestMapped)) = true ∧
    ULog.drainLog hangFiles .copperList [30, 30, 30] =
      ((loggedLists demoCrashEnd.w.trace).take 2 |>.map (Wire.clCodec demoSlots).enc |>.flatten, .failed) := by
  decide +kernel

/-- A reader of copper lists gets the two lists of the first section, then loops forever: the header
it reads next is that of an empty section of size 0. -/
theorem C94_hang_violated :
    ULog.HistoryOk 256 2048 [] (hangHistory ++ [hangOp]) ∧
    ULog.runLog 2048 256 hangHistory = .ok hangLog ∧
    ULog.KilledDuring hangLog.lg.files (hangLog.effects hangOp) hangFiles ∧
    ∃ r0 r1, ULog.Reader.new hangFiles = .ok r0 ∧
      ULog.readNext hangFiles .copperList (ULog.readFuel hangFiles) r0 =
        .ok (some ((loggedLists demoCrashEnd.w.trace).take 2 |>.map (Wire.clCodec demoSlots).enc |>.flatten), r1) ∧
      ∀ fuel, ULog.readNext hangFiles .copperList fuel r1 = .diverges := by
  have h : hangHistory ++ [hangOp] =
      [.openStream .structuredLogLine 32, .openStream .copperList 64,
        .log 0 [[1, 2], [3]], .log 0 [[1, 2], [3]], .log 0 [[1, 2], [3]],
        .log 1 [[0, 4, 1, 6, 5, 6, 0, 0, 1, 251, 238, 3, 7, 8, 0, 0, 0, 9, 10, 0, 0]],
        .log 0 [[1, 2], [3]], .log 0 [[1, 2], [3]], .log 0 [[1, 2], [3]],
        .log 1 [[1, 4, 1, 12, 11, 12, 0, 0, 1, 251, 244, 3, 13, 14, 0, 0, 0, 15, 16, 0, 0]],
        .log 0 [[1, 2], [3]], .log 0 [[1, 2], [3]], .log 0 [[1, 2], [3]],
        .log 1 [[2, 4, 1, 18, 17, 18, 0, 0, 1, 251, 250, 3, 19, 20, 0, 0, 0, 21, 22, 0, 0]]] := by decide +kernel
  refine ⟨?_, ?_, ULog.killed_cutAt _ _ _ _, ⟨0, 256⟩, ⟨0, 768⟩, by decide +kernel, by decide +kernel, ?_⟩
  · rw [h]
    simp only [ULog.HistoryOk]
    refine ⟨by decide, by decide, by simp, ⟨by decide, by decide, by decide⟩, by decide, by decide,
      by simp, ⟨by decide, by decide, by decide⟩, ?_⟩
    simp
  · have h1 : (match ULog.runLog 2048 256 hangHistory with | .ok _ => true | .panic => false) = true := by
      decide +kernel
    unfold hangLog
    split at h1
    · rename_i s hs; rw [hs]
    · cases h1
  · intro fuel
    cases fuel with
    | zero => rfl
    | succ n =>
      have h1 : (⟨0, 768⟩ : ULog.Reader).advance hangFiles = .ok ⟨0, 768⟩ := by decide +kernel
      have h2 : ULog.readHeader hangFiles ⟨0, 768⟩ =
          .ok (ULog.mkHeader .structuredLogLine 256 0) := by decide +kernel
      unfold ULog.readNext
      simp only [h1, h2]
      exact ULog.readNext_loop (h := ULog.mkHeader .empty 0 0) (by decide +kernel)
        (by decide +kernel) (by decide) (by decide) rfl n

end Runtime
end Verif
