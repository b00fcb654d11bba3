import Verif.Proofs.CrashExport
import Verif.Props.EndToEnd
/-!
C59: from a run whose process is killed to the copper lists obtained by exporting what is left of
its log.
-/
namespace Verif
namespace Runtime
open Planner CopperList Clock Bincode
variable {σ P : Type}

/-- Any run, whatever the tasks, the monitor and the simulation do, killed after any operation on its
log (`done` of the operations of the run were made).  The log is in the state `s`, which is what its
files contain.  Read them as a byte stream of copper lists with any buffer sizes until the reader
ends, in whatever way, and dump what it delivered: the lists obtained are an initial segment of those
logged before the kill, none altered, none invented.  The reader does end. -/
theorem C59_safe {page slabSize : Nat} (hz : ULog.SizesOk page slabSize)
    (app : App σ P) (hist : σ → List ULog.LogOp) (k : Nat) (slots : List (Codec P))
    (pieces : CL (List (Msg P)) → List Bytes) (hl : LogsTo app.env hist k pieces)
    (hpieces : ∀ cl, (pieces cl).flatten = (Wire.clCodec slots).enc cl)
    (n : Nat) (rt rt' : Rt σ P) (r : RunResult) (h0 : StreamReady k [] (hist rt.w.st))
    (h : run app n rt = .ok (rt', r))
    (hops : ULog.HistoryOk page slabSize [] (hist rt'.w.st))
    (htyped : ∀ cl ∈ loggedLists rt'.w.trace, Typed slots cl)
    (done rest : List ULog.LogOp) (hc : hist rt'.w.st = hist rt.w.st ++ done ++ rest) :
    ∃ t s kept lost later, rt'.w.trace = rt.w.trace ++ t ∧
      ULog.runLog slabSize page (hist rt.w.st ++ done) = .ok s ∧
      loggedLists t = kept ++ lost ++ later ∧ (kept ++ lost).length = logCalls k done ∧
      ∀ ns : List Nat, (∀ b ∈ ns, 0 < b) →
        let read := ULog.drainLog s.lg.files .copperList ns
        (read.2 ≠ .more → @dumpObjects _ (Wire.clCodec slots) read.1 = kept) ∧
          ((@encAll _ (Wire.clCodec slots) kept).length < ns.length → read.2 ≠ .more) := by
  obtain ⟨t, later, h1, h2, h3, h4, _, h6⟩ := crash_objs hl h0 h hops hc
  obtain ⟨s, h7, ⟨a, b, h8, h9⟩, _⟩ := ULog.log_crash (t := .copperList) hz h4 (by decide) (by decide)
  rw [h6] at h8
  obtain ⟨x, y, h10, h11, h12⟩ := pieces_split hpieces h8
  refine ⟨t, s, x, y, later, h1, h7, by rw [← h10, h2], by rw [← h10, h3], fun ns hns => ?_⟩
  obtain ⟨e1, e2, e3⟩ := h9 ns hns
  rw [h11] at e2 e3
  refine ⟨fun hne => ?_, e3⟩
  rw [e2 hne]
  refine dump_lists fun cl hcl => htyped cl ?_
  rw [h1, loggedLists_append, ← h2, h10]
  simp [hcl]

/-- The same, when the section of the copper lists is in the oldest slab of the log that is still in
use: the reader then ends normally, and the lists obtained are all those logged before the kill but
the ones in the section being filled, which hold together in one section of the stream.  Missing: a
later slab (see `C59_violated`).  For a kill in the middle of an operation see `C94_safe`. -/
theorem C59_crash_partial {page slabSize : Nat} (hz : ULog.SizesOk page slabSize)
    (app : App σ P) (hist : σ → List ULog.LogOp) (k : Nat) (slots : List (Codec P))
    (pieces : CL (List (Msg P)) → List Bytes) (hl : LogsTo app.env hist k pieces)
    (hpieces : ∀ cl, (pieces cl).flatten = (Wire.clCodec slots).enc cl)
    (n : Nat) (rt rt' : Rt σ P) (r : RunResult) (h0 : StreamReady k [] (hist rt.w.st))
    (h : run app n rt = .ok (rt', r))
    (hops : ULog.HistoryOk page slabSize [] (hist rt'.w.st))
    (htyped : ∀ cl ∈ loggedLists rt'.w.trace, Typed slots cl)
    (done rest : List ULog.LogOp) (hc : hist rt'.w.st = hist rt.w.st ++ done ++ rest) :
    ∃ t s, rt'.w.trace = rt.w.trace ++ t ∧
      ULog.runLog slabSize page (hist rt.w.st ++ done) = .ok s ∧
      ∀ (i : Nat) (st : ULog.Stream), s.streams[i]? = some (some st) → st.entryType = .copperList →
        st.section_.slab ≤ s.lg.oldestMapped →
        ∃ kept lost later, loggedLists t = kept ++ lost ++ later ∧
          (kept ++ lost).length = logCalls k done ∧
          (@encAll _ (Wire.clCodec slots) lost).length = st.section_.used ∧
          (@encAll _ (Wire.clCodec slots) lost).length + 15 ≤ st.minAlloc ∧
          ∀ ns : List Nat, (∀ b ∈ ns, 0 < b) →
            let read := ULog.drainLog s.lg.files .copperList ns
            (read.2 ≠ .more → read.2 = .eof ∧ @dumpObjects _ (Wire.clCodec slots) read.1 = kept) ∧
              ((@encAll _ (Wire.clCodec slots) kept).length < ns.length → read.2 ≠ .more) := by
  obtain ⟨t, later, h1, h2, h3, h4, h5, h6⟩ := crash_objs hl h0 h hops hc
  obtain ⟨s, h7, _, h8⟩ := ULog.log_crash (t := .copperList) hz h4 (by decide) (by decide)
  refine ⟨t, s, h1, h7, fun i st hst hty hsl => ?_⟩
  obtain ⟨a, b, h9, hu, hfit, h13⟩ := h8 (ULog.used_of_never h4 h5 (by simp)) i st hst hty hsl
  rw [h6] at h9
  obtain ⟨x, y, h10, h11, h12⟩ := pieces_split hpieces h9
  rw [h12] at hu hfit
  refine ⟨x, y, later, by rw [← h10, h2], by rw [← h10, h3], hu, by omega, fun ns hns => ?_⟩
  obtain ⟨e1, e2, e3⟩ := h13 ns hns
  rw [h11] at e2 e3
  refine ⟨fun hne => ⟨(e2 hne).2, ?_⟩, e3⟩
  rw [(e2 hne).1]
  refine dump_lists fun cl hcl => htyped cl ?_
  rw [h1, loggedLists_append, ← h2, h10]
  simp [hcl]

theorem ok_of_check {x : Rs ULog.LogSys} {p : ULog.LogSys → ULog.Stream → Prop}
    [∀ s st, Decidable (p s st)] {k : Nat}
    (h : (match x with
      | .ok s => (match s.streams[k]? with | some (some st) => decide (p s st) | _ => false)
      | .panic => false) = true) :
    ∃ s st, x = .ok s ∧ s.streams[k]? = some (some st) ∧ p s st := by
  cases x with
  | panic => simp at h
  | ok s =>
    simp only at h
    split at h
    · rename_i st hst; exact ⟨s, st, rfl, hst, of_decide_eq_true h⟩
    · cases h

/-- Three iterations of the demo application: the first section of its copper lists holds two. -/
def demoCrashEnd : Rt (Nat × List ULog.LogOp) Nat :=
  match run demoLogged 3 demoLoggedStart with | .ok (rt, _) => rt | .panic => demoLoggedStart

example : run demoLogged 3 demoLoggedStart = .ok (demoCrashEnd, .running) ∧
    StreamReady 1 [] demoLoggedStart.w.st.2 ∧ ULog.SizesOk 16 256 ∧
    (loggedLists demoCrashEnd.w.trace).length = 3 ∧
    (∃ s st, ULog.runLog 256 16 demoCrashEnd.w.st.2 = .ok s ∧ s.streams[1]? = some (some st) ∧
      st.entryType = .copperList ∧ st.section_.used = 21 ∧ st.section_.slab ≤ s.lg.oldestMapped ∧
      ULog.drainLog s.lg.files .copperList [30, 30, 30] = ((loggedLists demoCrashEnd.w.trace).take 2 |>.map
        (Wire.clCodec demoSlots).enc |>.flatten, .eof)) := by
  refine ⟨by rfl, ⟨64, rfl⟩, ⟨by decide, by decide, by decide⟩, by decide +kernel, ?_⟩
  exact ok_of_check (by decide +kernel)

example : ULog.HistoryOk 16 256 [] demoCrashEnd.w.st.2 := by
  have h : demoCrashEnd.w.st.2 =
      [.openStream .structuredLogLine 32, .openStream .copperList 64,
        .log 0 [[1, 2], [3]], .log 0 [[1, 2], [3]], .log 0 [[1, 2], [3]],
        .log 1 [[0, 4, 1, 6, 5, 6, 0, 0, 1, 251, 238, 3, 7, 8, 0, 0, 0, 9, 10, 0, 0]],
        .log 0 [[1, 2], [3]], .log 0 [[1, 2], [3]], .log 0 [[1, 2], [3]],
        .log 1 [[1, 4, 1, 12, 11, 12, 0, 0, 1, 251, 244, 3, 13, 14, 0, 0, 0, 15, 16, 0, 0]],
        .log 0 [[1, 2], [3]], .log 0 [[1, 2], [3]], .log 0 [[1, 2], [3]],
        .log 1 [[2, 4, 1, 18, 17, 18, 0, 0, 1, 251, 250, 3, 19, 20, 0, 0, 0, 21, 22, 0, 0]]] := by decide +kernel
  rw [h]
  simp only [ULog.HistoryOk]
  refine ⟨by decide, by decide, by simp, ⟨by decide, by decide, by decide⟩, by decide, by decide,
    by simp, ⟨by decide, by decide, by decide⟩, ?_⟩
  simp

/-- The demo application with a text log in a large section, which is not full after five iterations
and stays open in the first slab. -/
def demoHeldStart : Rt (Nat × List ULog.LogOp) Nat :=
  ⟨⟨(5, [.openStream .structuredLogLine 128, .openStream .copperList 64]), []⟩,
    Manager.new 2 [Msg.new none, Msg.new none, Msg.new none]⟩

def demoHeldEnd : Rt (Nat × List ULog.LogOp) Nat :=
  match run demoLogged 5 demoHeldStart with | .ok (rt, _) => rt | .panic => demoHeldStart

/-- In slabs of 256 bytes, five iterations log five copper lists, of which the last one is alone in
the section being filled.  Two of the other four, in a section that was closed, are lost as well: the
reader fails when it has delivered the first two. -/
theorem C59_violated : run demoLogged 5 demoHeldStart = .ok (demoHeldEnd, .running) ∧
    ULog.SizesOk 16 256 ∧ StreamReady 1 [] demoHeldStart.w.st.2 ∧
    ULog.HistoryOk 16 256 [] demoHeldEnd.w.st.2 ∧
    (loggedLists demoHeldEnd.w.trace).map (·.id) = [0, 1, 2, 3, 4] ∧
    ∃ s st, ULog.runLog 256 16 demoHeldEnd.w.st.2 = .ok s ∧ s.streams[1]? = some (some st) ∧
      st.entryType = .copperList ∧ st.section_.used = 21 ∧
      ULog.drainLog s.lg.files .copperList [30, 30, 30] = ((loggedLists demoHeldEnd.w.trace).take 2 |>.map
        (Wire.clCodec demoSlots).enc |>.flatten, .failed) := by
  have h : demoHeldEnd.w.st.2 =
      [.openStream .structuredLogLine 128, .openStream .copperList 64,
        .log 0 [[1, 2], [3]], .log 0 [[1, 2], [3]], .log 0 [[1, 2], [3]],
        .log 1 [[0, 4, 1, 6, 5, 6, 0, 0, 1, 251, 238, 3, 7, 8, 0, 0, 0, 9, 10, 0, 0]],
        .log 0 [[1, 2], [3]], .log 0 [[1, 2], [3]], .log 0 [[1, 2], [3]],
        .log 1 [[1, 4, 1, 12, 11, 12, 0, 0, 1, 251, 244, 3, 13, 14, 0, 0, 0, 15, 16, 0, 0]],
        .log 0 [[1, 2], [3]], .log 0 [[1, 2], [3]], .log 0 [[1, 2], [3]],
        .log 1 [[2, 4, 1, 18, 17, 18, 0, 0, 1, 251, 250, 3, 19, 20, 0, 0, 0, 21, 22, 0, 0]],
        .log 0 [[1, 2], [3]], .log 0 [[1, 2], [3]], .log 0 [[1, 2], [3]],
        .log 1 [[3, 4, 1, 24, 23, 24, 0, 0, 1, 251, 0, 4, 25, 26, 0, 0, 0, 27, 28, 0, 0]],
        .log 0 [[1, 2], [3]], .log 0 [[1, 2], [3]], .log 0 [[1, 2], [3]],
        .log 1 [[4, 4, 1, 30, 29, 30, 0, 0, 1, 251, 6, 4, 31, 32, 0, 0, 0, 33, 34, 0, 0]]] := by decide +kernel
  refine ⟨by rfl, ⟨by decide, by decide, by decide⟩, ⟨64, rfl⟩, ?_, by decide +kernel, ?_⟩
  · rw [h]
    simp only [ULog.HistoryOk]
    refine ⟨by decide, by decide, by simp, ⟨by decide, by decide, by decide⟩, by decide, by decide,
      by simp, ⟨by decide, by decide, by decide⟩, ?_⟩
    simp
  · exact ok_of_check (by decide +kernel)

end Runtime
end Verif
