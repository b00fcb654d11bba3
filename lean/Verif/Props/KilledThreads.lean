import Verif.Proofs.KillConc
import Verif.Props.KilledText
/-!
C96: a process several threads of which use one log, killed at any instant.
-/
namespace Verif
open Bincode

namespace ULog

/-- The effects considered below are those of the action: if they all happen, the files are those of
the log after the action. -/
theorem C96_effects {page slabSize : Nat} (hz : SizesOk page slabSize) {ops : List ConcOp} {op : ConcOp}
    (hin : Interleaved [] (ops ++ [op])) (hops : HistoryOk page slabSize [] (calls (ops ++ [op]))) :
    ∃ c c', runConc slabSize page ops = .ok c ∧ c.step op = .ok c' ∧
      (c.effects op).foldl Effect.apply c.sys.lg.files = c'.sys.lg.files :=
  runConc_effects hz hin hops

/-- Any interleaving of the actions of threads; then the process is killed while one thread performs
the action `op` (it may have the lock) and others encode objects into the sections of their own
streams, each anywhere, in the middle of a store included.  Read what is left as a byte stream of a
type, with any buffer sizes, until the reader stops delivering: it delivered an initial part of what
was logged with that type before.  If something was logged on every stream of this type before the
next one was opened, and the section of the last one is in the oldest slab still in use, that part
contains everything but what is in this section and the object of a call that waits for the lock or has just got it. -/
theorem C96_stream {page slabSize : Nat} (hz : SizesOk page slabSize) (hp : 256 ∣ page) {t : EntryType}
    (ht : t ≠ .lastEntry) (ht' : t ≠ .empty) {ops : List ConcOp} {op : ConcOp}
    (hin : Interleaved [] (ops ++ [op])) (hops : HistoryOk page slabSize [] (calls (ops ++ [op])))
    {others : List (Nat × List Bytes)}
    (ho : ∀ b ∈ others, op.stream ≠ some b.1) :
    ∃ c, runConc slabSize page ops = .ok c ∧
      ∀ files', KilledTogether c.sys.lg.files
          (c.effects op :: others.map (fun b => c.effects (.begin_ b.1 b.2))) files' →
        ∃ part, part <+: (objsOf t [] (calls ops)).flatten ∧
          (∀ ns : List Nat, (∀ n ∈ ns, 0 < n) →
            (drainLog files' t ns).1 <+: part ∧
            ((drainLog files' t ns).2 ≠ .more → (drainLog files' t ns).1 = part) ∧
            (part.length < ns.length → (drainLog files' t ns).2 ≠ .more)) ∧
          (UsedFirst t false [] (calls ops) →
            ∀ (i : Nat) (st : Stream), c.sys.streams[i]? = some (some st) → st.entryType = t →
            st.section_.slab ≤ c.sys.lg.oldestMapped →
            ∃ a b, objsOf t [] (calls ops) = a ++ b ++ ((c.waiting i).map List.flatten).toList ∧
              b.flatten.length = st.section_.used ∧ 15 + b.flatten.length ≤ st.minAlloc ∧ a.flatten <+: part) :=
  runConc_kill hz hp ht ht' hin hops ho

end ULog

/-- The copper lists and the text lines of such a process.  The copper lists logged are `lists`, the
lines recorded those of `debug!` calls as in `C94_text_partial`.  From what is left the exporter
gives the first of the copper lists, and the log reader prints the lines of the first entries. -/
theorem C96_export_partial (fl : Floats) (n : Nat) (schedule : List Intern.Step) {entries : List (Nat × String)}
    (hp : entries.Perm ((Intern.begin n).run schedule).1.store.toString)
    {answer : Nat → List LogEntry → LogEntry → LogRt.Answer} {acts : List LogRt.Act} {w : Nat}
    (hcalls : ∀ th e now, LogRt.Act.stamp th e now ∈ acts → ∃ (c : LogCall) (line : Text), e = c.entry ∧ c.entry.Legal ∧
      c.Compiled ((Intern.begin n).run schedule).2 ∧ c.Says (Value.display fl) line)
    {P : Type} (slots : List (Codec P)) (hslots : ∀ c ∈ slots, Dec.Sequential c.dec)
    {lists : List (CopperList.CL (List (Msg P)))} (htyped : ∀ cl ∈ lists, Runtime.Typed slots cl)
    {page slabSize : Nat} (hz : ULog.SizesOk page slabSize) (h256 : 256 ∣ page)
    {ops : List ULog.ConcOp} {op : ULog.ConcOp} (hin : ULog.Interleaved [] (ops ++ [op]))
    (hops : ULog.HistoryOk page slabSize [] (ULog.calls (ops ++ [op])))
    (hobj : ULog.objsOf .structuredLogLine [] (ULog.calls ops) = ((LogRt.Sys.new.steps answer acts).1.file w).map enc)
    (hobj' : ULog.objsOf .copperList [] (ULog.calls ops) = lists.map (Wire.clCodec slots).enc)
    {others : List (Nat × List Bytes)} (ho : ∀ b ∈ others, op.stream ≠ some b.1) :
    ∃ c, ULog.runConc slabSize page ops = .ok c ∧
      ∀ files', ULog.KilledTogether c.sys.lg.files
          (c.effects op :: others.map (fun b => c.effects (.begin_ b.1 b.2))) files' →
        (∃ kept lost, lists = kept ++ lost ∧ ∀ ns : List Nat, (∀ b ∈ ns, 0 < b) →
          let read := ULog.drainLog files' .copperList ns
          (read.2 ≠ .more → @dumpObjects _ (Wire.clCodec slots) read.1 = kept) ∧
            ((@encAll _ (Wire.clCodec slots) lists).length < ns.length → read.2 ≠ .more)) ∧
        ∃ kept lost lines, (LogRt.Sys.new.steps answer acts).1.file w = kept ++ lost ∧
          Pointwise (LineOf fl acts) kept lines ∧ ∀ ns : List Nat, (∀ b ∈ ns, 0 < b) →
            let read := ULog.drainLog files' .structuredLogLine ns
            (read.2 ≠ .more → textlogDump (Value.display fl) showTime
              ((Intern.readTable entries).map String.toList) read.1 = .done lines true) ∧
              ((encAll (kept ++ lost)).length < ns.length → read.2 ≠ .more) := by
  have hall := recorded_says fl hcalls (w := w) (answer := answer)
  obtain ⟨c, h1, h2⟩ := ULog.runConc_kill hz h256 (t := .structuredLogLine) (by decide) (by decide) hin hops ho
  obtain ⟨c', h1', h2'⟩ := ULog.runConc_kill hz h256 (t := .copperList) (by decide) (by decide) hin hops ho
  rw [h1] at h1'
  cases h1'
  refine ⟨c, h1, fun files' hk => ⟨?_, ?_⟩⟩
  · obtain ⟨o, ho, hd, _⟩ := h2' files' hk
    have hfl : (lists.map (Wire.clCodec slots).enc).flatten = @encAll _ (Wire.clCodec slots) lists := by
      clear hobj' htyped h2'
      induction lists with
      | nil => rfl
      | cons a l ih => simp only [List.map_cons, List.flatten_cons, encAll, ih]
    rw [hobj', hfl] at ho
    obtain ⟨kept, lost, e1, e2, _⟩ := @dump_part _ (Wire.clCodec slots) (Dec.Sequential.cl hslots) _
      (fun a ha => Wire.rt_cl (htyped a ha)) (fun a _ => Wire.cl_pos slots a) _ (Wire.cl_end slots) _ ho
    refine ⟨kept, lost, e1, fun ns hns => ?_⟩
    obtain ⟨d1, d2, d3⟩ := hd ns hns
    refine ⟨fun hne => by rw [d2 hne, e2], fun hlen => d3 ?_⟩
    have := ho.length_le
    omega
  · obtain ⟨o, ho, hd, _⟩ := h2 files' hk
    rw [hobj] at ho
    generalize (LogRt.Sys.new.steps answer acts).1.file w = l at hall ho ⊢
    rw [flatten_enc] at ho
    obtain ⟨kept, lost, e1, e2, _⟩ := text_part (fun e he => (hall e he).1) ho
    obtain ⟨lines, h3, h4⟩ := textLines_says fl hp kept fun e he => (hall e (by simp [e1, he])).2
    refine ⟨kept, lost, lines, e1, h4, fun ns hns => ?_⟩
    obtain ⟨d1, d2, d3⟩ := hd ns hns
    refine ⟨fun hne => by rw [d2 hne, e2]; exact h3, fun hlen => d3 ?_⟩
    have := ho.length_le
    rw [← e1] at hlen
    omega

/-! ### Two threads, one with the lock -/

/-- One thread records a line, the other one logs copper lists; the third list does not fit in its section. -/
def threadsOps : List ULog.ConcOp :=
  [.openStream .structuredLogLine 32, .openStream .copperList 64,
    .begin_ 0 [[20, 4, 2, 0, 3], [2, 0, 1, 5, 251]], .finish 0,
    .begin_ 1 [[0, 4, 1, 6, 5, 6, 0, 0, 1, 251, 238, 3, 7, 8, 0, 0, 0, 9, 10, 0, 0]], .finish 1,
    .begin_ 1 [[1, 4, 1, 12, 11, 12, 0, 0, 1, 251, 244, 3, 13, 14, 0, 0, 0, 15, 16, 0, 0]], .finish 1,
    .begin_ 1 [[2, 4, 1, 18, 17, 18, 0, 0, 1, 251, 250, 3, 19, 20, 0, 0, 0, 21, 22, 0, 0]]]

def threadsLog : ULog.ConcSys :=
  match ULog.runConc 2048 256 threadsOps with
  | .ok c => c
  | .panic => ⟨⟨⟨0, 0, [], ⟨0, 0, [], 0⟩, []⟩, []⟩, fun _ => none⟩

/-- The second line, that the first thread is encoding. -/
def threadsLine : List Bytes := [[10, 1, 2, 0, 0], [2, 1, 3, 17, 1, 12, 1, 97, 1, 1]]

/-- The effects of both threads. -/
example : threadsLog.effects (.finish 1) =
      [.store 0 512 [250, 87, 2, 251, 0, 1, 42], .store 0 768 [250, 87, 2, 251, 0, 1, 0],
        .store 0 783 [2, 4, 1, 18, 17, 18, 0, 0, 1, 251, 250, 3, 19, 20, 0, 0, 0, 21, 22, 0, 0]] ∧
    threadsLog.effects (.begin_ 0 threadsLine) = [.store 0 281 [10, 1, 2, 0, 0]] := by
  decide +kernel

/-- Three bytes of the line, then the thread with the lock closes its section and stores four bytes of
the next header; then the other two bytes of the line; then the process is killed. -/
def threadsFiles : List Bytes :=
  let store (k off : Nat) (d : Bytes) (files : List Bytes) : List Bytes :=
    files.modify k (fun f => ULog.writeAt f off d)
  store 0 281 [10, 1, 2, 0, 0] (store 0 768 [250, 87, 2, 251]
    (store 0 512 [250, 87, 2, 251, 0, 1, 42] (store 0 281 [10, 1, 2] threadsLog.sys.lg.files)))

example : ULog.SizesOk 256 2048 ∧ ULog.Interleaved [] (threadsOps ++ [.finish 1]) ∧
    ULog.HistoryOk 256 2048 [] (ULog.calls (threadsOps ++ [.finish 1])) ∧
    ULog.UsedFirst .structuredLogLine false [] (ULog.calls threadsOps) ∧
    ULog.UsedFirst .copperList false [] (ULog.calls threadsOps) ∧
    ULog.objsOf .structuredLogLine [] (ULog.calls threadsOps) =
      ((LogRt.Sys.new.steps (fun _ _ _ => .recorded) killedActs).1.file 7).map enc ∧
    ULog.objsOf .copperList [] (ULog.calls threadsOps) =
      (Runtime.loggedLists Runtime.demoCrashEnd.w.trace).map (Wire.clCodec Runtime.demoSlots).enc := by
  refine ⟨⟨by decide, by decide, by decide⟩, by simp [threadsOps, ULog.Interleaved], ?_,
    by simp [threadsOps, ULog.calls, ULog.UsedFirst], by simp [threadsOps, ULog.calls, ULog.UsedFirst], by rfl,
    by decide +kernel⟩
  simp only [threadsOps, List.cons_append, List.nil_append, ULog.calls, ULog.HistoryOk]
  exact ⟨by decide, by decide, by simp, ⟨by decide, by decide, by decide⟩, by decide, by decide, by simp,
    ⟨by decide, by decide, by decide⟩, by simp, by simp, by simp, by simp, trivial⟩

example : ULog.KilledTogether threadsLog.sys.lg.files
    (threadsLog.effects (.finish 1) ::
      [(0, threadsLine)].map (fun b => threadsLog.effects (.begin_ b.1 b.2))) threadsFiles := by
  have h1 : threadsLog.effects (.finish 1) =
      [.store 0 512 [250, 87, 2, 251, 0, 1, 42], .store 0 768 [250, 87, 2, 251, 0, 1, 0],
        .store 0 783 [2, 4, 1, 18, 17, 18, 0, 0, 1, 251, 250, 3, 19, 20, 0, 0, 0, 21, 22, 0, 0]] := by decide +kernel
  have h2 : threadsLog.effects (.begin_ 0 threadsLine) = [.store 0 281 [10, 1, 2, 0, 0]] := by decide +kernel
  simp only [List.map_cons, List.map_nil, h1, h2]
  exact .part (i := 1) rfl ⟨3, rfl⟩ (.next (i := 0) rfl (.part (i := 0) rfl ⟨4, rfl⟩ (.next (i := 1) rfl .kill)))

/-- The two lists of the section that was closed are there; the line of the first thread is in a section never closed. -/
example : threadsLog.sys.streams[1]?.any (fun o => o.any (fun st => st.entryType = .copperList ∧
      st.section_.used = 42 ∧ st.section_.slab ≤ threadsLog.sys.lg.oldestMapped)) = true ∧
    (threadsLog.waiting 1).isSome = true ∧
    ULog.drainLog threadsFiles .copperList [30, 30, 30] =
      ((Runtime.loggedLists Runtime.demoCrashEnd.w.trace).take 2 |>.map (Wire.clCodec Runtime.demoSlots).enc |>.flatten,
        .eof) ∧
    ULog.drainLog threadsFiles .structuredLogLine [30, 30, 30] = ([], .eof) := by
  decide +kernel

end Verif
