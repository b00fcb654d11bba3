import Verif.Props.Killed
import Verif.Props.ShowValue
import Verif.Proofs.Prompt
/-!
C94: the text lines read from what a killed process leaves of its log.
-/
namespace Verif
open Bincode

/-- The lines of a part of a text log are those of the first entries. -/
theorem text_part {l : List LogEntry} (hl : ∀ e ∈ l, e.Legal) {o : Bytes} (h : o <+: encAll l) :
    ∃ kept rest, l = kept ++ rest ∧ (∀ (shw : Value → Text) (showTime : UInt64 → Text) (strings : List Text),
      textlogDump shw showTime strings o = textLines shw showTime strings true kept) ∧
      ∀ a b, l = a ++ b → encAll a <+: o → a <+: kept := by
  have hr : ∀ e ∈ l, RoundTrips e := fun e he => rt_entry (hl e he)
  obtain ⟨k, r, h1, h2, h3⟩ := dump_part Dec.Prompt.entry.sequential hr (fun e _ => entry_pos e) entry_end h
  refine ⟨k, r, h1, fun shw st strings => ?_, h3⟩
  obtain ⟨kept, rest, tail, h4, h5, ht⟩ := encAll_part h
  have he : (dec : Dec LogEntry) tail = .error .unexpectedEnd := by
    rcases ht with rfl | ⟨a, r, ha, q, hq, hne⟩
    · rfl
    · exact dec_short Dec.Prompt.entry (hr a (by simp [h4, ha])) hq hne
  have hd : decodeStream (dec : Dec LogEntry) (o.length + 1) o = (kept, .unexpectedEnd) := by
    rw [h5]
    refine decodeStream_encAll (fun a ha => hr a (by simp [h4, ha])) tail he ?_
    have := encAll_length_ge (l := kept) (fun a _ => entry_pos a)
    rw [List.length_append]
    omega
  unfold dumpObjects at h2
  rw [hd] at h2
  unfold textlogDump
  rw [hd, ← h2]
  rfl

theorem flatten_enc (l : List LogEntry) : (l.map enc).flatten = encAll l := by
  induction l with
  | nil => rfl
  | cons e l ih => simp only [List.map_cons, List.flatten_cons, encAll, ih]

/-- The text lines of a killed process.  As in `C93_log_partial`, compilers intern the strings of an application and its
threads call `debug!`; what was recorded was logged with the text stream of a unified log, among any other operations on
its streams.  The process is killed at any instant of the next operation.  Read what is left of the text stream with any
buffer sizes, until the reader stops delivering: the log reader prints, without an error, the lines of the first of the
entries recorded, each with the format string and the values of its call.  If the section of the text stream is in the
oldest slab still in use (and something was logged on the text streams opened before it), the entries missing are in
this section.  Missing: calls that `Says` does not cover. -/
theorem C94_text_partial (fl : Floats) (n : Nat) (schedule : List Intern.Step) {entries : List (Nat × String)}
    (hp : entries.Perm ((Intern.begin n).run schedule).1.store.toString)
    {answer : Nat → List LogEntry → LogEntry → LogRt.Answer} {acts : List LogRt.Act} {w : Nat}
    (hcalls : ∀ th e now, LogRt.Act.stamp th e now ∈ acts → ∃ (c : LogCall) (line : Text), e = c.entry ∧ c.entry.Legal ∧
      c.Compiled ((Intern.begin n).run schedule).2 ∧ c.Says (Value.display fl) line)
    {page slabSize : Nat} (hz : ULog.SizesOk page slabSize) (h256 : 256 ∣ page)
    {ops : List ULog.LogOp} {op : ULog.LogOp} (hops : ULog.HistoryOk page slabSize [] (ops ++ [op]))
    (hobj : ULog.objsOf .structuredLogLine [] ops = ((LogRt.Sys.new.steps answer acts).1.file w).map enc) :
    ∃ s, ULog.runLog slabSize page ops = .ok s ∧
      ∀ files', ULog.KilledDuring s.lg.files (s.effects op) files' →
        ∃ kept lost lines, (LogRt.Sys.new.steps answer acts).1.file w = kept ++ lost ∧
          Pointwise (LineOf fl acts) kept lines ∧
          (∀ ns : List Nat, (∀ b ∈ ns, 0 < b) →
            let read := ULog.drainLog files' .structuredLogLine ns
            (read.2 ≠ .more → textlogDump (Value.display fl) showTime
              ((Intern.readTable entries).map String.toList) read.1 = .done lines true) ∧
              ((encAll (kept ++ lost)).length < ns.length → read.2 ≠ .more)) ∧
          (ULog.UsedFirst .structuredLogLine false [] ops →
            ∀ (i : Nat) (st : ULog.Stream), s.streams[i]? = some (some st) → st.entryType = .structuredLogLine →
            st.section_.slab ≤ s.lg.oldestMapped →
            ∃ before held, kept ++ lost = before ++ held ∧ before <+: kept ∧
              (encAll held).length = st.section_.used ∧ 15 + (encAll held).length ≤ st.minAlloc) := by
  have hall := recorded_says fl hcalls (w := w) (answer := answer)
  obtain ⟨s, h1, h2⟩ := ULog.log_kill (t := .structuredLogLine) hz h256 (by decide) (by decide) hops
  refine ⟨s, h1, fun files' hk => ?_⟩
  obtain ⟨o, ho, hd, hcov⟩ := h2 files' hk
  rw [hobj] at ho hcov
  generalize (LogRt.Sys.new.steps answer acts).1.file w = l at hall ho hcov ⊢
  rw [flatten_enc] at ho
  obtain ⟨kept, lost, e1, e2, e3⟩ := text_part (fun e he => (hall e he).1) ho
  obtain ⟨lines, h3, h4⟩ := textLines_says fl hp kept fun e he => (hall e (by simp [e1, he])).2
  refine ⟨kept, lost, lines, e1, h4, fun ns hns => ?_, fun hu i st hst ht hsl => ?_⟩
  · obtain ⟨d1, d2, d3⟩ := hd ns hns
    refine ⟨fun hne => by rw [d2 hne, e2]; exact h3, fun hlen => d3 ?_⟩
    have := ho.length_le
    rw [← e1] at hlen
    omega
  · obtain ⟨a, b, h5, h6, h7, h8⟩ := hcov hu i st hst ht hsl
    obtain ⟨x, y, rfl, rfl, rfl⟩ := List.map_eq_append_iff.1 h5
    rw [flatten_enc] at h6 h7 h8
    exact ⟨x, y, e1.symm, e3 x y rfl h8, h6, h7⟩

/-- Of the two threads of `demoActs` the second one has recorded its line, the other one is about to. -/
def killedActs : List LogRt.Act := demoActs.take 4

/-- What was done with the log, and the operation that is under way: the line does not fit in the section. -/
def killedOps : List ULog.LogOp :=
  [.openStream .structuredLogLine 32, .openStream .copperList 32, .log 0 [[20, 4, 2, 0, 3], [2, 0, 1, 5, 251]],
    .log 1 [[1, 2, 3]]]

def killedOp : ULog.LogOp := .log 0 [[10, 1, 2, 0, 0, 2, 1, 3, 17, 1, 12, 1, 97, 1, 1]]

def killedLog : ULog.LogSys :=
  match ULog.runLog 2048 256 killedOps with
  | .ok s => s
  | .panic => ⟨⟨0, 0, [], ⟨0, 0, [], 0⟩, []⟩, []⟩

example : ULog.SizesOk 256 2048 ∧ ULog.HistoryOk 256 2048 [] (killedOps ++ [killedOp]) ∧
    ULog.UsedFirst .structuredLogLine false [] killedOps ∧
    ULog.objsOf .structuredLogLine [] killedOps =
      ((LogRt.Sys.new.steps (fun _ _ _ => .recorded) killedActs).1.file 7).map enc := by
  refine ⟨⟨by decide, by decide, by decide⟩, ?_, by simp [killedOps, ULog.UsedFirst], by rfl⟩
  simp only [killedOps, killedOp, List.cons_append, List.nil_append, ULog.HistoryOk]
  exact ⟨by decide, by decide, by simp, ⟨by decide, by decide, by decide⟩, by decide, by decide, by simp,
    ⟨by decide, by decide, by decide⟩, by simp, by simp, by simp, trivial⟩

/-- Killed after three bytes of the content of the new section: the line of the first section is read. -/
example : killedLog.streams[0]?.any (fun o => o.any (fun st => st.entryType = .structuredLogLine ∧
      st.section_.used = 10 ∧ st.section_.slab ≤ killedLog.lg.oldestMapped)) = true ∧
    (killedLog.effects killedOp).length = 4 ∧
    ULog.drainLog (ULog.cutAt killedLog.lg.files (killedLog.effects killedOp) 3 3) .structuredLogLine [30, 30, 30] =
      ([20, 4, 2, 0, 3, 2, 0, 1, 5, 251], .eof) := by
  decide +kernel

end Verif
