import Verif.Proofs.LogFile
import Verif.Props.KilledText
/-!
C106: a structured log in a plain file.
-/
namespace Verif
namespace LogFile
open Bincode

/-- An entry without parameters. -/
def tiny (i : UInt32) : LogEntry := ⟨0, i, [], []⟩

/-- C106 (restricted to runs in which no call of `log` fails): whatever the pieces in which the encoder writes, whatever
the disk does, also if calls of `flush` fail, and whenever the process is killed: the file holds a part of the entries
logged, from the first one on, of which the log reader prints the lines without an error.  All the entries before a
`flush` that succeeded are among them.  If the process is not killed, nothing is lost: what is not in the file is in the
buffer, which has room for 8192 bytes, and `bytes_written` counts both.  Missing: what the file holds after a call of `log` failed, see
`C106_violated_torn`. -/
theorem C106_file_partial (plan : List Outcome) {cs : List Call} (he : Encoded cs)
    (ha : Accepted cs ((Writer.new plan).run cs).1) :
    let file := ((Writer.new plan).run cs).2.disk.bytes
    (∃ kept lost, entriesOf cs = kept ++ lost ∧
      (∀ (shw : Value → Text) (showTime : UInt64 → Text) (strings : List Text),
        textlogDump shw showTime strings file = textLines shw showTime strings true kept) ∧
      ∀ before after, cs = before ++ .flush :: after → ((Writer.new plan).run cs).1[before.length]? = some .ok →
        entriesOf before <+: kept) ∧
    (.killed ∉ ((Writer.new plan).run cs).1 →
      file ++ ((Writer.new plan).run cs).2.buf = encAll (entriesOf cs) ∧
      ((Writer.new plan).run cs).2.buf.length ≤ 8192 ∧
      ((Writer.new plan).run cs).2.count = (encAll (entriesOf cs)).length) := by
  obtain ⟨-, h2, h3⟩ := run_inv cs (Writer.new plan) he ha
  refine ⟨?_, fun hk => ?_⟩
  · obtain ⟨kept, lost, e1, e2, e3⟩ := text_part (encoded_legal he) h2
    refine ⟨kept, lost, e1, e2, ?_⟩
    rintro before after rfl hr
    rw [entriesOf_append] at e3
    refine e3 (entriesOf before) (entriesOf (.flush :: after)) rfl ?_
    exact run_flushed (Writer.new plan) before after he ha hr
  · obtain ⟨-, h4, h5⟩ := h3 hk
    exact ⟨h4, run_buf cs (Nat.zero_le _), by rw [h5]; exact Nat.zero_add _⟩

/-- A disk that takes a few bytes, is full, takes some more, and a process that is killed in the third `flush`. -/
def demoPlan : List Outcome := [.wrote 3, .failed, .interrupted, .wrote 100, .wrote 1, .killed]
def demoCalls : List Call :=
  [.log (tiny 5) [[0], [5], [0], [0]], .flush, .log (tiny 6) [[0], [6], [0, 0]], .flush,
    .log (tiny 7) [[0, 7], [0], [0]], .flush, .log (tiny 8) [[0, 8, 0, 0]]]

example : Encoded demoCalls ∧ Accepted demoCalls ((Writer.new demoPlan).run demoCalls).1 ∧
    ((Writer.new demoPlan).run demoCalls).1 = [.ok, .err, .ok, .ok, .ok, .killed] ∧
    ((Writer.new demoPlan).run demoCalls).2.disk.bytes = [0, 5, 0, 0, 0, 6, 0, 0, 0] := by
  have l : ∀ i, (tiny i).Legal := fun i => ⟨by simp [tiny], by simp [tiny], by simp [tiny]⟩
  have r : ((Writer.new demoPlan).run demoCalls).1 = [.ok, .err, .ok, .ok, .ok, .killed] := by decide +kernel
  refine ⟨⟨by decide +kernel, l _, by decide +kernel, l _, by decide +kernel, l _, by decide +kernel, l _, trivial⟩, ?_, r,
    by decide +kernel⟩
  rw [r]
  simp [demoCalls, Accepted]

example : Sound [.wrote 3, .interrupted, .wrote 100, .wrote 1] := by
  intro o ho
  simp only [List.mem_cons, List.not_mem_nil, or_false] at ho
  rcases ho with rfl | rfl | rfl | rfl
  · exact .inr ⟨3, by decide, rfl⟩
  · exact .inl rfl
  · exact .inr ⟨100, by decide, rfl⟩
  · exact .inr ⟨1, by decide, rfl⟩

/-- C106: on a disk on which writes get on, in whatever parts, no call fails; after a last `flush`, or when the writer is
dropped, the file holds all the entries logged, which the log reader reads. -/
theorem C106_sound {plan : List Outcome} (hs : Sound plan) {cs : List Call} (he : Encoded cs) :
    (∀ r ∈ ((Writer.new plan).run cs).1, r = .ok) ∧
    ((Writer.new plan).run (cs ++ [.flush])).2.disk.bytes = encAll (entriesOf cs) ∧
    ((Writer.new plan).run cs).2.drop.disk.bytes = encAll (entriesOf cs) ∧
    decodeStream (dec : Dec LogEntry) ((encAll (entriesOf cs)).length + 1) (encAll (entriesOf cs)) =
      (entriesOf cs, .unexpectedEnd) := by
  obtain ⟨h1, h2⟩ := run_sound cs (Writer.new plan) hs
  have hk : .killed ∉ ((Writer.new plan).run cs).1 := by
    rw [h1]
    intro h
    cases (List.mem_replicate.1 h).2
  have ha : Accepted cs ((Writer.new plan).run cs).1 := by
    rw [h1]
    clear h1 h2 hk he
    induction cs with
    | nil => exact trivial
    | cons c cs ih =>
      cases c with
      | log e p => exact ⟨(fun h => nomatch h), ih⟩
      | flush => exact ih
  obtain ⟨-, h4, -⟩ := (run_inv cs (Writer.new plan) he ha).2.2 hk
  obtain ⟨⟨-, -, -, m⟩, k1, k2, -⟩ := flushBuf_moves ((Writer.new plan).run cs).2
  have hf : ((Writer.new plan).run cs).2.flushBuf.2.disk.bytes = encAll (entriesOf cs) := by
    rw [k2 (m h2).1, List.append_nil, h4] at k1
    exact k1
  refine ⟨fun r hr => ?_, ?_, hf, (C31_entries (encoded_legal he)).2⟩
  · rw [h1] at hr
    exact (List.mem_replicate.1 hr).2
  · rw [run_append _ _ _ hk]
    simp only
    rw [← hf]
    have ok := (m h2).1
    cases hc : ((Writer.new plan).run cs).2.flushBuf with
    | mk r w =>
      rw [hc] at ok
      have hc' : ((Writer.new plan).run cs).2.step .flush = (r, w) := hc
      simp only at ok
      subst ok
      simp only [Writer.run, hc']

/-- More entries, and the pieces in which they are encoded. -/
def first : LogEntry := tiny 300
def later : LogEntry := ⟨0, 1, [0], [.u8 9]⟩
def logTiny : Call := .log (tiny 5) [[0], [5], [0], [0]]
def logFirst : Call := .log first [[0], [251], [44, 1], [0], [0]]
def logLater : Call := .log later [[0], [1], [1], [0], [1], [1], [9]]

/-- So many that the buffer is full in the middle of the last one. -/
def fill : List Call := logFirst :: List.replicate 2046 logTiny

/-- An entry nobody logged. -/
def madeUp : LogEntry := ⟨0, 5, [], [.u8 0]⟩

/-- C106, one write that fails spoils the log: the writer keeps the pieces of the entry that it took before the one that
failed.  A later entry is logged and flushed without an error, but is not in the log that is read, which has an entry
that was never logged. -/
theorem C106_violated_torn :
    let run := (Writer.new [.failed]).run (fill ++ [logTiny, logLater, .flush])
    Encoded (fill ++ [logTiny, logLater, .flush]) ∧
    run.1 = List.replicate 2047 .ok ++ [.err, .ok, .ok] ∧
    decodeStream (dec : Dec LogEntry) (run.2.disk.bytes.length + 1) run.2.disk.bytes =
      (first :: List.replicate 2046 (tiny 5) ++ [madeUp], .unexpectedEnd) ∧
    madeUp ∉ entriesOf (fill ++ [logTiny, logLater, .flush]) ∧
    later ∉ first :: List.replicate 2046 (tiny 5) ++ [madeUp] := by
  have hl : Encoded [logTiny, logLater, .flush] :=
    ⟨by decide +kernel, ⟨by decide, by decide, by simp [tiny]⟩, by decide +kernel,
      ⟨by decide, by decide, by simp [later, Value.Legal]⟩, trivial⟩
  have hfirst : [[0], [251], [44, 1], [0], [0]].flatten = enc first := by decide +kernel
  have htiny : [[0], [5], [0], [0]].flatten = enc (tiny 5) := by decide +kernel
  have small : ∀ d ∈ ([[0], [5], [0], [0]] : List Bytes), d.length < capacity := by decide
  have hrun := log_fits (w := Writer.new [.failed]) (pieces := [[0], [251], [44, 1], [0], [0]]) (by decide) (by decide)
  obtain ⟨w, hd, hb, hw⟩ := run_fits (tiny 5) [[0], [5], [0], [0]] small 2046
    ⟨⟨[], [.failed]⟩, [0, 251, 44, 1, 0, 0], 6⟩ (by decide) [logTiny, logLater, .flush]
  have hlen : w.buf.length = 8190 := by
    rw [hb, List.length_append, replicate_length]
    rfl
  obtain ⟨d, b, c⟩ := w
  simp only at hd hb hlen
  subst hd
  have htail : (⟨⟨[], [.failed]⟩, b, c⟩ : Writer).run [logTiny, logLater, .flush] =
      ([.err, .ok, .ok], ⟨⟨b ++ [0, 5] ++ [0, 1, 1, 0, 1, 1, 9], []⟩, [], c + 9⟩) := by
    have cap : capacity = 8192 := rfl
    have h1 : (⟨⟨[], [.failed]⟩, b, c⟩ : Writer).log [[0], [5], [0], [0]] =
        (.err, ⟨⟨[], []⟩, b ++ [0, 5], c + 2⟩) := by
      simp only [Writer.log]
      rw [write_one (by simp only; omega)]
      simp only
      rw [write_one (by simp only [List.length_append, List.length_singleton]; omega)]
      simp only
      rw [(write_full (by simp only [List.length_append, List.length_singleton]; omega) _ _).1]
      simp
    have h2 : (⟨⟨[], []⟩, b ++ [0, 5], c + 2⟩ : Writer).log [[0], [1], [1], [0], [1], [1], [9]] =
        (.ok, ⟨⟨b ++ [0, 5], []⟩, [0, 1, 1, 0, 1, 1, 9], c + 9⟩) := by
      rw [Writer.log, (write_full (by simp only [List.length_append, List.length_cons, List.length_nil]; omega) _ _).2]
      simp only
      rw [log_fits (by simp [capacity]) (by decide)]
      rfl
    have s1 : (⟨⟨[], [.failed]⟩, b, c⟩ : Writer).step logTiny = _ := h1
    have s2 : (⟨⟨[], []⟩, b ++ [0, 5], c + 2⟩ : Writer).step logLater = _ := h2
    simp only [Writer.run, s1, s2]
    rfl
  rw [htail] at hw
  have hall : (Writer.new [.failed]).run (fill ++ [logTiny, logLater, .flush]) =
      (List.replicate 2047 .ok ++ [.err, .ok, .ok], ⟨⟨b ++ [0, 5] ++ [0, 1, 1, 0, 1, 1, 9], []⟩, [], c + 9⟩) := by
    have s : (Writer.new [.failed]).step logFirst = (.ok, ⟨⟨[], [.failed]⟩, [0, 251, 44, 1, 0, 0], 6⟩) := hrun
    rw [fill, List.cons_append]
    simp only [Writer.run, s]
    have hw' := hw
    unfold logTiny at hw' ⊢
    rw [hw']
    rfl
  refine ⟨⟨hfirst, ⟨by decide, by decide, by simp [first, tiny]⟩,
    run_replicate_encoded htiny ⟨by decide, by decide, by simp [tiny]⟩ _ hl⟩, by rw [hall], ?_, ?_, ?_⟩
  rotate_left
  · have : entriesOf (fill ++ [logTiny, logLater, .flush]) = first :: (List.replicate 2046 (tiny 5) ++ [tiny 5, later]) := by
      rw [fill, List.cons_append, logFirst, entriesOf]
      unfold logTiny
      rw [entriesOf_replicate]
      rfl
    rw [this]
    intro h
    simp only [List.mem_cons, List.mem_append, List.mem_replicate, List.not_mem_nil, or_false] at h
    have key : ∀ e : LogEntry, e.names.length = e.params.length → madeUp ≠ e := by
      rintro e he rfl
      cases he
    rcases h with h | ⟨-, h⟩ | h | h
    · exact key _ rfl h
    · exact key _ rfl h
    · exact key _ rfl h
    · exact key _ rfl h
  · intro h
    simp only [List.cons_append, List.mem_cons, List.mem_append, List.mem_replicate, List.not_mem_nil, or_false] at h
    have key : ∀ e : LogEntry, e.names = [] → later ≠ e := by
      rintro e he rfl
      cases he
    rcases h with h | ⟨-, h⟩ | h
    · exact key _ rfl h
    · exact key _ rfl h
    · exact key _ rfl h
  rw [hall]
  simp only
  have hbytes : b = encAll (first :: List.replicate 2046 (tiny 5)) := by
    rw [hb, encAll, ← hfirst]
    generalize 2046 = n
    have : ∀ n, (List.replicate n ([[0], [5], [0], [0]] : List Bytes).flatten).flatten =
        encAll (List.replicate n (tiny 5)) := by
      intro n
      induction n with
      | zero => rfl
      | succ n ih => rw [List.replicate_succ, List.flatten_cons, ih, htiny]; rfl
    rw [this]
    rfl
  have hmade : ([0, 5] ++ [0, 1, 1, 0, 1, 1, 9] : Bytes) = enc madeUp ++ [1, 1, 9] := by decide +kernel
  have hend : (dec : Dec LogEntry) [1, 1, 9] = .error .unexpectedEnd := by rfl
  have hmem : ∀ e ∈ first :: List.replicate 2046 (tiny 5) ++ [madeUp], e.Legal := by
    intro e he
    simp only [List.cons_append, List.mem_cons, List.mem_append, List.mem_replicate, List.not_mem_nil, or_false] at he
    rcases he with rfl | ⟨-, rfl⟩ | rfl
    · exact ⟨by decide, by decide, by simp [first, tiny]⟩
    · exact ⟨by decide, by decide, by simp [tiny]⟩
    · exact ⟨by decide, by decide, by simp [madeUp, Value.Legal]⟩
  have := C31_prefix hmem hend
  have e : b ++ [0, 5] ++ [0, 1, 1, 0, 1, 1, 9] =
      encAll (first :: List.replicate 2046 (tiny 5) ++ [madeUp]) ++ [1, 1, 9] := by
    have e1 : encAll [madeUp] = enc madeUp := by simp only [encAll, List.append_nil]
    rw [List.append_assoc, hmade, hbytes, encAll_app, e1, List.append_assoc]
  rw [e]
  exact this

end LogFile
end Verif
