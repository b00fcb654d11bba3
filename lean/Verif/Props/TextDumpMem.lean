import Verif.Proofs.TextDumpMem
import Verif.Proofs.DamageExport
/-!
C113: dumping a text log that may be damaged.
-/
namespace Verif
open Bincode

variable {shw : Value → Text} {showTime : UInt64 → Text} {strings : List Text} {size : Nat}

/-- The text log as it was written is printed line by line to its end, and no entry asks for more memory than in
proportion to its own bytes: four bytes and the size of a value for each. -/
theorem C113_written {l : List LogEntry} (hl : ∀ e ∈ l, e.Legal ∧ e.msgIndex ≠ 0 ∧ e.Indexed strings ∧
      (4 + size) * (enc e).length < 9223372036854775808) :
    textlogDumpMem shw showTime strings size (encAll l) = .done (linesOf shw showTime strings l) true ∧
      ∀ e ∈ l, ∀ rest, ∃ mem, LogEntry.decodeMem size (enc e ++ rest) = .ok (.ok (e, rest), mem) ∧
        mem ≤ (4 + size) * (enc e).length := by
  refine ⟨?_, fun e he rest => decodeMem_written (hl e he).1 (hl e he).2.2.2 rest⟩
  have hlen := encAll_length_ge (l := l) fun e _ => entry_pos e
  obtain ⟨h1, h2⟩ := textLoop_written (shw := shw) (showTime := showTime) hl [] ((encAll l).length + 1 - l.length)
  rw [show l.length + ((encAll l).length + 1 - l.length) = (encAll l).length + 1 by omega, List.append_nil] at h1 h2
  obtain ⟨f, hf⟩ : ∃ f, (encAll l).length + 1 - l.length = f + 1 := ⟨(encAll l).length - l.length, by omega⟩
  rw [hf] at h1 h2
  have hend : textLoop shw showTime strings size (f + 1) [] = .done [] true := rfl
  rw [hend] at h1 h2
  simp only [TextDump.lines, List.append_nil] at h1
  have h3 := textLoop_same h2
  have h4 := decodeStream_encAll (fun e he => rt_entry (hl e he).1) [] entry_end (fuel := (encAll l).length + 1)
    (Nat.lt_succ_of_le hlen)
  rw [List.append_nil] at h4
  rw [h4] at h3
  unfold textlogDumpMem
  have key : ∀ es : List LogEntry, (∀ e ∈ es, e.msgIndex ≠ 0 ∧ e.Indexed strings) →
      textLines shw showTime strings true es = .done (linesOf shw showTime strings es) true := by
    intro es hes
    induction es with
    | nil => rfl
    | cons e es ih =>
      obtain ⟨a, b⟩ := hes e (by simp)
      obtain ⟨o, ho⟩ := rebuild_indexed (shw := shw) (showTime := showTime) b
      unfold textLines
      rw [if_neg a, ho, ih fun e he => hes e (by simp [he])]
      cases o <;> simp [linesOf, ho, TextDump.cons]
  rw [h3]
  exact key l fun e he => ⟨(hl e he).2.1, (hl e he).2.2.1⟩

/-- Whatever is behind entries that are intact, their lines are printed. -/
theorem C113_before_partial {l : List LogEntry} (hl : ∀ e ∈ l, e.Legal ∧ e.msgIndex ≠ 0 ∧ e.Indexed strings ∧
      (4 + size) * (enc e).length < 9223372036854775808) (tail : Bytes) :
    linesOf shw showTime strings l <+: (textlogDumpMem shw showTime strings size (encAll l ++ tail)).lines := by
  have hlen := encAll_length_ge (l := l) fun e _ => entry_pos e
  obtain ⟨h1, _⟩ := textLoop_written (shw := shw) (showTime := showTime) hl tail ((encAll l ++ tail).length + 1 - l.length)
  rw [show l.length + ((encAll l ++ tail).length + 1 - l.length) = (encAll l ++ tail).length + 1 by
    rw [List.length_append]; omega] at h1
  exact ⟨_, h1.symm⟩

/-- On any data at all the dump ends, with or without an error, as the model without memory says, or it panics.  It
panics only behind some entries, all of whose lines were printed, and for one of three reasons: the next entry says
that it has so many names, or so many parameters, that the room for them is more than the address space; or one of its
strings is not in the index. -/
theorem C113_any_partial (bs : Bytes) :
    textlogDumpMem shw showTime strings size bs = textlogDump shw showTime strings bs ∨
      ((textlogDumpMem shw showTime strings size bs).ended = false ∧ ∃ es rest, Entries bs es rest ∧
        (textlogDumpMem shw showTime strings size bs).lines = linesOf shw showTime strings es ∧
          ((∃ n r, NamesSaid rest n r ∧ 9223372036854775807 < 4 * n) ∨
            (∃ m, ParamsSaid rest m ∧ 9223372036854775807 < size * m) ∨
            ∃ e rest', (dec : Dec LogEntry) rest = .ok (e, rest') ∧ ¬ e.Indexed strings)) := by
  cases h : (textlogDumpMem shw showTime strings size bs).ended with
  | true => exact .inl (textLoop_same h)
  | false =>
    refine .inr ⟨rfl, ?_⟩
    obtain ⟨es, rest, h1, h2, h3⟩ := textLoop_cause h
    refine ⟨es, rest, h1, h2, ?_⟩
    rcases h3 with h3 | h3
    · rcases decodeMem_panic.1 h3 with ⟨n, r, a, _, b⟩ | ⟨m, a, _, b⟩
      · exact .inl ⟨n, r, a, b⟩
      · exact .inr (.inl ⟨m, a, b⟩)
    · exact .inr (.inr h3)

open ULog in
/-- From the files to the lines: a text log, of any history, whose files are damaged.  Read as a byte stream with any
buffer sizes to where it ends, it prints first of all the lines of the entries logged before those of the section the
damage begins in, in its content or from its header on.  If the damage is within a section of another type, it prints
all the lines and ends without an error. -/
theorem C113_files_partial {page slabSize : Nat} (hz : SizesOk page slabSize) {ops : List LogOp}
    (hops : HistoryOk page slabSize [] ops) (hu : UsedFirst .structuredLogLine false [] ops) {l : List LogEntry}
    (hobjs : objsOf .structuredLogLine [] ops = l.map enc)
    (hl : ∀ e ∈ l, e.Legal ∧ e.msgIndex ≠ 0 ∧ e.Indexed strings ∧ (4 + size) * (enc e).length < 9223372036854775808) :
    ∃ files spots last, writeLog slabSize page ops = .ok files ∧ (spots ++ [last]).Pairwise Spot.Before ∧
      encAll l = (contents files .structuredLogLine spots).flatten ∧
      ∀ pre p post, spots ++ [last] = pre ++ p :: post → ∃ before rest, l = before ++ rest ∧
        encAll before = (contents files .structuredLogLine pre).flatten ∧
        ∀ files', (p ∈ spots ∧ DamagedIn [p] files files') ∨ DamagedFrom p.file (p.pos - 15) files files' →
        ∀ ns : List Nat, (∀ n ∈ ns, 0 < n) →
          let read := drainLog files' .structuredLogLine ns
          read.2 ≠ .more →
            linesOf shw showTime strings before <+: (textlogDumpMem shw showTime strings size read.1).lines ∧
            (p ∈ spots → DamagedIn [p] files files' → p.type ≠ .structuredLogLine →
              textlogDumpMem shw showTime strings size read.1 = .done (linesOf shw showTime strings l) true) := by
  obtain ⟨files, spots, last, h1, h2, h3, h4⟩ := damage_bytes hz hops (by decide) hu hobjs
  refine ⟨files, spots, last, h1, h2, h3, fun pre p post hs => ?_⟩
  obtain ⟨before, rest, he, hb, h5⟩ := h4 pre p post hs
  refine ⟨before, rest, he, hb, fun files' hdam ns hns hmore => ?_⟩
  obtain ⟨h6, h7⟩ := h5 files' hdam ns hns
  refine ⟨?_, fun hp hd hty => ?_⟩
  · obtain ⟨x, hx⟩ := h6 hmore
    rw [← hx]
    exact C113_before_partial (fun e h => hl e (by simp [he, h])) x
  · rw [(h7 hp hd).1 hty hmore]
    exact (C113_written hl).1

/-! One line, `hello {}`, with a string for parameter. -/

def helloStrings : List Text := ["".toList, "hello {}".toList]

def hello : LogEntry := ⟨5, 1, [0], [.str "abcdefgh"]⟩

def helloDump (bs : Bytes) : TextDump :=
  textlogDumpMem (fun | .str s => s.toList | _ => []) (fun t => (toString t.toNat).toList) helloStrings 32 bs

theorem hello_ok : hello.Legal ∧ hello.msgIndex ≠ 0 ∧ hello.Indexed helloStrings ∧
    (4 + 32) * (enc hello).length < 9223372036854775808 := by
  refine ⟨⟨by decide, by decide, ?_⟩, by decide, ⟨by decide, by decide, by decide⟩, by decide +kernel⟩
  intro v hv
  simp only [hello, List.mem_singleton] at hv
  subst hv
  simp only [Value.Legal]
  decide +kernel

example : enc hello = [5, 1, 1, 0, 1, 12, 8, 97, 98, 99, 100, 101, 102, 103, 104] := by decide +kernel

open ULog in
example : SizesOk 16 96 ∧
    HistoryOk 16 96 [] [.openStream .structuredLogLine 48, .log 0 [enc hello], .log 0 [enc hello]] ∧
    UsedFirst .structuredLogLine false [] [.openStream .structuredLogLine 48, .log 0 [enc hello], .log 0 [enc hello]] ∧
    objsOf .structuredLogLine [] [.openStream .structuredLogLine 48, .log 0 [enc hello], .log 0 [enc hello]] =
      [hello, hello].map enc := by
  have h : (enc hello).length = 15 := by decide +kernel
  refine ⟨⟨by decide, by decide, by decide⟩, ?_, ?_, by decide +kernel⟩
  · simp [HistoryOk, h]
    exact ⟨by decide, by decide, by decide⟩
  · simp [UsedFirst]

example : (helloDump (enc hello)).lines = ["5: hello abcdefgh".toList] := by decide +kernel

example : ∃ n r, NamesSaid [5, 1, 253, 0, 1, 12, 8, 97, 98, 99, 100, 101, 102, 103, 104] n r ∧
    9223372036854775807 < 4 * n :=
  ⟨_, _, ⟨_, _, _, _, rfl, rfl, rfl⟩, by decide⟩

/-- Two lines, and one byte of the second damaged: the number of its names, or the index of its message.  The dump
panics. -/
theorem C113_violated :
    (helloDump (enc hello ++ (enc hello).set 2 253)).ended = false ∧
      (helloDump (enc hello ++ (enc hello).set 1 200)).ended = false ∧
      (helloDump (enc hello ++ enc hello)).ended = true ∧
      (helloDump (enc hello ++ (enc hello).set 2 253)).lines = ["5: hello abcdefgh".toList] := by
  refine ⟨by decide +kernel, by decide +kernel, by decide +kernel, by decide +kernel⟩

/-- A few bytes make the reader ask for any amount of memory up to the address space, before it finds that there are
no names. -/
theorem C113_memory_violated (n : Nat) (hn : 10 < n) (hm : 4 * n ≤ 9223372036854775807) :
    LogEntry.decodeMem size ([5, 1] ++ encVar n) = .ok (.error .unexpectedEnd, 4 * n) ∧
      ([5, 1] ++ encVar n : Bytes).length ≤ 11 := by
  constructor
  · unfold LogEntry.decodeMem
    have h1 : (dec : Dec UInt64) ([5, 1] ++ encVar n) = .ok (5, [1] ++ encVar n) := rfl
    have h2 : (dec : Dec UInt32) ([1] ++ encVar n) = .ok (1, encVar n) := rfl
    have h3 : decVar 8 (encVar n) = .ok (n, []) := by
      have := decVar_encVar8 n (by omega) []
      rwa [List.append_nil] at this
    have hp : ∀ {α : Type} (a : α) (bs : Bytes), (pure a : Dec α) bs = .ok (a, bs) := fun _ _ => rfl
    simp only [Dec.bind_apply, h1, h2, h3, hp]
    rw [show withCapacity 10 4 n = .ok (4 * n) by unfold withCapacity; rw [if_neg (by omega), if_pos hm]]
    obtain ⟨k, rfl⟩ : ∃ k, n = k + 1 := ⟨n - 1, by omega⟩
    rfl
  · have : (encVar n).length ≤ 9 := by
      unfold encVar
      split
      · simp
      · split
        · simp [leBytes_length]
        · split <;> simp [leBytes_length]
    rw [List.length_append]
    simp only [List.length_cons, List.length_nil]
    omega

end Verif
