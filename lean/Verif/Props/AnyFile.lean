import Verif.Proofs.AnyFile
import Verif.Props.UnifiedLog
/-!
Property C95: the log reader on files of any content.
-/
namespace Verif
namespace ULog
open Bincode

/-! ### C95 Whatever the files contain, the reader follows the sections -/

/-- What the reader returns for any files is the content, in order, of the sections of the type asked
for, following from section to section what the files say, up to the end marker.  It reports an error
exactly if the first file is not there or does not begin as a log does, or if the sections end without
a marker or lead to something that is not a section.  In the remaining cases it panics, or never
returns: the property wants an error in all of them. -/
theorem C95_partial (files : List Bytes) (t : EntryType) :
    (∀ ds, readLog files t = .ok ds ↔
      ∃ first e, Opens files first ∧ Chain files t (0, first) ds e ∧ Ends files t e .marker) ∧
    (readLog files t = .err ↔ NotALog files ∨
      ∃ first ds e, Opens files first ∧ Chain files t (0, first) ds e ∧ Ends files t e .refused) ∧
    (readLog files t = .panic ↔ NoBeginning files ∨
      ∃ first ds e, Opens files first ∧ Chain files t (0, first) ds e ∧ Ends files t e .broken) ∧
    (readLog files t = .diverges ↔
      ∃ first ds e, Opens files first ∧ Chain files t (0, first) ds e ∧ Ends files t e .endless) :=
  readLog_iff files t

/-- Only a file with the four bytes of a log in front is read. -/
theorem C95_only_logs {files : List Bytes} {t : EntryType} {ds : List Bytes} (h : readLog files t = .ok ds) :
    ∃ rest, files[0]? = some (0xB4 :: 0xA5 :: 0x50 :: 0xFF :: rest) := by
  obtain ⟨_, _, ⟨f, hf, b, _, _, _, rfl, _⟩, _⟩ := ((readLog_iff files t).1 ds).1 h
  exact ⟨b, hf⟩

/-- Nothing is made up: what is returned lies in the files, complete, behind headers of its type. -/
theorem C95_inside {files : List Bytes} {t : EntryType} {ds : List Bytes} (h : readLog files t = .ok ds) :
    ∀ d ∈ ds, ∃ file ∈ files, ∃ off size filled, HeaderAt file off 0xFA 0x57 t size filled ∧
      d = (file.drop (off + 15)).take filled.toNat ∧ d.length = filled.toNat := by
  obtain ⟨_, _, _, hc, _⟩ := ((readLog_iff files t).1 ds).1 h
  exact hc.inside

/-- A log of which the end is missing (a copy that was interrupted, files that were forgotten) is never
taken for a shorter one: what is delivered is a beginning of what the log holds, and the reader says
that this is all only if it is all. -/
theorem C95_cut {files files' : List Bytes} {t : EntryType} {ds : List Bytes} (h : readLog files t = .ok ds)
    (hcut : CutOf files' files) :
    (∀ first ds' e, Opens files' first → Chain files' t (0, first) ds' e → ds' <+: ds) ∧
    (∀ ds', readLog files' t = .ok ds' → ds' = ds) ∧
    readLog files' t ≠ .diverges := by
  obtain ⟨first, e, ho, hc, hk⟩ := ((readLog_iff files t).1 ds).1 h
  refine ⟨?_, ?_, ?_⟩
  · intro first' ds' e' ho' hc'
    obtain rfl := ho.fun (hcut.opens ho')
    exact (hc.prefix hk (hcut.chain hc')).1
  · intro ds' h'
    obtain ⟨first', e', ho', hc', hk'⟩ := ((readLog_iff files' t).1 ds').1 h'
    obtain rfl := ho.fun (hcut.opens ho')
    exact (((hcut.chain hc').fun (hcut.marker hk') hc hk).2 (by decide)).1
  · intro h'
    obtain ⟨first', ds', e', ho', hc', hk'⟩ := (readLog_iff files' t).2.2.2.1 h'
    obtain rfl := ho.fun (hcut.opens ho')
    exact absurd ((hcut.chain hc').fun (hcut.endless hk') hc hk).1 (by decide)

/-- The files of the demonstration log of C01. -/
def closedFiles : List Bytes := match writeLog 96 16 demoHistory with | .ok f => f | .panic => []

example := @C95_only_logs closedFiles .structuredLogLine [[9], [20], [21], [25, 26, 27]] (by decide +kernel)
example := @C95_inside closedFiles .structuredLogLine [[9], [20], [21], [25, 26, 27]] (by decide +kernel)

/-- The log is complete; without the end of its third file and the fourth one it is a cut one, of which
two sections are delivered; without the fourth file alone all of them are, and then an error. -/
example : readLog closedFiles .copperList = .ok [[1, 2, 3, 4, 5, 6, 7, 8],
      [10, 11, 12, 13, 14, 15, 16, 17, 18, 19, 22, 23, 24],
      [28, 29, 30, 31, 32, 33, 34, 35, 36, 37, 38, 39, 40, 41, 42, 43, 44]] ∧
    CutOf (closedFiles.take 2 ++ [(closedFiles[2]?.getD []).take 20]) closedFiles ∧
    CutOf (closedFiles.take 3) closedFiles ∧ readLog (closedFiles.take 3) .copperList = .err := by
  refine ⟨by decide +kernel, ⟨2, closedFiles[2]?.getD [], 20, by decide +kernel, rfl⟩, ⟨2, closedFiles[2]?.getD [], 32, ?_, ?_⟩, by decide +kernel⟩
  · decide +kernel
  · decide +kernel

/-- What is not a log, and what is no header of a log. -/
example : NotALog [] ∧ NotALog [[110, 111, 116, 32, 97, 32, 108, 111, 103]] ∧ NoBeginning [[0xB4]] :=
  ⟨.inl rfl, .inr ⟨_, 110, 111, 116, 32, 97, rfl, ⟨[97, 32, 108, 111, 103], [108, 111, 103], 97, 32, rfl, rfl, rfl⟩, by decide⟩,
    ⟨_, rfl, by rintro m0 m1 m2 m3 f ⟨b, _, _, _, h, _⟩; simp at h⟩⟩

/-- Not every file that is no log is answered with an error.  A file shorter than the beginning of a log
makes the reader panic, and so does a copy of a log that was cut within a section, or within a header.
On a section that says that its size is nothing the reader never returns. -/
theorem C95_violated :
    readLog [[0xB4]] .copperList = .panic ∧
    CutOf [(closedFiles[0]?.getD []).take 18] closedFiles ∧
    readLog [(closedFiles[0]?.getD []).take 18] .structuredLogLine = .panic ∧
    CutOf [(closedFiles[0]?.getD []).take 30] closedFiles ∧
    readLog [(closedFiles[0]?.getD []).take 30] .copperList = .panic ∧
    readLog [[0xB4, 0xA5, 0x50, 0xFF, 6, 16, 0xFA, 0x57, 1, 0, 0]] .copperList = .diverges := by
  refine ⟨by decide +kernel, ⟨0, closedFiles[0]?.getD [], 18, by decide +kernel, rfl⟩, by decide +kernel,
    ⟨0, closedFiles[0]?.getD [], 30, by decide +kernel, rfl⟩, by decide +kernel, by decide +kernel⟩

/-- If it is a file in the middle of which the end is missing, the reader can take the rest for the whole
log: here the second of four files was cut behind its second section, and the third section is lost
without a sign. -/
theorem C95_middle_violated :
    readLog closedFiles .structuredLogLine = .ok [[9], [20], [21], [25, 26, 27]] ∧
    readLog (closedFiles.set 1 ((closedFiles[1]?.getD []).take 32)) .structuredLogLine = .ok [[9], [20], [21]] := by
  refine ⟨by decide +kernel, by decide +kernel⟩

end ULog
end Verif
