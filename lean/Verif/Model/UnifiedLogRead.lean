import Verif.Model.UnifiedLog
/-!
Model of the read side of the unified log (core/cu29_unifiedlog/src/lib.rs:560-745).
-/
namespace Verif
namespace ULog
open Bincode

/-- Outcome of a reading operation. -/
inductive Rd (α : Type) where
  | ok (a : α)
  | err           -- an `Err` is returned
  | panic
  | diverges      -- the loop never ends
  deriving DecidableEq, Repr

/-- `UnifiedLoggerRead` (lib.rs:218-224): the slab being read and the position in it. -/
structure Reader where
  slab : Nat
  pos : Nat
  deriving DecidableEq, Repr

/-- `open_slab_index` (lib.rs:560-582): the position of the first section. -/
def openSlab (files : List Bytes) (i : Nat) : Rd Nat :=
  match files[i]? with
  | none => .err
  | some file =>
    if i = 0 then
      match (dec : Dec MainHeader) file with
      | .error _ => .panic
      | .ok (h, _) => if h.magicOk then .ok h.firstSectionOffset.toNat else .err
    else .ok 0

/-- `UnifiedLoggerRead::new` (lib.rs:585-595). -/
def Reader.new (files : List Bytes) : Rd Reader :=
  match openSlab files 0 with
  | .ok p => .ok ⟨0, p⟩
  | .err => .err
  | .panic => .panic
  | .diverges => .diverges

/-- `read_section_header` (lib.rs:672-683). -/
def readHeader (files : List Bytes) (r : Reader) : Rd SectionHeader :=
  match files[r.slab]? with
  | none => .panic
  | some file =>
    if file.length < r.pos then .panic
    else
      match (dec : Dec SectionHeader) (file.drop r.pos) with
      | .error _ => .panic
      | .ok (h, _) => if h.magicOk then .ok h else .err

/-- `read_section_content` (lib.rs:658-670). -/
def readContent (files : List Bytes) (r : Reader) (h : SectionHeader) : Rd Bytes :=
  match files[r.slab]? with
  | none => .panic
  | some file =>
    let start := r.pos + maxHeader
    if file.length < start + h.filledSize.toNat then .panic
    else .ok ((file.drop start).take h.filledSize.toNat)

/-- The beginning of the loop body: move to the next slab when this one is exhausted
(lib.rs:612-616). -/
def Reader.advance (files : List Bytes) (r : Reader) : Rd Reader :=
  match files[r.slab]? with
  | none => .panic
  | some file =>
    if file.length ≤ r.pos then
      match openSlab files (r.slab + 1) with
      | .ok p => .ok ⟨r.slab + 1, p⟩
      | .err => .err
      | .panic => .panic
      | .diverges => .diverges
    else .ok r

/-- `read_next_section_type` (lib.rs:606-643), with at most `fuel` rounds of its loop. -/
def readNext (files : List Bytes) (t : EntryType) : Nat → Reader → Rd (Option Bytes × Reader)
  | 0, _ => .diverges
  | fuel + 1, r =>
    match r.advance files with
    | .err => .err
    | .panic => .panic
    | .diverges => .diverges
    | .ok r =>
      match readHeader files r with
      | .err => .err
      | .panic => .panic
      | .diverges => .diverges
      | .ok h =>
        if h.entryType = .lastEntry then .ok (none, r)
        else if h.entryType = t then
          match readContent files r h with
          | .ok d => .ok (some d, ⟨r.slab, r.pos + h.sectionSize.toNat⟩)
          | .err => .err
          | .panic => .panic
          | .diverges => .diverges
        else readNext files t fuel ⟨r.slab, r.pos + h.sectionSize.toNat⟩

/-- Rounds that suffice: each round consumes a byte or a slab, unless a section has size 0, in
which case the loop never ends. -/
def readFuel (files : List Bytes) : Nat := (files.map List.length).sum + files.length + 1

/-- Everything a caller gets by calling `read_next_section_type` until it returns `None`
(at most `n` calls), in order. -/
def readAll (files : List Bytes) (t : EntryType) : Nat → Reader → Rd (List Bytes)
  | 0, _ => .diverges
  | n + 1, r =>
    match readNext files t (readFuel files) r with
    | .err => .err
    | .panic => .panic
    | .diverges => .diverges
    | .ok (none, _) => .ok []
    | .ok (some d, r) =>
      match readAll files t n r with
      | .ok ds => .ok (d :: ds)
      | .err => .err
      | .panic => .panic
      | .diverges => .diverges

/-- Open a log and read all its sections of a type. -/
def readLog (files : List Bytes) (t : EntryType) : Rd (List Bytes) :=
  match Reader.new files with
  | .ok r => readAll files t (readFuel files) r
  | .err => .err
  | .panic => .panic
  | .diverges => .diverges

/-- `UnifiedLoggerIOReader` (lib.rs:687-692): what is left of the current buffer. -/
structure IOReader where
  reader : Reader
  buffer : Bytes
  bufferPos : Nat
  deriving DecidableEq, Repr

/-- `UnifiedLoggerIOReader::new` (lib.rs:695-702). -/
def IOReader.new (r : Reader) : IOReader := ⟨r, [], 0⟩

/-- `Read::read` with a caller buffer of `n` bytes (lib.rs:705-740, with `fill_buffer`): the bytes
delivered. -/
def IOReader.read (files : List Bytes) (t : EntryType) (io : IOReader) (n : Nat) :
    Rd (Bytes × IOReader) :=
  let deliver (io : IOReader) : Rd (Bytes × IOReader) :=
    if io.buffer.length ≤ io.bufferPos then .ok ([], io)
    else
      let len := min n (io.buffer.length - io.bufferPos)
      .ok ((io.buffer.drop io.bufferPos).take len, { io with bufferPos := io.bufferPos + len })
  if io.buffer.length ≤ io.bufferPos then
    match readNext files t (readFuel files) io.reader with
    | .err => .err
    | .panic => .panic
    | .diverges => .diverges
    | .ok (none, r) => .ok ([], { io with reader := r })
    | .ok (some d, r) => deliver ⟨r, d, 0⟩
  else deliver io

end ULog
end Verif
