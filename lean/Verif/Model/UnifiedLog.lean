import Verif.Model.Basic
import Verif.Model.Bincode
/-!
Model of the write side of the unified log (core/cu29_unifiedlog/src/lib.rs).

A slab file and its shared memory map are the same bytes: `files` holds the content of the slab
files in suffix order, whether they are still mapped or not.  File system errors are not modelled.
`usize` is `Nat`.  Writing into a section happens outside the mutex in the code, into memory
nobody else touches; here every operation is atomic.
-/
namespace Verif
namespace ULog
open Bincode

/-- `UnifiedLogType` (core/cu29_traits/src/lib.rs:71-76). -/
inductive EntryType where
  | empty | structuredLogLine | copperList | lastEntry
  deriving DecidableEq, Repr

/-- derived `Encode`/`Decode` of `UnifiedLogType`: the variant index as a `u32`. -/
instance : Codec EntryType where
  enc
    | .empty => enc (0 : UInt32)
    | .structuredLogLine => enc (1 : UInt32)
    | .copperList => enc (2 : UInt32)
    | .lastEntry => enc (3 : UInt32)
  dec := do
    let v ← (dec : Dec UInt32)
    if v = 0 then pure .empty
    else if v = 1 then pure .structuredLogLine
    else if v = 2 then pure .copperList
    else if v = 3 then pure .lastEntry
    else Dec.fail .invalidVariant

/-- `MainHeader` (lib.rs:24-29); the four bytes of the magic number. -/
structure MainHeader where
  m0 : UInt8
  m1 : UInt8
  m2 : UInt8
  m3 : UInt8
  firstSectionOffset : UInt16
  pageSize : UInt16
  deriving DecidableEq, Repr

/-- derived `Encode`/`Decode`: the fields in order; an array of bytes has no length prefix. -/
instance : Codec MainHeader where
  enc h := enc h.m0 ++ (enc h.m1 ++ (enc h.m2 ++ (enc h.m3 ++
    (enc h.firstSectionOffset ++ enc h.pageSize))))
  dec := do
    let a ← dec
    let b ← dec
    let c ← dec
    let d ← dec
    let f ← dec
    let p ← dec
    pure ⟨a, b, c, d, f, p⟩

/-- `MAIN_MAGIC` (lib.rs:18). -/
def MainHeader.magicOk (h : MainHeader) : Bool :=
  h.m0 == 0xB4 && h.m1 == 0xA5 && h.m2 == 0x50 && h.m3 == 0xFF

/-- `SectionHeader` (lib.rs:34-40). -/
structure SectionHeader where
  m0 : UInt8
  m1 : UInt8
  entryType : EntryType
  sectionSize : UInt32
  filledSize : UInt32
  deriving DecidableEq, Repr

instance : Codec SectionHeader where
  enc h := enc h.m0 ++ (enc h.m1 ++ (enc h.entryType ++ (enc h.sectionSize ++ enc h.filledSize)))
  dec := do
    let a ← dec
    let b ← dec
    let t ← dec
    let s ← dec
    let f ← dec
    pure ⟨a, b, t, s, f⟩

/-- `SECTION_MAGIC` (lib.rs:20). -/
def SectionHeader.magicOk (h : SectionHeader) : Bool := h.m0 == 0xFA && h.m1 == 0x57

/-- A header with the right magic number. -/
def mkHeader (t : EntryType) (size filled : UInt32) : SectionHeader := ⟨0xFA, 0x57, t, size, filled⟩

/-- `MAX_HEADER_SIZE` (lib.rs:41): `size_of::<SectionHeader>()` is 12 (two `u32`, two magic bytes,
one byte of discriminant, padding) plus 3. -/
def maxHeader : Nat := 15

/-- Overwrite the bytes from `off` on. -/
def writeAt (bs : Bytes) (off : Nat) (d : Bytes) : Bytes :=
  bs.take off ++ d ++ bs.drop (off + d.length)

/-- `File::set_len`: cut, or extend with zeros. -/
def setLen (bs : Bytes) (n : Nat) : Bytes := bs.take n ++ List.replicate (n - bs.length) 0

/-- `SlabEntry` (lib.rs:226-233); the memory map is `files[suffix]`. -/
structure Slab where
  suffix : Nat
  cgp : Nat               -- `current_global_position`
  inFlight : List Nat     -- `sections_offsets_in_flight`
  flushed : Nat           -- `flushed_until_offset`
  deriving DecidableEq, Repr

/-- `SectionHandle` (lib.rs:378-383): the buffer is `req` bytes at offset `off` of slab `slab`. -/
structure Handle where
  slab : Nat
  off : Nat
  req : Nat
  header : SectionHeader
  used : Nat
  deriving DecidableEq, Repr

/-- `UnifiedLoggerWrite` (lib.rs:426-438). -/
structure Logger where
  pageSize : Nat
  slabSize : Nat
  files : List Bytes
  front : Slab
  back : List Slab
  deriving DecidableEq, Repr

/-- `align_to_next_page` (lib.rs:319-322).  The mask of the code is this function for powers of
two, and page sizes are powers of two. -/
def align (page x : Nat) : Nat := (x + page - 1) / page * page

/-- `flush_until` (lib.rs:269-281): a position behind the flushed one would underflow. -/
def Slab.flushUntil (s : Slab) (pos : Nat) : Rs Slab :=
  if s.flushed = pos ∨ pos = 0 then .ok s
  else if pos < s.flushed then .panic
  else .ok { s with flushed := pos }

/-- `update_header` (lib.rs:412-422). -/
def Handle.updateHeader (h : Handle) : Handle :=
  if h.header.entryType = .empty ∨ h.used = 0 then h
  else { h with header := { h.header with filledSize := UInt32.ofNat h.used } }

/-- `SlabEntry::flush_section` (lib.rs:291-317) on the slab owning the section: the slab, the
content of its file. -/
def Slab.flushSection (s : Slab) (file : Bytes) (h : Handle) : Rs (Slab × Bytes) :=
  let h := h.updateHeader
  if h.req < (enc h.header).length then .panic
  else
    let file := writeAt file h.off (enc h.header)
    let s := { s with inFlight := s.inFlight.filter (· != h.off) }
    match s.inFlight with
    | [] =>
      match s.flushUntil s.cgp with
      | .panic => .panic
      | .ok s => .ok (s, file)
    | o :: _ =>
      if s.flushed < o then
        match s.flushUntil o with
        | .panic => .panic
        | .ok s => .ok (s, file)
      else .ok (s, file)

/-- `SlabEntry::add_section` (lib.rs:325-367), with `SectionHandle::create` (lib.rs:388-407): the
slab, its file and the handle, or no handle for `NoMoreSpace`. -/
def Slab.addSection (page : Nat) (s : Slab) (file : Bytes) (t : EntryType) (req : Nat) :
    Rs (Slab × Bytes × Option Handle) :=
  let pos := align page s.cgp
  let s := { s with cgp := pos }
  let size := UInt32.ofNat (align page req)
  if file.length < pos + size.toNat then .ok (s, file, none)
  else
    let hd := mkHeader t size 0
    if file.length < pos + (enc hd).length then .panic          -- header does not fit
    else if page ≤ (enc hd).length then .panic                   -- assert!(nb_bytes < page_size)
    else if file.length < pos + req then .panic                  -- slice out of range
    else if req < maxHeader then .panic                          -- SectionHandle::create
    else
      .ok ({ s with inFlight := s.inFlight ++ [pos], cgp := pos + req },
        writeAt file pos (enc hd), some ⟨s.suffix, pos, req, hd, 0⟩)

/-- `Drop for SlabEntry` (lib.rs:235-252): flush, then cut the file. -/
def dropSlab (files : List Bytes) (s : Slab) : Rs (List Bytes) :=
  match s.flushUntil s.cgp with
  | .panic => .panic
  | .ok s => .ok (files.modify s.suffix (fun f => setLen f s.cgp))

def dropSlabs : List Bytes → List Slab → Rs (List Bytes)
  | files, [] => .ok files
  | files, s :: ss =>
    match dropSlab files s with
    | .panic => .panic
    | .ok files => dropSlabs files ss

/-- `garbage_collect_backslabs` (lib.rs:505-508). -/
def Logger.gc (lg : Logger) : Rs Logger :=
  match dropSlabs lg.files (lg.back.filter (fun s => s.inFlight.isEmpty)) with
  | .panic => .panic
  | .ok files => .ok { lg with files := files, back := lg.back.filter (fun s => !s.inFlight.isEmpty) }

/-- `make_slab_file` + `SlabEntry::new` (lib.rs:450-463, 255-266): a file of zeros, mapped. -/
def newSlab (slabSize suffix : Nat) : Slab × Bytes :=
  (⟨suffix, 0, [], 0⟩, List.replicate slabSize 0)

/-- `UnifiedLoggerWrite::new` (lib.rs:471-493). -/
def Logger.new (slabSize page : Nat) : Rs Logger :=
  let hd : MainHeader := ⟨0xB4, 0xA5, 0x50, 0xFF, UInt16.ofNat page, UInt16.ofNat page⟩
  if slabSize < (enc hd).length then .panic
  else if page ≤ (enc hd).length then .panic
  else
    let s := newSlab slabSize 0
    .ok ⟨page, slabSize, [writeAt s.2 0 (enc hd)], { s.1 with cgp := page }, []⟩

/-- `add_section` on the front slab, with the file stored back. -/
def Logger.addFront (lg : Logger) (t : EntryType) (req : Nat) : Rs (Logger × Option Handle) :=
  match lg.files[lg.front.suffix]? with
  | none => .panic
  | some file =>
    match lg.front.addSection lg.pageSize file t req with
    | .panic => .panic
    | .ok (s, file, h) =>
      .ok ({ lg with front := s, files := lg.files.set lg.front.suffix file }, h)

/-- The front slab becomes a back slab and a new one is created (lib.rs:522-527, 465-469). -/
def Logger.rollover (lg : Logger) : Logger :=
  let n := newSlab lg.slabSize (lg.front.suffix + 1)
  { lg with back := lg.back ++ [lg.front], front := n.1, files := lg.files ++ [n.2] }

/-- `UnifiedLoggerWrite::add_section` (lib.rs:511-541). -/
def Logger.addSection (lg : Logger) (t : EntryType) (req : Nat) : Rs (Logger × Handle) :=
  match lg.gc with
  | .panic => .panic
  | .ok lg =>
    match lg.addFront t req with
    | .panic => .panic
    | .ok (lg, some h) => .ok (lg, h)
    | .ok (lg, none) =>
      match lg.rollover.addFront t req with
      | .ok (lg, some h) => .ok (lg, h)
      | _ => .panic                                  -- "Failed to allocate a section in a new slab"

/-- Flushes the section in the given slab entry. -/
def flushIn (files : List Bytes) (s : Slab) (h : Handle) : Rs (Slab × List Bytes) :=
  match files[s.suffix]? with
  | none => .panic
  | some file =>
    match s.flushSection file h with
    | .panic => .panic
    | .ok (s', file') => .ok (s', files.set s.suffix file')

/-- The back slabs up to and including the one owning the section (lib.rs:496-501):
`is_it_my_section` compares addresses, which identify the slab. -/
def flushBack (files : List Bytes) (h : Handle) : List Slab → Rs (Option (List Slab × List Bytes))
  | [] => .ok none
  | s :: ss =>
    if s.suffix = h.slab then
      match flushIn files s h with
      | .panic => .panic
      | .ok (s', files') => .ok (some (s' :: ss, files'))
    else
      match flushBack files h ss with
      | .panic => .panic
      | .ok none => .ok none
      | .ok (some (ss', files')) => .ok (some (s :: ss', files'))

/-- `UnifiedLoggerWrite::flush_section` (lib.rs:495-503); a section of no slab is a panic
("Invalid section buffer, not in the slab"). -/
def Logger.flushSection (lg : Logger) (h : Handle) : Rs Logger :=
  match flushBack lg.files h lg.back with
  | .panic => .panic
  | .ok (some (back, files)) => .ok { lg with back := back, files := files }
  | .ok none =>
    if h.slab ≠ lg.front.suffix then .panic
    else
      match flushIn lg.files lg.front h with
      | .panic => .panic
      | .ok (s, files) => .ok { lg with front := s, files := files }

/-- `Drop for UnifiedLoggerWrite` (lib.rs:552-558), then the drop of its fields: the final
content of the files. -/
def Logger.close (lg : Logger) : Rs (List Bytes) :=
  match lg.addSection .lastEntry 80 with
  | .panic => .panic
  | .ok (lg, h) =>
    if h.slab ≠ lg.front.suffix then .panic
    else
      match flushIn lg.files lg.front h with
      | .panic => .panic
      | .ok (s, files) =>
        match Logger.gc { lg with front := s, files := files } with
        | .panic => .panic
        | .ok lg => dropSlabs lg.files (lg.front :: lg.back)

/-- bincode's `SliceWriter`: an encoder hands over its bytes piece by piece; a piece that does not
fit stops it with `UnexpectedEnd`, what was written before stays. -/
def fitChunks : Nat → List Bytes → Bytes × Bool
  | _, [] => ([], true)
  | room, c :: cs =>
    if c.length ≤ room then
      let r := fitChunks (room - c.length) cs
      (c ++ r.1, r.2)
    else ([], false)

/-- `encode_into_slice(obj, section.get_user_buffer())` (lib.rs:91-92, 408-410) for an object whose
encoder writes the pieces `obj`; the handle's `used` advances on success (lib.rs:95-96).  The
pieces stand for any `Encode` implementation that does not fail by itself. -/
def encodeInto (files : List Bytes) (h : Handle) (obj : List Bytes) :
    Rs (List Bytes × Handle × Bool) :=
  if h.req < maxHeader + h.used then .panic
  else
    let r := fitChunks (h.req - (maxHeader + h.used)) obj
    let files := files.modify h.slab (fun f => writeAt f (h.off + maxHeader + h.used) r.1)
    if r.2 then .ok (files, { h with used := h.used + r.1.length }, true)
    else .ok (files, h, false)

/-- `MmapStream` (lib.rs:55-61), without the position used for debug output. -/
structure Stream where
  entryType : EntryType
  section_ : Handle
  minAlloc : Nat
  deriving DecidableEq, Repr

/-- `MmapStream::new` (lib.rs:64-80). -/
def openStream (lg : Logger) (t : EntryType) (minAlloc : Nat) : Rs (Logger × Stream) :=
  match lg.addSection t minAlloc with
  | .panic => .panic
  | .ok (lg, h) => .ok (lg, ⟨t, h, minAlloc⟩)

/-- `MmapStream::log` (lib.rs:90-126). -/
def Stream.log (lg : Logger) (st : Stream) (obj : List Bytes) : Rs (Logger × Stream) :=
  match encodeInto lg.files st.section_ obj with
  | .panic => .panic
  | .ok (files, h, true) => .ok ({ lg with files := files }, { st with section_ := h })
  | .ok (files, h, false) =>
    match Logger.flushSection { lg with files := files } h with
    | .panic => .panic
    | .ok lg =>
      match lg.addSection st.entryType st.minAlloc with
      | .panic => .panic
      | .ok (lg, h) =>
        match encodeInto lg.files h obj with
        | .ok (files, h, true) => .ok ({ lg with files := files }, { st with section_ := h })
        | _ => .panic                    -- "Failed to encode object in a newly minted section"

/-- `Drop for MmapStream` (lib.rs:129-134). -/
def Stream.drop (lg : Logger) (st : Stream) : Rs Logger := lg.flushSection st.section_

end ULog
end Verif
