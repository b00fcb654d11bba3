import Verif.Model.UnifiedLogRead
/-!
What the properties of the unified log talk about: histories of operations on a log, seen by its
users.  Two levels: streams (what an application uses) and sections (what a stream asks of the
logger).
-/
namespace Verif
namespace ULog

/-! ### Streams -/

/-- What an application does with a log: open a stream of a type with a section size, log an
object (the pieces its encoder produces) on the `i`-th stream opened, drop that stream. -/
inductive LogOp where
  | openStream (t : EntryType) (minAlloc : Nat)
  | log (i : Nat) (obj : List Bytes)
  | drop (i : Nat)
  deriving DecidableEq, Repr

/-- A log being written: the logger, the streams opened so far that have not been dropped. -/
structure LogSys where
  lg : Logger
  streams : List (Option Stream)

/-- One operation.  An operation on a stream that has been dropped, or does not exist yet, cannot be
written in Rust; here it has no effect. -/
def LogSys.step (s : LogSys) : LogOp → Rs LogSys
  | .openStream t n =>
    match ULog.openStream s.lg t n with
    | .panic => .panic
    | .ok (lg, st) => .ok ⟨lg, s.streams ++ [some st]⟩
  | .log i obj =>
    match s.streams[i]? with
    | some (some st) =>
      match st.log s.lg obj with
      | .panic => .panic
      | .ok (lg, st) => .ok ⟨lg, s.streams.set i (some st)⟩
    | _ => .ok s
  | .drop i =>
    match s.streams[i]? with
    | some (some st) =>
      match st.drop s.lg with
      | .panic => .panic
      | .ok lg => .ok ⟨lg, s.streams.set i none⟩
    | _ => .ok s

def LogSys.steps : LogSys → List LogOp → Rs LogSys
  | s, [] => .ok s
  | s, op :: ops =>
    match s.step op with
    | .panic => .panic
    | .ok s => s.steps ops

/-- A whole history: a new log, the operations, the streams still open are dropped, the logger is
closed.  The result is the content of the slab files. -/
def writeLog (slabSize page : Nat) (ops : List LogOp) : Rs (List Bytes) :=
  match Logger.new slabSize page with
  | .panic => .panic
  | .ok lg =>
    match LogSys.steps ⟨lg, []⟩ ops with
    | .panic => .panic
    | .ok s =>
      match s.steps ((List.range s.streams.length).map .drop) with
      | .panic => .panic
      | .ok s => s.lg.close

/-- The bytes logged on streams of type `t`, in order; `live` are the streams open at the
beginning, with their type and section size. -/
def logged (t : EntryType) : List (Option (EntryType × Nat)) → List LogOp → Bytes
  | _, [] => []
  | live, .openStream t' n :: ops => logged t (live ++ [some (t', n)]) ops
  | live, .log i obj :: ops =>
    (match live[i]? with
      | some (some (t', _)) => if t' = t then obj.flatten else []
      | _ => []) ++ logged t live ops
  | live, .drop i :: ops => logged t (live.set i none) ops

/-- A section size a stream can use: room for the section header, rounded up to a page it fits in a
slab, and is representable in a section header. -/
structure SizeOk (page slabSize n : Nat) : Prop where
  min : 15 ≤ n
  fits : align page n ≤ slabSize
  max : align page n < 4294967296

/-- The histories the property is about: entry types other than the two reserved ones, at most one
stream of a type at a time, section sizes that can be used, objects that fit in a section. -/
def HistoryOk (page slabSize : Nat) : List (Option (EntryType × Nat)) → List LogOp → Prop
  | _, [] => True
  | live, .openStream t n :: ops =>
    t ≠ .empty ∧ t ≠ .lastEntry ∧ (∀ m, some (t, m) ∉ live) ∧ SizeOk page slabSize n ∧
      HistoryOk page slabSize (live ++ [some (t, n)]) ops
  | live, .log i obj :: ops =>
    (∀ t n, live[i]? = some (some (t, n)) → 15 + obj.flatten.length ≤ n) ∧
      HistoryOk page slabSize live ops
  | live, .drop i :: ops => HistoryOk page slabSize (live.set i none) ops

/-- Page and slab sizes: a page has room for a section header (13 bytes) and its size fits in 16
bits; a slab has room for the 80 bytes section that ends a log. -/
structure SizesOk (page slabSize : Nat) : Prop where
  page_min : 13 < page
  page_max : page < 65536
  slab : align page 80 ≤ slabSize

/-! ### Sections -/

/-- What the streams of an application ask of the logger: a new section, encoding an object into the
`i`-th section handed out, closing it. -/
inductive SecOp where
  | add (t : EntryType) (req : Nat)
  | write (i : Nat) (obj : List Bytes)
  | close (i : Nat)

/-- A section handed out, whether it is still open, and what has been written in it. -/
structure Issued where
  h : Handle
  isOpen : Bool
  data : Bytes
  deriving DecidableEq, Repr

structure SecSys where
  lg : Logger
  issued : List Issued
  deriving DecidableEq, Repr

def SecSys.step (s : SecSys) : SecOp → Rs SecSys
  | .add t req =>
    match s.lg.addSection t req with
    | .panic => .panic
    | .ok (lg, h) => .ok ⟨lg, s.issued ++ [⟨h, true, []⟩]⟩
  | .write i obj =>
    match s.issued[i]? with
    | some ⟨h, true, data⟩ =>
      match encodeInto s.lg.files h obj with
      | .panic => .panic
      | .ok (files, h, ok) =>
        .ok ⟨{ s.lg with files := files },
          s.issued.set i ⟨h, true, if ok then data ++ obj.flatten else data⟩⟩
    | _ => .ok s
  | .close i =>
    match s.issued[i]? with
    | some ⟨h, true, data⟩ =>
      match s.lg.flushSection h with
      | .panic => .panic
      | .ok lg => .ok ⟨lg, s.issued.set i ⟨h, false, data⟩⟩
    | _ => .ok s

def SecSys.steps : SecSys → List SecOp → Rs SecSys
  | s, [] => .ok s
  | s, op :: ops =>
    match s.step op with
    | .panic => .panic
    | .ok s => s.steps ops

/-- Requests that can be satisfied. -/
def SecOpOk (page slabSize : Nat) : SecOp → Prop
  | .add _ req => SizeOk page slabSize req
  | _ => True

/-- The states reachable by operations on sections, in a log with these sizes. -/
inductive Reachable (page slabSize : Nat) : SecSys → Prop
  | new {lg} (h : Logger.new slabSize page = .ok lg) : Reachable page slabSize ⟨lg, []⟩
  | step {s s' op} (hs : Reachable page slabSize s) (hop : SecOpOk page slabSize op)
      (h : s.step op = .ok s') : Reachable page slabSize s'

/-- The bytes of the slab reserved for a section. -/
def Handle.last (h : Handle) : Nat := h.off + h.header.sectionSize.toNat

/-- The slab has an open section. -/
def SecSys.hasOpen (s : SecSys) (slab : Nat) : Prop :=
  ∃ e ∈ s.issued, e.isOpen = true ∧ e.h.slab = slab

/-- The slabs that are still mapped: the current one and the ones kept for their open sections. -/
def Logger.mapped (lg : Logger) : List Slab := lg.back ++ [lg.front]

/-- Read `n` sections of a type, one after the other. -/
def readSome (files : List Bytes) (t : EntryType) : Nat → Reader → Rd (List Bytes)
  | 0, _ => .ok []
  | n + 1, r =>
    match readNext files t (readFuel files) r with
    | .err => .err
    | .panic => .panic
    | .diverges => .diverges
    | .ok (none, _) => .err
    | .ok (some d, r) =>
      match readSome files t n r with
      | .ok ds => .ok (d :: ds)
      | .err => .err
      | .panic => .panic
      | .diverges => .diverges

/-- What a reader finds in a section: an open section has no content yet. -/
def Issued.visible (e : Issued) : Bytes := if e.isOpen then [] else e.data

/-- What a reader of type `t` finds in a list of sections. -/
def visibleOf (t : EntryType) (l : List Issued) : List Bytes :=
  (l.filter (·.h.header.entryType == t)).map Issued.visible

/-- The oldest slab still mapped. -/
def Logger.oldestMapped (lg : Logger) : Nat := (lg.mapped.head?.map Slab.suffix).getD 0

/-! ### Reading as a byte stream -/

/-- The empty sections, if any, come last. -/
def EmptyLast : List Bytes → Prop
  | [] => True
  | s :: l => (s = [] → l.flatten = []) ∧ EmptyLast l

/-- No stream of type `t` is dropped by these operations (before the end of the log). -/
def NeverDropped (t : EntryType) : List (Option (EntryType × Nat)) → List LogOp → Prop
  | _, [] => True
  | live, .openStream t' n :: ops => NeverDropped t (live ++ [some (t', n)]) ops
  | live, .log _ _ :: ops => NeverDropped t live ops
  | live, .drop i :: ops =>
    (∀ m, live[i]? ≠ some (some (t, m))) ∧ NeverDropped t (live.set i none) ops

/-- A stream of type `t` is only opened when something was logged on every stream of this type opened before; `idle`
says whether nothing has been logged yet on the last of these. -/
def UsedFirst (t : EntryType) : Bool → List (Option (EntryType × Nat)) → List LogOp → Prop
  | _, _, [] => True
  | idle, live, .openStream t' n :: ops =>
    (t' = t → idle = false) ∧ UsedFirst t (idle || t' == t) (live ++ [some (t', n)]) ops
  | idle, live, .log i obj :: ops => UsedFirst t (idle && (logged t live [.log i obj]).isEmpty) live ops
  | idle, live, .drop i :: ops => UsedFirst t idle (live.set i none) ops

/-- What successive calls of `read` with buffers of the given sizes deliver. -/
def IOReader.reads (files : List Bytes) (t : EntryType) : IOReader → List Nat → Rd (List Bytes)
  | _, [] => .ok []
  | io, n :: ns =>
    match io.read files t n with
    | .err => .err
    | .panic => .panic
    | .diverges => .diverges
    | .ok (d, io) =>
      match IOReader.reads files t io ns with
      | .ok ds => .ok (d :: ds)
      | .err => .err
      | .panic => .panic
      | .diverges => .diverges

end ULog
end Verif
