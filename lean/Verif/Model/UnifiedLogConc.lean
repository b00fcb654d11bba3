import Verif.Spec.UnifiedLog
/-!
Model of a unified log used by several threads (core/cu29_unifiedlog/src/lib.rs:55-134).

The logger is behind a mutex.  A stream is owned by one thread at a time (`log` takes `&mut self`),
so its own operations come one after the other; those of different streams interleave.  A call of
`log` first encodes into the section of the stream, without the lock, and only if there is no room
takes the lock to close the section, get another one and encode again.  These are the two atomic
actions of a call.  The bytes of an encoding are stored one by one, but in memory that belongs to the
section, which no other thread reads or writes (C02).
-/
namespace Verif
namespace ULog

/-- The log and, for each stream, the object of a call of `log` that found no room and has not got
the lock yet. -/
structure ConcSys where
  sys : LogSys
  waiting : Nat → Option (List Bytes)

/-- The actions of the threads: open and drop a stream, under the lock; the part of `log` before
the lock, and the rest of the call. -/
inductive ConcOp where
  | openStream (t : EntryType) (minAlloc : Nat)
  | begin_ (i : Nat) (obj : List Bytes)
  | finish (i : Nat)
  | drop (i : Nat)
  deriving DecidableEq, Repr

/-- `MmapStream::log` up to the lock (lib.rs:90-98): whether there was room. -/
def Stream.try_ (lg : Logger) (st : Stream) (obj : List Bytes) : Rs (Logger × Stream × Bool) :=
  match encodeInto lg.files st.section_ obj with
  | .panic => .panic
  | .ok (files, h, ok) => .ok ({ lg with files := files }, { st with section_ := h }, ok)

/-- `MmapStream::log` from the lock on (lib.rs:100-117). -/
def Stream.retry (lg : Logger) (st : Stream) (obj : List Bytes) : Rs (Logger × Stream) :=
  match lg.flushSection st.section_ with
  | .panic => .panic
  | .ok lg =>
    match lg.addSection st.entryType st.minAlloc with
    | .panic => .panic
    | .ok (lg, h) =>
      match encodeInto lg.files h obj with
      | .ok (files, h, true) => .ok ({ lg with files := files }, { st with section_ := h })
      | _ => .panic

def ConcSys.setWaiting (c : ConcSys) (i : Nat) (o : Option (List Bytes)) : Nat → Option (List Bytes) :=
  fun j => if j = i then o else c.waiting j

/-- One action.  Actions on a stream that does not exist have no effect, as in `LogSys.step`. -/
def ConcSys.step (c : ConcSys) : ConcOp → Rs ConcSys
  | .openStream t n =>
    match c.sys.step (.openStream t n) with
    | .panic => .panic
    | .ok s => .ok ⟨s, c.waiting⟩
  | .drop i =>
    match c.sys.step (.drop i) with
    | .panic => .panic
    | .ok s => .ok ⟨s, c.waiting⟩
  | .begin_ i obj =>
    match c.sys.streams[i]? with
    | some (some st) =>
      match st.try_ c.sys.lg obj with
      | .panic => .panic
      | .ok (lg, st, ok) =>
        .ok ⟨⟨lg, c.sys.streams.set i (some st)⟩, if ok then c.waiting else c.setWaiting i (some obj)⟩
    | _ => .ok c
  | .finish i =>
    match c.waiting i, c.sys.streams[i]? with
    | some obj, some (some st) =>
      match st.retry c.sys.lg obj with
      | .panic => .panic
      | .ok (lg, st) => .ok ⟨⟨lg, c.sys.streams.set i (some st)⟩, c.setWaiting i none⟩
    | _, _ => .ok c

def ConcSys.steps : ConcSys → List ConcOp → Rs ConcSys
  | c, [] => .ok c
  | c, op :: ops =>
    match c.step op with
    | .panic => .panic
    | .ok c => c.steps ops

/-- A log used by several threads until some point. -/
def runConc (slabSize page : Nat) (ops : List ConcOp) : Rs ConcSys :=
  match Logger.new slabSize page with
  | .panic => .panic
  | .ok lg => ConcSys.steps ⟨⟨lg, []⟩, fun _ => none⟩ ops

/-- A whole history: the streams still open at the end are dropped and the logger is closed. -/
def writeConc (slabSize page : Nat) (ops : List ConcOp) : Rs (List Bytes) :=
  match runConc slabSize page ops with
  | .panic => .panic
  | .ok c =>
    match c.sys.steps ((List.range c.sys.streams.length).map .drop) with
    | .panic => .panic
    | .ok s => s.lg.close

end ULog
end Verif
