import Verif.Model.Message
/-!
The aligner: components/tasks/cu_aligner/src/buffers.rs and lib.rs.  Simplification: the streams of a task
share one payload type `V`; a task is the list of its streams.  circular_buffer: `push_back` drops the oldest
element of a full buffer.
-/
namespace Verif
open Clock
namespace Aligner

variable {V : Type}

/-- One stream: the buffer `TimeboundCircularBuffer` (buffers.rs:7-12) of `cap` messages and the size `out` of
its array in the output (lib.rs:8, 26-28). -/
structure Stream (V : Type) where
  cap : Nat
  out : Nat
  buf : List (Msg V)
  deriving DecidableEq

/-- `extract_tov_time_right` (buffers.rs:23-29). -/
def right : Tov → Option CuTime
  | .time t => some t
  | .range r => some r.stop
  | .none => none

/-- `push` (buffers.rs:100-102). -/
def Stream.push (s : Stream V) (m : Msg V) : Stream V :=
  { s with buf := (s.buf ++ [m]).drop (s.buf.length + 1 - s.cap) }

/-- The predicate of `iter_window` (buffers.rs:58-62). -/
def inWindow (a b : CuTime) : Tov → Bool
  | .time t => a.ns ≤ t.ns && t.ns ≤ b.ns
  | .range r => a.ns ≤ r.start.ns && r.stop.ns ≤ b.ns
  | .none => false

/-- `iter_window` (buffers.rs:53-63). -/
def Stream.iterWindow (s : Stream V) (a b : CuTime) : List (Msg V) := s.buf.filter fun m => inWindow a b m.md.tov

/-- The predicate of `purge` (buffers.rs:71-75). -/
def recent (h : CuTime) : Tov → Bool
  | .time t => h.ns ≤ t.ns
  | .range r => h.ns ≤ r.stop.ns
  | .none => false

/-- `purge` (buffers.rs:66-80): everything before the first recent message goes. -/
def Stream.purge (s : Stream V) (h : CuTime) : Stream V :=
  { s with buf := s.buf.drop ((s.buf.findIdx? fun m => recent h m.md.tov).getD s.buf.length) }

/-- `acc.map_or(time, |current_max| current_max.max(time))` (buffers.rs:91-93). -/
def newer : Option CuTime → CuTime → CuTime
  | none, t => t
  | some c, t => c.max t

/-- The fold of `most_recent_time` (buffers.rs:87-94); `none` is the error. -/
def foldRecent : Option CuTime → List (Msg V) → Option (Option CuTime)
  | acc, [] => some acc
  | acc, m :: ms =>
    match right m.md.tov with
    | none => none
    | some t =>
      foldRecent (some (newer acc t)) ms

/-- `most_recent_time` (buffers.rs:83-95). -/
def Stream.mostRecent (s : Stream V) : Option (Option CuTime) := foldRecent none s.buf

/-- The task: `AlignmentBuffers` (buffers.rs:108-112). -/
structure Task (V : Type) where
  window : CuDuration
  horizon : CuDuration
  streams : List (Stream V)
  deriving DecidableEq

/-- `new` (buffers.rs:115-121): `sizes` are the capacities of the buffers and of the output arrays. -/
def Task.new (window horizon : CuDuration) (sizes : List (Nat × Nat)) : Task V :=
  ⟨window, horizon, sizes.map fun z => ⟨z.1, z.2, []⟩⟩

/-- `preprocess` (lib.rs:47-50) and `purge` of the buffers (buffers.rs:125-129). -/
def Task.preprocess (o : Overflow) (t : Task V) (now : CuTime) : Rs (Task V) := do
  let h ← Rs.ofOption (now.sub o t.horizon)
  .ok { t with streams := t.streams.map fun s => s.purge h }

/-- The end of the window (buffers.rs:137-142): an error of a buffer counts as no time. -/
def Task.latest (t : Task V) : Option CuTime :=
  minTime (t.streams.filterMap fun s => s.mostRecent.getD none)

/-- `*msg.payload().unwrap()` of the messages (lib.rs:78). -/
def payloads : List (Msg V) → Rs (List V)
  | [] => .ok []
  | m :: ms => do
    let p ← Rs.ofOption m.payload
    let ps ← payloads ms
    .ok (p :: ps)

/-- The arrays of all the streams (lib.rs:77-79); `fill_from_iter` takes the first `out` messages
(payload.rs:20-28). -/
def fill (a b : CuTime) : List (Stream V) → Rs (List (List V))
  | [] => .ok []
  | s :: ss => do
    let p ← payloads ((s.iterWindow a b).take s.out)
    let ps ← fill a b ss
    .ok (p :: ps)

/-- `process` (lib.rs:52-81) with one message per stream.  The output is the payload found in the output
message and left there. -/
def Task.process (o : Overflow) (t : Task V) (input : List (Msg V)) (output : Option (List (List V))) :
    Rs (Task V × Option (List (List V))) :=
  let t : Task V := { t with streams := t.streams.zipWith Stream.push input }
  match t.latest with
  | none => .ok (t, output)
  | some e => do
    let b ← Rs.ofOption (e.sub o t.window)
    let _ ← Rs.ofOption output
    let out ← fill b e t.streams
    .ok (t, some out)

/-- One iteration: the time, the messages and the payload of the output message before it. -/
structure Iter (V : Type) where
  now : CuTime
  input : List (Msg V)
  output : Option (List (List V))

/-- An iteration of the loop. -/
def Task.iterate (o : Overflow) (t : Task V) (i : Iter V) : Rs (Task V × Option (List (List V))) := do
  let t ← t.preprocess o i.now
  t.process o i.input i.output

/-- Successive iterations. -/
def Task.run (o : Overflow) (t : Task V) : List (Iter V) → Rs (Task V × List (Option (List (List V))))
  | [] => .ok (t, [])
  | i :: is => do
    let (t, x) ← t.iterate o i
    let (t, xs) ← t.run o is
    .ok (t, x :: xs)

end Aligner
end Verif
