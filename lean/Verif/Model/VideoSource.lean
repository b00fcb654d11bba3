import Verif.Model.Message
/-!
Frames of a gstreamer pipeline: components/sources/cu_gstreamer/src/cu_gstreamer_impl.rs:53-170.  The
pipeline runs in its own threads: a frame arrives between any two calls of the runtime.  The buffer is
behind a lock, each use of it is one action.
-/
namespace Verif
namespace VideoSource
open Clock
variable {F : Type}

/-- `CircularBuffer<N, _>` of the crate circular-buffer: its elements, oldest first. -/
abbrev Ring (F : Type) := List F

/-- `push_back` of circular-buffer: a full buffer loses its oldest element (all, if it has no room). -/
def Ring.pushBack (N : Nat) (r : Ring F) (f : F) : Ring F :=
  if N = 0 then r
  else if r.length < N then r ++ [f]
  else r.drop 1 ++ [f]

/-- The source, and the message of the runtime it fills. -/
structure Source (F : Type) where
  buffer : Ring F
  msg : Msg F

/-- What can happen. -/
inductive Event (F : Type) where
  /-- The callback of the pipeline (cu_gstreamer_impl.rs:111-127). -/
  | frame (f : F)
  /-- `process` at a time (cu_gstreamer_impl.rs:149-160). -/
  | process (now : CuTime)
  /-- `start` (cu_gstreamer_impl.rs:140-147). -/
  | start
  /-- `stop` (cu_gstreamer_impl.rs:162-168). -/
  | stop

/-- `process` (cu_gstreamer_impl.rs:149-160). -/
def Source.process (s : Source F) (now : CuTime) : Source F :=
  match s.buffer with
  | f :: rest => { buffer := rest, msg := ({ s.msg with md := { s.msg.md with tov := .time now } }).setPayload f }
  | [] => { buffer := [], msg := s.msg.clearPayload }

def Source.step (N : Nat) (s : Source F) : Event F → Source F
  | .frame f => { s with buffer := s.buffer.pushBack N f }
  | .process now => s.process now
  | .start => { s with buffer := [] }
  | .stop => { s with buffer := [] }

/-- A history of events; the messages `process` left, one for each call. -/
def run (N : Nat) (s : Source F) : List (Event F) → List (Msg F)
  | [] => []
  | e :: l =>
    let s' := s.step N e
    match e with
    | .process _ => s'.msg :: run N s' l
    | _ => run N s' l

/-- `new` (cu_gstreamer_impl.rs:107, 132-137). -/
def Source.new (msg : Msg F) : Source F := ⟨[], msg⟩

end VideoSource
end Verif
