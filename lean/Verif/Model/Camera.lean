import Verif.Model.Message
/-!
The camera source: components/sources/cu_v4l/src/lib.rs and v4lstream.rs, with the part of the kernel it
talks to.  Buffers are the numbers of the buffers of its pool; `D` is what a buffer holds.
-/
namespace Verif
namespace Camera
open Clock

/-- A buffer of the pool. -/
abbrev Buf := Nat

/-- A frame of the camera: what it writes, `bytesused`, and its time on the monotonic clock (ns). -/
structure Frame (D : Type) where
  data : D
  used : UInt32
  time : Nat
  deriving DecidableEq, Repr

/-- The source, its pool, the kernel and the other holders of its buffers. -/
structure Cam (D : Type) where
  /-- the free buffers of the pool, last freed first (pool.rs, `Model/Pool`) -/
  free : List Buf
  /-- `arena` (v4lstream.rs:19); the metadata are given with the frame -/
  arena : List (Option Buf)
  /-- `arena_last_freed_up_index` -/
  last : Nat
  active : Bool
  /-- `v4l_clock_time_offset_ns` (lib.rs:58) -/
  offset : Int
  /-- kernel: the buffers queued, in order, with their indices -/
  queued : List (Nat × Buf)
  /-- kernel: the buffers filled and not yet dequeued, in order -/
  done : List (Nat × Buf × Frame D)
  /-- memory of the buffers -/
  mem : Buf → D
  /-- the image in the message of the source -/
  msg : Option Buf
  /-- images kept by other tasks, which cloned them -/
  kept : List Buf

/-- `new` (lib.rs:71-218, v4lstream.rs:54-74) with `n` buffers requested: a pool of one more. -/
def Cam.new {D : Type} (n : Nat) (d : D) : Cam D :=
  { free := List.range (n + 1), arena := List.replicate n none, last := 0, active := false, offset := 0,
    queued := [], done := [], mem := fun _ => d, msg := none, kept := [] }

variable {D : Type}

/-- Somebody has a handle on this buffer. -/
def Cam.held (s : Cam D) (b : Buf) : Bool := s.arena.contains (some b) || s.msg == some b || s.kept.contains b

/-- A handle was dropped: the buffer goes back to the pool with the last one. -/
def Cam.reclaim (s : Cam D) : Option Buf → Cam D
  | none => s
  | some b => if s.held b then s else { s with free := b :: s.free }

/-- The indices the kernel has. -/
def Cam.taken (s : Cam D) : List Nat := s.queued.map Prod.fst ++ s.done.map Prod.fst

/-- `queue` (v4lstream.rs:215-238): whether it succeeds.  No free buffer, or an index outside the arena,
is a panic; `VIDIOC_QBUF` refuses an index that it did not grant or that it has already. -/
def Cam.queue (granted : Nat) (s : Cam D) (index : Nat) : Rs (Cam D × Bool) :=
  match s.free, s.arena[index]? with
  | b :: free, some old =>
    let s := ({ s with free := free, arena := s.arena.set index (some b) } : Cam D).reclaim old
    if index < granted ∧ index ∉ s.taken then .ok ({ s with queued := s.queued ++ [(index, b)] }, true)
    else .ok (s, false)
  | _, _ => .panic

/-- The loop of `start` (v4lstream.rs:181-183). -/
def Cam.queueAll (granted : Nat) (s : Cam D) : List Nat → Rs (Cam D × Bool)
  | [] => .ok (s, true)
  | i :: l =>
    match s.queue granted i with
    | .panic => .panic
    | .ok (s, false) => .ok (s, false)
    | .ok (s, true) => s.queueAll granted l

/-- `start` (lib.rs:220-232, v4lstream.rs:178-197), at these times of the two clocks (ns). -/
def Cam.start (granted : Nat) (s : Cam D) (monotonic robot : Nat) : Rs (Cam D × Bool) :=
  match ({ s with offset := monotonic - robot } : Cam D).queueAll granted (List.range' 1 (s.arena.length - 1)) with
  | .panic => .panic
  | .ok (s, false) => .ok (s, false)
  | .ok (s, true) => .ok ({ s with last := 0, active := true }, true)

/-- `stop` (lib.rs:250-254, v4lstream.rs:199-211): the kernel gives all buffers back. -/
def Cam.stop (s : Cam D) : Cam D := { s with queued := [], done := [], active := false }

/-- The memory after a write. -/
def write (mem : Buf → D) (b : Buf) (d : D) : Buf → D := fun x => if x = b then d else mem x

/-- The kernel has a frame of the camera: it goes to the first buffer queued, or is lost. -/
def Cam.capture (s : Cam D) (f : Frame D) : Cam D :=
  if s.active then
    match s.queued with
    | [] => s
    | (i, b) :: rest => { s with queued := rest, done := s.done ++ [(i, b, f)], mem := write s.mem b f.data }
  else s

/-- The camera is writing to a queued buffer. -/
def Cam.scribble (s : Cam D) (k : Nat) (d : D) : Cam D :=
  match s.queued[k]? with
  | some (_, b) => { s with mem := write s.mem b d }
  | none => s

/-- What is observed of a call. -/
inductive Out (D : Type) where
  | quiet
  /-- the call is an error -/
  | failed
  /-- `process` succeeds, and the message is left alone -/
  | empty
  /-- `process` sent an image, of this content, with this time -/
  | image (d : D) (tov : UInt64)
  deriving DecidableEq, Repr

/-- `cutime_from_v4ltime` (lib.rs:63-66).  Simplification: the times are such that i64 does not overflow. -/
def toRobot (offset : Int) (time : Nat) : UInt64 := UInt64.ofInt (time + offset)

/-- `process` (lib.rs:234-248) with `next` and `dequeue` (v4lstream.rs:240-290); `arrivals` are the frames
captured while it waits.  No frame before the timeout is an error. -/
def Cam.process (granted : Nat) (s : Cam D) (arrivals : List (Frame D)) : Rs (Cam D × Out D) :=
  if s.active = false then .ok (s, .failed)
  else
    match s.queue granted s.last with
    | .panic => .panic
    | .ok (s, false) => .ok (s, .failed)
    | .ok (s, true) =>
      let s := arrivals.foldl Cam.capture s
      match s.done with
      | [] => .ok (s, .failed)
      | (i, _, f) :: done =>
        match s.arena[i]? with
        | some (some b) =>
          let s := { s with done := done, last := i }
          if f.used ≠ 0 then
            .ok (({ s with msg := some b } : Cam D).reclaim s.msg, .image (s.mem b) (toRobot s.offset f.time))
          else .ok (s, .empty)
        | _ => .panic

/-- What can happen. -/
inductive Event (D : Type) where
  | start (monotonic robot : Nat)
  | stop
  | process (arrivals : List (Frame D))
  | capture (f : Frame D)
  | scribble (k : Nat) (d : D)
  /-- the runtime clears the message of the source -/
  | clear
  /-- a task keeps the image of the message -/
  | keep
  /-- a task drops an image it kept -/
  | drop (k : Nat)
  deriving DecidableEq, Repr

def Cam.step (granted : Nat) (s : Cam D) : Event D → Rs (Cam D × Out D)
  | .start m r =>
    match s.start granted m r with
    | .panic => .panic
    | .ok (s, ok) => .ok (s, if ok then .quiet else .failed)
  | .stop => .ok (s.stop, .quiet)
  | .process arrivals => s.process granted arrivals
  | .capture f => .ok (s.capture f, .quiet)
  | .scribble k d => .ok (s.scribble k d, .quiet)
  | .clear => .ok (({ s with msg := none } : Cam D).reclaim s.msg, .quiet)
  | .keep =>
    match s.msg with
    | some b => .ok ({ s with kept := b :: s.kept }, .quiet)
    | none => .ok (s, .quiet)
  | .drop k => .ok (({ s with kept := s.kept.eraseIdx k } : Cam D).reclaim s.kept[k]?, .quiet)

/-- Any history; what each call gave. -/
def Cam.run (granted : Nat) : Cam D → List (Event D) → Rs (Cam D × List (Out D))
  | s, [] => .ok (s, [])
  | s, e :: es =>
    match s.step granted e with
    | .panic => .panic
    | .ok (s, o) =>
      match s.run granted es with
      | .panic => .panic
      | .ok (s, os) => .ok (s, o :: os)

/-! ### The choice of the format -/

/-- A frame size of the device: `FrameSizeEnum`. -/
inductive Size where
  | discrete (width height : Nat)
  | stepwise
  deriving DecidableEq, Repr

/-- The loop over the sizes (lib.rs:137-147): `todo!()` for the others. -/
def findSize (w h : Nat) : List Size → Rs (Nat × Nat)
  | [] => .ok (0, 0)
  | .stepwise :: _ => .panic
  | .discrete a b :: l => if a = w ∧ b = h then .ok (a, b) else findSize w h l

/-- The size asked of the device (lib.rs:135-155). -/
def chooseSize (req : Option Nat × Option Nat) (sizes : List Size) : Rs (Nat × Nat) :=
  match req with
  | (some w, some h) => findSize w h sizes
  | _ =>
    match sizes with
    | .discrete w h :: _ => .ok (w, h)
    | _ => .panic

/-- The pixel format (lib.rs:115-130, 174-180); `none` is an error. -/
def chooseFourcc (req : Option (List UInt8)) (formats : List (List UInt8)) : Option (List UInt8) :=
  match formats with
  | [] => none
  | first :: _ =>
    match req with
    | none => some first
    | some c => if c.length ≠ 4 then none else if formats.contains c then some c else none

/-! ### Opening the stream and dropping it -/

/-- What the device answers to the requests of the source beside those for buffers: error codes, or nothing. -/
structure Answers where
  /-- `VIDIOC_G_FMT` -/
  format : Option Nat
  /-- `VIDIOC_REQBUFS`: the number of buffers granted -/
  request : Except Nat Nat
  /-- `VIDIOC_STREAMOFF` -/
  off : Option Nat

/-- `drop` (v4lstream.rs:157-173): a stream is stopped, and errors other than ENODEV are a panic. -/
def dropStream (dev : Answers) : Rs Unit :=
  match dev.off with
  | none => .ok ()
  | some code => if code = 19 then .ok () else .panic

/-- `with_buffers` (v4lstream.rs:54-74) with `allocate_request_buffers` (111-138), once the stream is made: how many
buffers were granted, which nobody looks at.  On an error, `none`, the stream is dropped. -/
def withBuffers (dev : Answers) : Rs (Option Nat) :=
  match dev.format, dev.request with
  | none, .ok granted => .ok (some granted)
  | _, _ =>
    match dropStream dev with
    | .ok _ => .ok none
    | .panic => .panic

/-- The end of `new` (lib.rs:186-217) with `set_timeout` (v4lstream.rs:83-85), whose `unwrap` panics: what was granted and
how long a frame is waited for (ms). -/
def openStream (dev : Answers) (timeoutMs : Nat) : Rs (Option (Nat × Nat)) :=
  match withBuffers dev with
  | .panic => .panic
  | .ok none => .ok none
  | .ok (some granted) => if timeoutMs ≤ 2147483647 then .ok (some (granted, timeoutMs)) else .panic

end Camera
end Verif
