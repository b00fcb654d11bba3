import Verif.Model.Params
import Verif.Model.Message
/-!
The pair of tasks that carry messages from one robot process to others over a service of the external crate
`iceoryx2`: components/sinks/cu_iceoryx2_sink/src/lib.rs and components/sources/cu_iceoryx2_src/src/lib.rs.
One sink, any number of sources.
-/
namespace Verif
namespace Bridge
open Clock

variable {P : Type}

/-- `new` of both tasks (cu_iceoryx2_sink/src/lib.rs:30-61, cu_iceoryx2_src/src/lib.rs:26-62): the name of the
service, or an error, `none`; `valid` is whether `iceoryx2` accepts the name. -/
def serviceName (valid : String → Bool) (c : Option Params.ComponentConfig) : Rs (Option String) :=
  match c with
  | none => .ok none
  | some c =>
    match Params.ComponentConfig.get c Params.asString "service" with
    | .panic => .panic
    | .ok none => .ok none
    | .ok (some s) => .ok (if valid s then some s else none)

/-- A source: whether it has a subscriber, and the messages waiting in the buffer of the subscriber. -/
structure Src (P : Type) where
  on : Bool
  queue : List (Msg P)
  deriving DecidableEq, Repr

/-- The sink and the sources. -/
structure Net (P : Type) where
  /-- the sink has a publisher -/
  on : Bool
  srcs : Nat → Src P

/-- After `new`: no publisher, no subscribers. -/
def Net.new : Net P := ⟨false, fun _ => ⟨false, []⟩⟩

/-- A sample reaches a subscriber with a buffer of `cap`: when it is full the oldest is dropped (the default
of `iceoryx2`, safe overflow). -/
def Src.deliver (cap : Nat) (s : Src P) (m : Msg P) : Src P :=
  if s.on then { s with queue := (s.queue ++ [m]).drop ((s.queue ++ [m]).length - cap) } else s

/-- What is observed of a call. -/
inductive Out (P : Type) where
  /-- `Ok(())` -/
  | done
  /-- `Err(_)` -/
  | failed
  /-- `process` of a source is `Ok(())`, the output message is then this one -/
  | message (m : Msg P)
  deriving DecidableEq, Repr

/-- `process` of a source (cu_iceoryx2_src/src/lib.rs:98-137); `out` is the output message before. -/
def Src.process (s : Src P) (out : Msg P) : Src P × Out P :=
  if s.on = false then (s, .failed)
  else
    match s.queue with
    | [] => (s, .message out)
    | m :: rest =>
      let s := { s with queue := rest }
      match m.payload with
      | none => (s, .failed)
      | some p => (s, .message { out.setPayload p with md := { out.md with tov := m.md.tov } })

/-- The calls of the runtimes. -/
inductive Event (P : Type) where
  | sinkStart
  | sinkStop
  | sinkProcess (m : Msg P)
  | srcStart (i : Nat)
  | srcStop (i : Nat)
  | srcProcess (i : Nat) (out : Msg P)
  deriving DecidableEq, Repr

/-- The sources with source `i` changed. -/
def setSrc (f : Nat → Src P) (i : Nat) (s : Src P) : Nat → Src P := fun j => if j = i then s else f j

/-- `start`, `process` and `stop` of the sink (cu_iceoryx2_sink/src/lib.rs:63-130) and of a source
(cu_iceoryx2_src/src/lib.rs:64-148).  A `start` gives a new subscriber; a subscriber has what was sent since
its creation. -/
def Net.step (cap : Nat) (n : Net P) : Event P → Net P × Out P
  | .sinkStart => ({ n with on := true }, .done)
  | .sinkStop => ({ n with on := false }, .done)
  | .sinkProcess m =>
    if n.on = false then (n, .failed)
    else ({ n with srcs := fun i => (n.srcs i).deliver cap m }, .done)
  | .srcStart i => ({ n with srcs := setSrc n.srcs i ⟨true, []⟩ }, .done)
  | .srcStop i => ({ n with srcs := setSrc n.srcs i ⟨false, []⟩ }, .done)
  | .srcProcess i out =>
    let (s, o) := (n.srcs i).process out
    ({ n with srcs := setSrc n.srcs i s }, o)

def Net.run (cap : Nat) : Net P → List (Event P) → Net P × List (Out P)
  | n, [] => (n, [])
  | n, e :: es =>
    let (n, o) := n.step cap e
    let (n, os) := n.run cap es
    (n, o :: os)

end Bridge
end Verif
