import Verif.Model.ExampleApps
import Verif.Model.Pid
import Verif.Model.Sn754410
import Verif.Model.Aligner
import Verif.Model.MspTasks
import Verif.Model.Ads7883
import Verif.Model.DynThreshold
/-!
The tasks with what they write of their state for a snapshot: `Freezable` (core/cu29_runtime/src/cutask.rs:176-192)
and its implementations.  No part of the code calls `freeze` or `thaw`.
-/
namespace Verif
open Bincode Clock Examples
namespace Frozen

/-- A task: a new instance, one call of it, what it writes of its state and how a new instance reads it. -/
structure Task (I O S : Type) where
  new : S
  next : S → I → Rs (S × O)
  freeze : S → Bytes
  thaw : S → Dec S

variable {I O S : Type}

/-- The default `freeze` (cutask.rs:180-184): the value `()`. -/
def nothing (_ : S) : Bytes := enc ()
/-- The default `thaw` (cutask.rs:186-191): nothing is read. -/
def unchanged (s : S) : Dec S := Dec.ret s

/-- `CaterpillarSource` (examples/cu_caterpillar/src/tasks.rs:11-45). -/
def caterSource : Task Unit Bool Bool where
  new := true
  next s _ := match Cater.next 0 (.source s) [] with
    | (.source s', some on) => .ok (s', on)
    | _ => .panic
  freeze s := enc s
  thaw _ := do
    let state : Bool ← dec
    pure state

/-- `CaterpillarTask` (examples/cu_caterpillar/src/tasks.rs:47-71). -/
def caterSegment : Task (Option Bool) (Option Bool) Cater.Task where
  new := .segment
  next s i := match Cater.next 1 s [i] with
    | (.panicked, _) => .panic
    | r => .ok r
  freeze := nothing
  thaw := unchanged

/-- `RPGpio` (components/sinks/cu_rp_gpio/src/lib.rs:59-91): the level the pin gets. -/
def gpio : Task (Msg Bool) Devices.Level Unit where
  new := ()
  next _ m := (Devices.gpioProcess m).map' fun l => ((), l)
  freeze := nothing
  thaw := unchanged

/-- `WT901` (components/sources/cu_wt901/src/lib.rs:212-265). -/
def wt901 : Task (Option (Vector UInt8 Devices.spanSize) × Msg Devices.Reading) (Msg Devices.Reading) Unit where
  new := ()
  next _ i := (Devices.wt901Process i.1 i.2).map' fun m => ((), m)
  freeze := nothing
  thaw := unchanged

/-- `MSPSink` (components/sinks/cu_msp_sink/src/lib.rs:52-113): the bytes it writes. -/
def mspSink : Task (List Msp.Request) (Bytes × Option Msp.Err) Unit where
  new := ()
  next _ rs := .ok ((), Msp.sinkProcess rs)
  freeze := nothing
  thaw := unchanged

/-- `MergerTask` of the example with two sources (examples/cu_multisources/src/tasks.rs:74-97). -/
def merger (o : Overflow) : Task (List (Option Multi.Payload)) (Option Multi.Payload) Multi.Task where
  new := .merger
  next s i := match Multi.next o 2 s i with
    | (.panicked, _) => .panic
    | r => .ok r
  freeze := nothing
  thaw := unchanged

/-- `DynThreshold` (components/tasks/cu_dynthreshold/src/cu_dynthreshold_impl.rs:107-206). -/
def threshold (t : Threshold.Task) : Task (List UInt8 × List UInt8) (Option (List UInt8)) Threshold.Task where
  new := t
  next s i := s.process i.1 i.2
  freeze := nothing
  thaw := unchanged

/-- `IntegerSrcTask` (examples/cu_multisources/src/tasks.rs:4-21). -/
def intSource (o : Overflow) : Task Unit (Option Multi.Payload) Multi.Task where
  new := Multi.init 0
  next s _ := match Multi.next o 0 s [] with
    | (.panicked, _) => .panic
    | r => .ok r
  freeze := nothing
  thaw := unchanged

/-- `FloatSrcTask` (examples/cu_multisources/src/tasks.rs:24-42). -/
def floatSource (o : Overflow) : Task Unit (Option Multi.Payload) Multi.Task where
  new := Multi.init 1
  next s _ := match Multi.next o 1 s [] with
    | (.panicked, _) => .panic
    | r => .ok r
  freeze := nothing
  thaw := unchanged

/-- What happens to an encoder: an interrupt, or a call of `process` with the message of the list. -/
inductive EncoderCall where
  | edge (high : Bool) (now : CuTime)
  | process (now : CuTime) (out : Msg Int32)

/-- `Encoder` (components/sources/cu_rp_encoder/src/lib.rs:51-122). -/
def encoder (o : Overflow) : Task EncoderCall (Option (Msg Int32)) Devices.Encoder where
  new := .new
  next s
    | .edge high now => .ok (s.edge o high now, none)
    | .process now out => (s.process now out).map' fun m => (s, some m)
  freeze := nothing
  thaw := unchanged

/-- What happens to a converter: `start` or `process`, with the reading of the device. -/
inductive AdcCall where
  | start (r : Option UInt16)
  | process (r : Option UInt16)

/-- `ADS7883` (components/sources/cu_ads7883/src/lib.rs:63-166). -/
def adc : Task AdcCall (Option UInt16) Nat where
  new := 0
  next i
    | .start r => .ok (Adc.start r, none)
    | .process r => .ok (Adc.process i r)
  freeze := nothing
  thaw := unchanged

/-- A task generated by `define_task` (components/tasks/cu_aligner/src/lib.rs:10-85). -/
def aligner {V : Type} (o : Overflow) (window horizon : CuDuration) (sizes : List (Nat × Nat)) :
    Task (Aligner.Iter V) (Option (List (List V))) (Aligner.Task V) where
  new := .new window horizon sizes
  next s i := s.iterate o i
  freeze := nothing
  thaw := unchanged

/-- `MSPSrc` (components/sources/cu_msp_src/src/lib.rs:57-142). -/
def mspSource (table : UInt16 → Msp.Kind) : Task (Option Bytes) (Option (List Msp.Response)) Msp.Parser where
  new := .new
  next s i := Msp.srcProcess table s i
  freeze := nothing
  thaw := unchanged

/-- `GenericPIDTask` (components/tasks/cu_pid/src/lib.rs:125-284), for any encoding of its numbers. -/
def pid [Codec Rat] [Codec Nat] (cfg : Pid.Cfg) : Task (Option (Option Nat × Rat)) Pid.Res Pid.Task where
  new := .new cfg
  next s i := s.process i
  freeze s :=
    let (integral, lastError, elapsed, out) := s.freeze
    enc integral ++ enc lastError ++ enc elapsed ++ (enc out.p ++ enc out.i ++ enc out.d ++ enc out.output)
  thaw s := do
    let integral : Rat ← dec
    let lastError : Rat ← dec
    let elapsed : Nat ← dec
    let p : Rat ← dec
    let i : Rat ← dec
    let d : Option Rat ← dec
    let output : Option Rat ← dec
    pure (s.thaw (integral, lastError, elapsed, ⟨p, i, d, output⟩))

/-- What happens to a motor: `start` or `process`. -/
inductive MotorCall where
  | start
  | process (hw : Motor.Hw) (power : Option Rat)

/-- `SN754410` (components/sinks/cu_rp_sn754410/src/lib.rs:65-212), for any encoding of its power; its output is what
the two pins are asked for and whether the call succeeded. -/
def motor [Codec Rat] (deadzone : Rat) (dryrun : Bool) : Task MotorCall (Rat × Rat × Bool) Motor.Driver where
  new := .new deadzone dryrun
  next s
    | .start => .ok (s.start, s.duty0, s.duty1, true)
    | .process hw power =>
      let (s', ok) := s.process hw power
      .ok (s', s'.duty0, s'.duty1, ok)
  freeze s := enc s.freeze
  thaw s := do
    let current : Rat ← dec
    pure (s.thaw current)

end Frozen
end Verif
