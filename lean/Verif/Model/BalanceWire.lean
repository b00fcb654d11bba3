import Verif.Model.BalanceBot
import Verif.Model.FpBits
import Verif.Model.Wire
/-!
How the messages of the balancing robot are written in its log: the derived codecs of its payloads.
-/
namespace Verif
namespace Bot
open Bincode Fp

/-- `ADSReadingPayload` (components/sources/cu_ads7883/src/lib.rs:39-48): a `u16`.  The codecs are only used on
payloads of their type. -/
def rodCodec : Codec Payload where
  enc p := match p with
    | .rod v => enc v
    | _ => []
  dec := do
    let v ← (dec : Dec UInt16)
    pure (.rod v)

/-- `EncoderPayload` (components/sources/cu_rp_encoder/src/lib.rs:38-41): an `i32`. -/
def railCodec : Codec Payload where
  enc p := match p with
    | .rail v => enc v
    | _ => []
  dec := do
    let v ← (dec : Dec Int32)
    pure (.rail v)

/-- `PIDControlOutputPayload` (components/tasks/cu_pid/src/lib.rs:9-19): four `f32`. -/
def controlCodec : Codec Payload where
  enc p := match p with
    | .control o => Fp.codec.enc o.p ++ (Fp.codec.enc o.i ++ (Fp.codec.enc o.d ++ Fp.codec.enc o.output))
    | _ => []
  dec := do
    let p ← Fp.codec.dec
    let i ← Fp.codec.dec
    let d ← Fp.codec.dec
    let output ← Fp.codec.dec
    pure (.control ⟨p, i, d, output⟩)

/-- `MotorPayload` (components/sinks/cu_rp_sn754410/src/lib.rs:25-28): an `f32`. -/
def motorCodec : Codec Payload where
  enc p := match p with
    | .motor c => Fp.codec.enc c
    | _ => []
  dec := do
    let c ← Fp.codec.dec
    pure (.motor c)

/-- `()`, the payload of the message of the motor, which is never there. -/
def noCodec : Codec Payload := ⟨fun _ => [], pure (.rod 0)⟩

/-- The messages of a list, in the order of the plan (core/cu29_derive/src/lib.rs:1366-1410): balpos, balpos_pid,
railpos, railpos_pid, merge_pids, motor. -/
def slots : List (Codec Payload) := [rodCodec, controlCodec, railCodec, controlCodec, motorCodec, noCodec]

end Bot
end Verif
