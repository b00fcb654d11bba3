import Verif.Spec.DemoApp
import Verif.Spec.EndToEnd
/-! The demo application with a unified log: the state is the clock and what was done with the log.
The tasks write a text log line each time they run; stream 0 is the text log, stream 1 the copper
lists. -/
namespace Verif
namespace Runtime
open Clock CopperList Planner Bincode

def line (s : Nat × List ULog.LogOp) : Nat × List ULog.LogOp := (s.1, s.2 ++ [.log 0 [[1, 2], [3]]])

/-- The payload of the source is a `u64`, the one of the regular task a `u16`, the sink has the unit
type: three codecs on one type. -/
def demoSlots : List (Codec Nat) :=
  [⟨fun n => enc (UInt64.ofNat n), do let x ← (dec : Dec UInt64); pure x.toNat⟩,
   ⟨fun n => enc (UInt16.ofNat n), do let x ← (dec : Dec UInt16); pure x.toNat⟩,
   ⟨fun _ => [], pure 0⟩]

def demoPieces (cl : CL (List (Msg Nat))) : List Bytes := [(Wire.clCodec demoSlots).enc cl]

def demoLoggedEnv : Env (Nat × List ULog.LogOp) Nat where
  now s := ((s.1 + 1, s.2), ⟨UInt64.ofNat (min s.1 18446744073709551614)⟩)
  life _ _ s := (s, none)
  source tid out s := (line s, out.setPayload (100 * tid + s.1), none)
  regular tid ins out s :=
    (line s, out.setPayload (1000 * tid + (ins.map (fun m => m.payload.getD 0)).sum), none)
  sink _ _ s := (line s, none)
  onError _ _ _ s := (line s, .ignore)
  monCL _ s := (s, none)
  monStart s := (s, none)
  monStop s := (s, none)
  log := some (fun s cl => .ok (s.1, s.2 ++ [.log 1 (demoPieces cl)]))
  sim := none

def demoLogged : App (Nat × List ULog.LogOp) Nat := ⟨3, demoPlan, demoLoggedEnv, .checked⟩

def demoLoggedStart : Rt (Nat × List ULog.LogOp) Nat :=
  ⟨⟨(5, [.openStream .structuredLogLine 32, .openStream .copperList 64]), []⟩,
    Manager.new 2 [Msg.new none, Msg.new none, Msg.new none]⟩

end Runtime
end Verif
