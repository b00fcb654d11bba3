import Verif.Model.BalanceSim
/-!
What is expected of the simulation of the balancing robot.
-/
namespace Verif
namespace BotSim
open Clock Fp Bot

/-- The time of the physics does not go back, and runs for less than 292 years. -/
def Timed (fs : List Frame) : Prop :=
  fs.Pairwise (fun a b => a.time.ns.toNat ≤ b.time.ns.toNat) ∧ ∀ f ∈ fs, f.time.ns.toNat < 2 ^ 63

/-- The controllers without a runtime: the readings of a frame go through the PIDs, and their difference is the power,
none if one of them is missing. -/
def control (rodPid railPid : PidFp.Task) (time : Nat) (rod rail : Int) :
    Rs (PidFp.Task × PidFp.Task × Option Num) := do
  let (rodPid, a) ← rodPid.process (some (some time, ofInt f32 rod))
  let (railPid, b) ← railPid.process (some (some time, ofInt f32 rail))
  match a, b with
  | .produced a, .produced b => .ok (rodPid, railPid, (a.output.sub f32 b.output).clamp (.fin (-1)) (.fin 1))
  | _, _ => .ok (rodPid, railPid, none)

/-- The force for a power: twice as much, none for none and for one that is not a number. -/
def forceOf : Option Num → Num
  | some (.fin q) => (Num.fin q).mul f32 (.fin 2)
  | _ => .fin 0

/-- The simulation without a runtime. -/
def ideal : PidFp.Task → PidFp.Task → List Frame → Rs (PidFp.Task × PidFp.Task × List Num)
  | a, b, [] => .ok (a, b, [])
  | a, b, f :: fs => do
    let (a, b, p) ← control a b f.time.ns.toNat (analog f.yaw).toNat (ticks f.x).toInt
    let (a, b, l) ← ideal a b fs
    .ok (a, b, forceOf p :: l)

end BotSim
end Verif
