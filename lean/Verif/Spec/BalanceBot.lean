import Verif.Model.BalanceBot
/-!
What is expected of the balancing robot.
-/
namespace Verif
namespace Bot
open Clock Fp

/-- A clock that does not go back, and runs for less than 292 years. -/
structure Clocked (inp : Inputs) : Prop where
  mono : ∀ i j, i ≤ j → (inp.clock i).ns.toNat ≤ (inp.clock j).ns.toNat
  bound : ∀ i, (inp.clock i).ns.toNat < 2 ^ 63

/-- The robot without the runtime: what the sensors deliver goes through the PIDs, the difference of the outputs to
the motor, nothing if one of them is missing. -/
def drive (rodPid railPid : PidFp.Task) (motor : MotorFp.Driver) (rod : Option (Nat × Nat)) (rail : Nat × Int) :
    Rs (PidFp.Task × PidFp.Task × MotorFp.Driver) := do
  let (rodPid, a) ← rodPid.process (rod.map (fun x => (some x.1, ofInt f32 x.2)))
  let (railPid, b) ← railPid.process (some (some rail.1, ofInt f32 rail.2))
  match a, b with
  | .produced a, .produced b =>
    match (a.output.sub f32 b.output).clamp (.fin (-1)) (.fin 1) with
    | some power => .ok (rodPid, railPid, (motor.process (some power)).1)
    | none => .panic
  | _, _ => .ok (rodPid, railPid, (motor.process none).1)

/-- The motor is not driven. -/
def Stopped (d : MotorFp.Driver) : Prop := d.duty0 = .fin 0 ∧ d.duty1 = .fin 0

end Bot
end Verif
