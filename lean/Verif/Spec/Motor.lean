import Verif.Model.Sn754410
/-! What a motor driver should do with a command. -/
namespace Verif
namespace Motor

/-- The outputs turn the motor as the sign of the command says, one output at most being active. -/
def Turns (d : Driver) (power : Rat) : Prop :=
  (power = 0 → d.duty0 = 0 ∧ d.duty1 = 0) ∧
  (0 < power → 0 < d.duty0 ∧ d.duty1 = 0) ∧
  (power < 0 → d.duty0 = 0 ∧ 0 < d.duty1)

/-- A history of commands without gaps and without errors of the outputs. -/
def commands (cs : List Rat) : List (Hw × Option Rat) := cs.map fun c => (⟨true, true⟩, some c)

end Motor
end Verif
