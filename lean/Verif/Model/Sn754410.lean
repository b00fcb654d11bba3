import Verif.Model.Basic
/-!
The motor driver: components/sinks/cu_rp_sn754410/src/lib.rs.  Simplification: powers are rationals instead of
f32 (no rounding, no NaN).
-/
namespace Verif
namespace Motor

/-- The driver (lib.rs:14-23) with the duty cycles requested from the two outputs and whether they are
enabled. `last_update` is never read. -/
structure Driver where
  current : Rat
  deadzone : Rat
  dryrun : Bool
  duty0 : Rat
  duty1 : Rat
  enabled : Bool
  deriving DecidableEq, Repr

/-- `new` (lib.rs:131-163). -/
def Driver.new (deadzone : Rat) (dryrun : Bool) : Driver := ⟨0, deadzone, dryrun, 0, 0, false⟩
/-- `start` (lib.rs:164-167). -/
def Driver.start (d : Driver) : Driver := { d with enabled := true }

/-- Whether the requests to the two outputs succeed. -/
structure Hw where
  ok0 : Bool
  ok1 : Bool
  deriving DecidableEq, Repr

/-- `forward`, `reverse` and `stop` (lib.rs:33-63): the first output, then the second; `false` is an error. -/
def Driver.set (d : Driver) (hw : Hw) (a b : Rat) : Driver × Bool :=
  if !hw.ok0 then (d, false)
  else if !hw.ok1 then ({ d with duty0 := a }, false)
  else ({ d with duty0 := a, duty1 := b }, true)

/-- The compensation of the dead zone (lib.rs:179-189). -/
def compensate (deadzone p : Rat) : Rat :=
  if p ≠ 0 then
    if 0 < p then deadzone + (1 - deadzone) * p else -deadzone + (1 + deadzone) * p
  else p

/-- `process` (lib.rs:168-212). -/
def Driver.process (d : Driver) (hw : Hw) : Option Rat → Driver × Bool
  | some power =>
    if d.dryrun then d.set hw 0 0
    else
      let c := compensate d.deadzone power
      if c ≠ d.current then
        let d : Driver := { d with current := c }
        if 0 < c then d.set hw d.current 0
        else if d.current < 0 then d.set hw 0 (-d.current)
        else d.set hw 0 0
      else (d, true)
  | none => ((d.set hw 0 0).1, false)

/-- `freeze` and `thaw` (lib.rs:120-129): a driver made like this one takes over the power. -/
def Driver.freeze (d : Driver) : Rat := d.current
def Driver.thaw (d : Driver) (c : Rat) : Driver := { d with current := c }

/-- Successive iterations; what the last one returned. -/
def Driver.run (d : Driver) : List (Hw × Option Rat) → Driver
  | [] => d
  | (hw, c) :: cs => (d.process hw c).1.run cs

end Motor
end Verif
