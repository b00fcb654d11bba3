import Verif.Model.Fp
import Verif.Model.Basic
/-!
The motor driver (components/sinks/cu_rp_sn754410/src/lib.rs) in floating point: the same functions as
`Model/Sn754410`, with the arithmetic of `f32`, powers of any value, and duty cycles in `f64`.
-/
namespace Verif
namespace MotorFp
open Fp

/-- The driver (lib.rs:14-23) with the duty cycles requested from the two outputs and whether they are
enabled. `last_update` is never read. -/
structure Driver where
  current : Num
  deadzone : Num
  dryrun : Bool
  duty0 : Num
  duty1 : Num
  enabled : Bool
  deriving DecidableEq, Repr

/-- `new` (lib.rs:131-163). -/
def Driver.new (deadzone : Num) (dryrun : Bool) : Driver := ⟨.fin 0, deadzone, dryrun, .fin 0, .fin 0, false⟩
/-- `start` (lib.rs:164-167). -/
def Driver.start (d : Driver) : Driver := { d with enabled := true }

/-- `forward`, `reverse` and `stop` (lib.rs:33-63), the requests to the outputs succeeding. -/
def Driver.set (d : Driver) (a b : Num) : Driver := { d with duty0 := a, duty1 := b }

/-- The compensation of the dead zone (lib.rs:179-189). -/
def compensate (deadzone p : Num) : Num :=
  if !p.eq (.fin 0) then
    if (Num.fin 0).lt p then deadzone.add f32 (((Num.fin 1).sub f32 deadzone).mul f32 p)
    else deadzone.neg.add f32 (((Num.fin 1).add f32 deadzone).mul f32 p)
  else p

/-- `process` (lib.rs:168-212) and whether it succeeds. -/
def Driver.process (d : Driver) : Option Num → Driver × Bool
  | some power =>
    if d.dryrun then (d.set (.fin 0) (.fin 0), true)
    else
      let c := compensate d.deadzone power
      if !c.eq d.current then
        let d : Driver := { d with current := c }
        if (Num.fin 0).lt c then (d.set (d.current.convert f64) (.fin 0), true)
        else if d.current.lt (.fin 0) then (d.set (.fin 0) (d.current.neg.convert f64), true)
        else (d.set (.fin 0) (.fin 0), true)
      else (d, true)
  | none => (d.set (.fin 0) (.fin 0), false)

/-- Successive iterations. -/
def Driver.run (d : Driver) : List (Option Num) → Driver
  | [] => d
  | c :: cs => (d.process c).1.run cs

end MotorFp
end Verif
