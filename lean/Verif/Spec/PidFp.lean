import Verif.Model.PidFp
/-!
What is expected of the PID task in single precision.
-/
namespace Verif
namespace PidFp
open Fp

/-- Limits are not negative (and not NaN). -/
structure Cfg.Sound (cfg : Cfg) : Prop where
  p : (Num.fin 0).le cfg.pLimit = true
  i : (Num.fin 0).le cfg.iLimit = true
  d : (Num.fin 0).le cfg.dLimit = true
  output : (Num.fin 0).le cfg.outputLimit = true

/-- A number of magnitude at most about a million. -/
def Small (x : Num) : Prop := ∃ q : Rat, x = .fin q ∧ -1048576 ≤ q ∧ q ≤ 1048576

/-- All parameters are such numbers. -/
structure Cfg.Small (cfg : Cfg) : Prop where
  kp : PidFp.Small cfg.kp
  ki : PidFp.Small cfg.ki
  kd : PidFp.Small cfg.kd
  setpoint : PidFp.Small cfg.setpoint
  pLimit : PidFp.Small cfg.pLimit
  iLimit : PidFp.Small cfg.iLimit
  dLimit : PidFp.Small cfg.dLimit
  outputLimit : PidFp.Small cfg.outputLimit

/-- The histories of a task: measurements that satisfy `ok`, missing messages, messages without a single
time, stops. -/
inductive Reach (cfg : Cfg) (ok : Num → Prop) : Task → Prop
  | new : Reach cfg ok (.new cfg)
  | process {t t' : Task} {x r} (h : Reach cfg ok t) (hx : ∀ tov m, x = some (some tov, m) → ok m)
      (hp : t.process x = .ok (t', r)) : Reach cfg ok t'
  | stop {t : Task} (h : Reach cfg ok t) : Reach cfg ok t.stop

/-- NaN, or a number or infinity within the limit. -/
def Within (x l : Num) : Prop := x = .nan ∨ l.neg.le x = true ∧ x.le l = true

/-- A number within the limit. -/
def WithinNum (x l : Num) : Prop := (∃ q, x = .fin q) ∧ l.neg.le x = true ∧ x.le l = true

/-- The nearest number within a limit. -/
def clampQ (x l : Rat) : Rat := max (-l) (min x l)

/-- The parameters as numbers. -/
structure Gains where
  kp : Rat
  ki : Rat
  kd : Rat
  setpoint : Rat
  pLimit : Rat
  iLimit : Rat
  dLimit : Rat
  outputLimit : Rat

def Cfg.Is (cfg : Cfg) (g : Gains) : Prop :=
  cfg.kp = .fin g.kp ∧ cfg.ki = .fin g.ki ∧ cfg.kd = .fin g.kd ∧ cfg.setpoint = .fin g.setpoint ∧
  cfg.pLimit = .fin g.pLimit ∧ cfg.iLimit = .fin g.iLimit ∧ cfg.dLimit = .fin g.dLimit ∧
  cfg.outputLimit = .fin g.outputLimit

/-- `x` is `y` up to two millionths of the magnitude `a` of what it was computed from (and underflow). -/
def Near (x y a : Rat) : Prop := |x - y| ≤ a / 500000 + 1 / 10 ^ 18

end PidFp
end Verif
