import Verif.Model.Fp
import Verif.Model.Basic
/-!
The PID controller and its task (components/tasks/cu_pid/src/lib.rs) in single precision: the same functions
as `Model/Pid`, with the arithmetic of `f32`.
-/
namespace Verif
namespace PidFp
open Fp

/-- The configuration (lib.rs:22-32, 127-137). -/
structure Cfg where
  kp : Num
  ki : Num
  kd : Num
  setpoint : Num
  pLimit : Num
  iLimit : Num
  dLimit : Num
  outputLimit : Num
  sampling : Nat
  cutoff : Num
  deriving DecidableEq, Repr

/-- `PIDControlOutputPayload` (lib.rs:10-19). -/
structure Out where
  p : Num
  i : Num
  d : Num
  output : Num
  deriving DecidableEq, Repr

/-- The state of `PIDController` (lib.rs:33-37). -/
structure Controller where
  integral : Num
  lastError : Num
  elapsed : Nat
  lastOutput : Out
  deriving DecidableEq, Repr

/-- `PIDController::new` (lib.rs:40-68). -/
def Controller.new : Controller := ⟨.fin 0, .fin 0, 0, ⟨.fin 0, .fin 0, .fin 0, .fin 0⟩⟩
/-- `reset` (lib.rs:70-73). -/
def Controller.reset (c : Controller) : Controller := { c with integral := .fin 0, lastError := .fin 0 }
/-- `init_measurement` (lib.rs:75-78). -/
def Controller.init (cfg : Cfg) (c : Controller) (m : Num) : Controller :=
  { c with lastError := cfg.setpoint.sub f32 m, elapsed := cfg.sampling }

/-- `x.clamp(-limit, limit)`. -/
def limit (x l : Num) : Rs Num := Rs.ofOption (x.clamp l.neg l)

/-- `next_control_output` (lib.rs:80-122).  Times are u64: an overflow of the elapsed time panics (debug
build). -/
def Controller.next (cfg : Cfg) (c : Controller) (m : Num) (dt : Nat) : Rs (Controller × Out) :=
  let elapsed := c.elapsed + dt
  if elapsed ≥ 2 ^ 64 then .panic
  else if elapsed < cfg.sampling then .ok ({ c with elapsed := elapsed }, c.lastOutput)
  else do
    let error := cfg.setpoint.sub f32 m
    let dt := (ofInt f32 elapsed).div f32 (.fin 1000000)
    let p ← limit (cfg.kp.mul f32 error) cfg.pLimit
    let integral := c.integral.add f32 (error.mul f32 dt)
    let i ← limit (cfg.ki.mul f32 integral) cfg.iLimit
    let derivative := (error.sub f32 c.lastError).div f32 dt
    let d ← limit (cfg.kd.mul f32 derivative) cfg.dLimit
    let output ← limit ((p.add f32 i).add f32 d) cfg.outputLimit
    .ok (⟨integral, error, 0, ⟨p, i, d, output⟩⟩, ⟨p, i, d, output⟩)

/-- `GenericPIDTask` (lib.rs:125-137). -/
structure Task where
  cfg : Cfg
  pid : Controller
  firstRun : Bool
  lastTov : Nat
  deriving DecidableEq, Repr

/-- `new` (lib.rs:146-207), after the parameters have been read. -/
def Task.new (cfg : Cfg) : Task := ⟨cfg, .new, true, 0⟩

/-- What an iteration does to its output: a payload, none, or an error that leaves it alone. -/
inductive Res
  | produced (o : Out)
  | cleared
  | error
  deriving DecidableEq, Repr

/-- `process` (lib.rs:209-256).  The input is a payload with the time of validity, `none` for one that is not
a single time.  `tov - last_tov` panics on underflow (debug build). -/
def Task.process (t : Task) : Option (Option Nat × Num) → Rs (Task × Res)
  | none => .ok (t, .cleared)
  | some (none, _) => .ok (t, .error)
  | some (some tov, m) =>
    if t.firstRun then
      .ok ({ t with firstRun := false, lastTov := tov, pid := t.pid.init t.cfg m }, .cleared)
    else if tov < t.lastTov then .panic
    else do
      let (pid, o) ← t.pid.next t.cfg m (tov - t.lastTov)
      let t := { t with lastTov := tov, pid := pid }
      if (t.cfg.setpoint.add f32 t.cfg.cutoff).lt m then .ok (t, .error)
      else if m.lt (t.cfg.setpoint.sub f32 t.cfg.cutoff) then .ok (t, .error)
      else .ok (t, .produced o)

/-- `stop` (lib.rs:258-262). -/
def Task.stop (t : Task) : Task := { t with pid := t.pid.reset, firstRun := true }

/-- Successive iterations. -/
def Task.run (t : Task) : List (Option (Option Nat × Num)) → Rs (Task × List Res)
  | [] => .ok (t, [])
  | x :: xs =>
    match t.process x with
    | .panic => .panic
    | .ok (t1, r) =>
      match t1.run xs with
      | .panic => .panic
      | .ok (t2, rs) => .ok (t2, r :: rs)

end PidFp
end Verif
