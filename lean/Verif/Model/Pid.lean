import Verif.Model.Basic
/-!
The PID controller and its task: components/tasks/cu_pid/src/lib.rs.  Simplification: numbers are rationals
instead of f32 (no rounding, no overflow to infinity); the one division of the code can give NaN, which is
modelled.
-/
namespace Verif
namespace Pid

/-- The configuration (lib.rs:22-32, 127-137). -/
structure Cfg where
  kp : Rat
  ki : Rat
  kd : Rat
  setpoint : Rat
  pLimit : Rat
  iLimit : Rat
  dLimit : Rat
  outputLimit : Rat
  sampling : Nat
  cutoff : Rat
  deriving DecidableEq, Repr

/-- `PIDControlOutputPayload` (lib.rs:10-19); `none` is NaN. -/
structure Out where
  p : Rat
  i : Rat
  d : Option Rat
  output : Option Rat
  deriving DecidableEq, Repr

/-- The state of `PIDController` (lib.rs:33-37). -/
structure Controller where
  integral : Rat
  lastError : Rat
  elapsed : Nat
  lastOutput : Out
  deriving DecidableEq, Repr

/-- `PIDController::new` (lib.rs:40-68). -/
def Controller.new : Controller := ⟨0, 0, 0, ⟨0, 0, some 0, some 0⟩⟩
/-- `reset` (lib.rs:70-73). -/
def Controller.reset (c : Controller) : Controller := { c with integral := 0, lastError := 0 }
/-- `init_measurement` (lib.rs:75-78). -/
def Controller.init (cfg : Cfg) (c : Controller) (m : Rat) : Controller :=
  { c with lastError := cfg.setpoint - m, elapsed := cfg.sampling }

/-- `f32::clamp(-limit, limit)`: it asserts that the bounds are ordered. -/
def clamp (limit x : Rat) : Rs Rat :=
  if limit < -limit then .panic
  else if x < -limit then .ok (-limit)
  else if limit < x then .ok limit
  else .ok x

/-- The derivative term (lib.rs:104-107): a division by zero gives an infinity of the sign of the
numerator, or NaN for 0/0; zero times an infinity is NaN. -/
def derivative (kd limit diff dt : Rat) : Rs (Option Rat) :=
  if dt = 0 then
    if limit < -limit then .panic
    else if diff = 0 ∨ kd = 0 then .ok none
    else if 0 < diff ↔ 0 < kd then .ok (some limit)
    else .ok (some (-limit))
  else (clamp limit (kd * (diff / dt))).map' some

/-- `next_control_output` (lib.rs:80-122).  Times are u64: an overflow of the elapsed time panics (debug
build). -/
def Controller.next (cfg : Cfg) (c : Controller) (m : Rat) (dt : Nat) : Rs (Controller × Out) :=
  let elapsed := c.elapsed + dt
  if elapsed ≥ 2 ^ 64 then .panic
  else if elapsed < cfg.sampling then .ok ({ c with elapsed := elapsed }, c.lastOutput)
  else do
    let error := cfg.setpoint - m
    let dt : Rat := (elapsed : Rat) / 1000000
    let p ← clamp cfg.pLimit (cfg.kp * error)
    let integral := c.integral + error * dt
    let i ← clamp cfg.iLimit (cfg.ki * integral)
    let d ← derivative cfg.kd cfg.dLimit (error - c.lastError) dt
    match d with
    | none =>
      if cfg.outputLimit < -cfg.outputLimit then .panic
      else
        let out := ⟨p, i, none, none⟩
        .ok (⟨integral, error, 0, out⟩, out)
    | some d => do
      let output ← clamp cfg.outputLimit (p + i + d)
      let out := ⟨p, i, some d, some output⟩
      .ok (⟨integral, error, 0, out⟩, out)

/-- `GenericPIDTask` (lib.rs:125-137). -/
structure Task where
  cfg : Cfg
  pid : Controller
  firstRun : Bool
  lastTov : Nat
  deriving DecidableEq, Repr

/-- `new` (lib.rs:146-207). -/
def Task.new (cfg : Cfg) : Task := ⟨cfg, .new, true, 0⟩

/-- What an iteration does to its output: a payload, none, or an error that leaves it alone. -/
inductive Res
  | produced (o : Out)
  | cleared
  | error
  deriving DecidableEq, Repr

/-- `process` (lib.rs:209-256).  The input is a payload with the time of validity, `none` for one that is not
a single time.  `tov - last_tov` panics on underflow (debug build). -/
def Task.process (t : Task) : Option (Option Nat × Rat) → Rs (Task × Res)
  | none => .ok (t, .cleared)
  | some (none, _) => .ok (t, .error)
  | some (some tov, m) =>
    if t.firstRun then
      .ok ({ t with firstRun := false, lastTov := tov, pid := t.pid.init t.cfg m }, .cleared)
    else if tov < t.lastTov then .panic
    else do
      let (pid, o) ← t.pid.next t.cfg m (tov - t.lastTov)
      let t := { t with lastTov := tov, pid := pid }
      if m > t.cfg.setpoint + t.cfg.cutoff then .ok (t, .error)
      else if m < t.cfg.setpoint - t.cfg.cutoff then .ok (t, .error)
      else .ok (t, .produced o)

/-- `stop` (lib.rs:258-262). -/
def Task.stop (t : Task) : Task := { t with pid := t.pid.reset, firstRun := true }

/-- `freeze` and `thaw` (lib.rs:270-284): the values written, and a task of the same configuration that reads
them. -/
def Task.freeze (t : Task) : Rat × Rat × Nat × Out :=
  (t.pid.integral, t.pid.lastError, t.pid.elapsed, t.pid.lastOutput)
def Task.thaw (t : Task) (s : Rat × Rat × Nat × Out) : Task :=
  { t with pid := ⟨s.1, s.2.1, s.2.2.1, s.2.2.2⟩ }

/-- Successive iterations. -/
def Task.run (t : Task) : List (Option (Option Nat × Rat)) → Rs (Task × List Res)
  | [] => .ok (t, [])
  | x :: xs =>
    match t.process x with
    | .panic => .panic
    | .ok (t1, r) =>
      match t1.run xs with
      | .panic => .panic
      | .ok (t2, rs) => .ok (t2, r :: rs)

end Pid
end Verif
