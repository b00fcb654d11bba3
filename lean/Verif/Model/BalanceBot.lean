import Verif.Model.FreshList
import Verif.Model.ConsoleMon
import Verif.Model.PidFp
import Verif.Model.MotorFp
import Verif.Model.Ads7883
/-!
The balancing robot (examples/cu_rp_balancebot: copperconfig.ron, src/main.rs, src/tasks.rs) on its hardware: an
application of the generated runtime (`Model/Runtime`) with the sources, the PID tasks, the merger and the motor.
-/
namespace Verif
namespace Bot
open Clock CopperList Planner Verif.Runtime Fp

/-- The payloads of the messages.  In the code every message has a type of its own. -/
inductive Payload where
  | rod (v : UInt16)
  | rail (ticks : Int32)
  | control (o : PidFp.Out)
  | motor (power : Num)
  deriving DecidableEq, Repr

/-- The tasks and connections (copperconfig.ron:2-63): balpos, railpos, balpos_pid, railpos_pid, merge_pids, motor. -/
def graph : Graph :=
  ⟨6, [⟨0, 2, "cu_ads7883_new::ADSReadingPayload"⟩, ⟨1, 3, "cu_rp_encoder::EncoderPayload"⟩,
       ⟨2, 4, "cu_pid::PIDControlOutputPayload"⟩, ⟨3, 4, "cu_pid::PIDControlOutputPayload"⟩,
       ⟨4, 5, "cu_rp_sn754410_new::MotorPayload"⟩]⟩

/-- The plan the application is generated with. -/
def plan : List Step :=
  match computePlan graph with
  | .ok (some p) => p
  | _ => []

/-- A number of the configuration: read as `f64`, then `as f32` (cu_pid/src/lib.rs:155-175, 288-294). -/
def lit (q : Rat) : Num := (round f64 q).convert f32

/-- The parameters of `balpos_pid` (copperconfig.ron:18-28) and the defaults of the others
(cu_pid/src/lib.rs:172-183). -/
def rodCfg : PidFp.Cfg :=
  { kp := lit (15 / 1000), ki := lit 0, kd := lit (1 / 100), setpoint := lit 3072, pLimit := .fin 2, iLimit := .fin 1,
    dLimit := .fin 2, outputLimit := .fin 1, sampling := 0, cutoff := lit 170 }

/-- The parameters of `railpos_pid` (copperconfig.ron:30-41). -/
def railCfg : PidFp.Cfg :=
  { kp := lit (5 / 10000), ki := lit 0, kd := lit (5 / 10), setpoint := lit 0, pLimit := .fin 2, iLimit := .fin 1,
    dLimit := .fin 2, outputLimit := .fin 1, sampling := 100 * 1000000, cutoff := lit 1000 }

/-- What comes from outside. -/
structure Inputs where
  /-- the clock, each time it is read -/
  clock : Nat → CuTime
  /-- the converter, each time it is read: `none` when the transfer fails -/
  adc : Nat → Option UInt16
  /-- the ticks the interrupts of the encoder have counted, each time they are read -/
  rail : Nat → Int32
  /-- at the end of an iteration, whether `q` has been pressed on the console -/
  quit : Nat → Bool
  /-- the text of a status -/
  text : Payload → String

/-- The state of the tasks, and how much of the inputs was read.  `panicked`: the tasks that have
panicked. -/
structure Robot where
  reads : Nat
  samples : Nat
  rails : Nat
  lists : Nat
  integrated : Nat
  rodPid : PidFp.Task
  railPid : PidFp.Task
  motor : MotorFp.Driver
  panicked : List Nat
  deriving DecidableEq, Repr

/-- The tasks created by the runtime: the dead zone of the motor is 0.3 (copperconfig.ron:48-55). -/
def Robot.new : Robot :=
  ⟨0, 0, 0, 0, 0, .new rodCfg, .new railCfg, .new (lit (3 / 10)) false, []⟩

variable (inp : Inputs)

/-- The clock is read. -/
def now (s : Robot) : Robot × CuTime := ({ s with reads := s.reads + 1 }, inp.clock s.reads)

/-- `(a + b) / 2` (cu_ads7883/src/lib.rs:151, 163): the sum may overflow. -/
def middle (a b : CuTime) : Option CuTime := (a.add .checked b).bind (fun t => t.div 2)

/-- `process` of the converter, the device having been read (cu_ads7883/src/lib.rs:149-166): `mid` is the middle
between the times before and after, `mid'` the middle between the time before and the end. -/
def balposRead (mid mid' : Option CuTime) (v : UInt16) (out : Msg Payload) (s : Robot) :
    Robot × Msg Payload × Option Err :=
  match mid with
  | none => ({ s with panicked := 0 :: s.panicked }, out, none)
  | some t =>
    let out := { out with md := { out.md with tov := .time t } }
    match Adc.process s.integrated (some v) with
    | (i, none) => ({ s with integrated := i }, out, none)
    | (i, some r) =>
      let out := out.setPayload (.rod r)
      match mid' with
      | none => ({ s with integrated := i, reads := s.reads + 1, panicked := 0 :: s.panicked }, out, none)
      | some t =>
        ({ s with integrated := i, reads := s.reads + 1 },
          { out with md := { out.md with tov := .time t, statusTxt := inp.text (.rod r) } }, none)

/-- `process` of the converter (cu_ads7883/src/lib.rs:143-166). -/
def balpos (out : Msg Payload) (s : Robot) : Robot × Msg Payload × Option Err :=
  match inp.adc s.samples with
  | none =>
    ({ s with reads := s.reads + 1, samples := s.samples + 1 }, out,
      some "Could not read the ADC value from the ADS7883")
  | some v =>
    balposRead inp (middle (inp.clock (s.reads + 1)) (inp.clock s.reads))
      (middle (inp.clock (s.reads + 2)) (inp.clock s.reads)) v out
      { s with reads := s.reads + 2, samples := s.samples + 1 }

/-- `process` of the encoder (cu_rp_encoder/src/lib.rs:108-114). -/
def railpos (out : Msg Payload) (s : Robot) : Robot × Msg Payload × Option Err :=
  let (s, t) := now inp s
  let p := Payload.rail (inp.rail s.rails)
  ({ s with rails := s.rails + 1 },
    { out with md := { out.md with tov := .time t, statusTxt := inp.text p } }.setPayload p, none)

/-- `f32::from(&payload)` (cu_ads7883/src/lib.rs:57-61, cu_rp_encoder/src/lib.rs:44-48). -/
def measure : Payload → Num
  | .rod v => ofInt f32 v.toNat
  | .rail t => ofInt f32 t.toInt
  | _ => .nan

/-- What a PID task finds in its input message. -/
def pidInput (m : Msg Payload) : Option (Option Nat × Num) :=
  m.payload.map (fun p => ((match m.md.tov with | .time t => some t.ns.toNat | _ => none), measure p))

/-- `process` of a PID task (cu_pid/src/lib.rs:209-256): what is left of the output, and the error. -/
def pidOutput (out : Msg Payload) : PidFp.Res → Msg Payload × Option Err
  | .produced o => ({ out with md := { out.md with statusTxt := inp.text (.control o) } }.setPayload (.control o), none)
  | .cleared => (out.clearPayload, none)
  | .error => (out, some "(cutoff)")

/-- The task `balpos_pid`. -/
def balposPid (m out : Msg Payload) (s : Robot) : Robot × Msg Payload × Option Err :=
  match s.rodPid.process (pidInput m) with
  | .panic => ({ s with panicked := 2 :: s.panicked }, out, none)
  | .ok (t, r) => ({ s with rodPid := t }, pidOutput inp out r)

/-- The task `railpos_pid`. -/
def railposPid (m out : Msg Payload) (s : Robot) : Robot × Msg Payload × Option Err :=
  match s.railPid.process (pidInput m) with
  | .panic => ({ s with panicked := 3 :: s.panicked }, out, none)
  | .ok (t, r) => ({ s with railPid := t }, pidOutput inp out r)

/-- `process` of `PIDMerger` (src/tasks.rs:25-51). -/
def mergePids (bal pos out : Msg Payload) (s : Robot) : Robot × Msg Payload × Option Err :=
  match bal.payload with
  | some (.control b) =>
    match pos.payload with
    | some (.control p) =>
      let out := { out with md := { out.md with tov := bal.md.tov } }
      match (b.output.sub f32 p.output).clamp (.fin (-1)) (.fin 1) with
      | none => ({ s with panicked := 4 :: s.panicked }, out, none)
      | some c => (s, { out with md := { out.md with statusTxt := inp.text (.motor c) } }.setPayload (.motor c), none)
    | _ => (s, out, some "Safety mode [rail].")
  | _ => (s, out, some "Safety mode [balance].")

/-- `process` of the motor (cu_rp_sn754410/src/lib.rs:168-212). -/
def motor (m : Msg Payload) (s : Robot) : Robot × Option Err :=
  let r := s.motor.process (match m.payload with | some (.motor c) => some c | _ => none)
  ({ s with motor := r.1 }, if r.2 then none else some "Safety Mode.")

/-- The lifecycle methods: `start` of the converter (cu_ads7883/src/lib.rs:134-142) and of the motor
(cu_rp_sn754410/src/lib.rs:164-167), `stop` of the PID tasks (cu_pid/src/lib.rs:258-262) and of the motor
(cu_rp_sn754410/src/lib.rs:214-217); setting and clearing the interrupt of the encoder succeeds; the others do
nothing. -/
def life (ph : Phase) (tid : Nat) (s : Robot) : Robot × Option Err :=
  match ph, tid with
  | .start, 0 =>
    let r := inp.adc s.samples
    ({ s with samples := s.samples + 1, integrated := Adc.start r },
      if r.isNone then some "Could not read the ADC value from the ADS7883" else none)
  | .start, 5 => ({ s with motor := s.motor.start }, none)
  | .stop, 2 => ({ s with rodPid := s.rodPid.stop }, none)
  | .stop, 3 => ({ s with railPid := s.railPid.stop }, none)
  | .stop, 5 => ({ s with motor := { s.motor with enabled := false } }, none)
  | _, _ => (s, none)

/-- The application: its tasks, and the console (copperconfig.ron:64-66) for a monitor, whose statistics are
in `Model/ConsoleMon`.  Writing to the log succeeds.  Readings of the clock whose value is not used here are
left out. -/
def env : Env Robot Payload where
  now := now inp
  life := life inp
  source tid out s := match tid with
    | 0 => balpos inp out s
    | 1 => railpos inp out s
    | _ => (s, out, none)
  regular tid ins out s := match tid, ins with
    | 2, [m] => balposPid inp m out s
    | 3, [m] => railposPid inp m out s
    | 4, [a, b] => mergePids inp a b out s
    | _, _ => (s, out, none)
  sink tid ins s := match tid, ins with
    | 5, [m] => motor m s
    | _, _ => (s, none)
  onError ph _ _ s := (s, ConsoleMon.decide' ph)
  monCL _ s := ({ s with lists := s.lists + 1 }, if inp.quit s.lists then some "Exiting..." else none)
  monStart s := (s, none)
  monStop s := (s, none)
  log := some (fun s _ => .ok s)
  sim := none

/-- `struct BalanceBot` (src/main.rs:9-10), built with overflow checks. -/
def app : App Robot Payload := ⟨6, plan, env inp, .checked⟩

/-- The runtime as it is created: ten lists (core/cu29_derive/src/lib.rs:29), zeroed; none of the payloads has
unused values. -/
def fresh : Rt Robot Payload := ⟨⟨.new, []⟩, zeroLists 10 (List.replicate 6 .tagged)⟩

/-- `main` (src/main.rs:43-50), stopped after `n` turns of its loop: the state, and the error on which `expect`
panics. -/
def loop (n : Nat) : Rs (Rt Robot Payload × Option Err) :=
  match startAll (app inp) fresh with
  | (rt, some e) => .ok (rt, some e)
  | (rt, none) => runLoop (app inp) n rt

/-- `main` (src/main.rs:43-53), the stop flag being set after `n` turns. -/
def main (n : Nat) : Rs (Rt Robot Payload × Option Err) :=
  match loop inp n with
  | .panic => .panic
  | .ok (rt, some e) => .ok (rt, some e)
  | .ok (rt, none) => .ok (stopAll (app inp) rt)

end Bot
end Verif
