import Verif.Model.BalanceBot
/-!
The resimulation of the balancing robot (examples/cu_rp_balancebot/src/resim.rs): the application is generated once
more with `sim_mode = true`, and a callback answers for the sensors and the motor from the lists of a log.
-/
namespace Verif
namespace BotResim
open Clock CopperList Planner Verif.Runtime Fp Bot
variable (inp : Inputs)

/-- `msgs.get_balpos_output()` and `msgs.get_railpos_output()`; an accessor outside of the list would not compile. -/
def output (msgs : List (Msg Payload)) (tid : Nat) : Option (Msg Payload) :=
  (accessorIndex plan tid).bind (fun i => msgs[i]?)

/-- The callbacks on a lifecycle step (resim.rs:11-19, 43, 48, 65-66): `default_callback` and `sim_callback` agree. -/
def answerLife (_ : Phase) (tid : Nat) (s : Robot) : Robot × SimOverride :=
  (s, if tid = 0 ∨ tid = 1 ∨ tid = 5 then .executedBySim else .executeByRuntime)

/-- `sim_callback` on a process step (resim.rs:37-68).  The texts of the statuses are a parameter. -/
def answer (msgs : List (Msg Payload)) (tid : Nat) (ins : List (Msg Payload)) (out : Msg Payload) (s : Robot) :
    Robot × Msg Payload × SimOverride :=
  match tid, ins with
  | 0, _ => (s, (output msgs 0).getD out, .executedBySim)
  | 1, _ => (s, (output msgs 1).getD out, .executedBySim)
  | 5, [m] =>
    match m.payload with
    | some (.motor p) =>
      if p = .nan then (s, out, .executedBySim)
      else (s, { out with md := { out.md with statusTxt := inp.text (.motor (p.mul f32 (.fin 2))) } }, .executedBySim)
    | _ => (s, out, .executedBySim)
  | 5, _ => (s, out, .executedBySim)
  | _, _ => (s, out, .executeByRuntime)

/-- The tasks, with the console for a monitor, while the mock clock stands at `t`.  The sensors and the motor are
never called: the callbacks answer for them. -/
def env (t : CuTime) (msgs : List (Msg Payload)) : Env Robot Payload where
  now s := (s, t)
  life := Bot.life inp
  source _ out s := (s, out, none)
  regular := (Bot.env inp).regular
  sink _ _ s := (s, none)
  onError ph _ _ s := (s, ConsoleMon.decide' ph)
  monCL := (Bot.env inp).monCL
  monStart s := (s, none)
  monStop s := (s, none)
  log := some (fun s _ => .ok s)
  sim := some ⟨answerLife, answer inp msgs⟩

/-- `struct BalanceBotReSim` (resim.rs:7-9). -/
def app (t : CuTime) (msgs : List (Msg Payload)) : App Robot Payload := ⟨6, plan, env inp t msgs, .checked⟩

/-- `run_one_copperlist` (resim.rs:21-72): the clock is set to the time at which `balpos` was called, on whose
absence `unwrap` panics. -/
def one (cl : CL (List (Msg Payload))) (rt : Rt Robot Payload) : Rs (Rt Robot Payload × Option Err) :=
  match (output cl.msgs 0).bind (fun m => m.md.processTime.start.unwrap) with
  | none => .panic
  | some t => runOneIteration (app inp t cl.msgs) rt

/-- The loop over the log (resim.rs:107-110): the error is the one on which `expect` panics. -/
def lists : List (CL (List (Msg Payload))) → Rt Robot Payload → Rs (Rt Robot Payload × Option Err)
  | [], rt => .ok (rt, none)
  | cl :: cls, rt =>
    match one inp cl rt with
    | .panic => .panic
    | .ok (rt, some e) => .ok (rt, some e)
    | .ok (rt, none) => lists cls rt

/-- `main` (resim.rs:74-113) up to the end of the loop; the mock clock is created at 0. -/
def resim (cls : List (CL (List (Msg Payload)))) : Rs (Rt Robot Payload × Option Err) :=
  match startAll (app inp ⟨0⟩ []) fresh with
  | (rt, some e) => .ok (rt, some e)
  | (rt, none) => lists inp cls rt

end BotResim
end Verif
