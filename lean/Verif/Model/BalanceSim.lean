import Verif.Model.BalanceBot
import Verif.Model.ReadingsFp
/-!
The simulation of the balancing robot (examples/cu_rp_balancebot/src/sim.rs): the same application generated with
`sim_mode = true`, in which a callback answers for the two sensors and the motor from the simulated world.
-/
namespace Verif
namespace BotSim
open Clock CopperList Planner Verif.Runtime Fp Bot

/-- What the callback finds in the world when an iteration is run: the time of the physics in nanoseconds, the yaw
of the rod (the third of the angles `to_euler` computes from its rotation) and the position of the cart. -/
structure Frame where
  time : CuTime
  yaw : Num
  x : Num
  deriving DecidableEq, Repr

/-- The tasks (of which the sensors and the motor are never called), the frame, and the forces applied to the cart
(`cart_force.apply_force`, along the rail). -/
structure State where
  robot : Robot
  frame : Frame
  forces : List Num
  deriving DecidableEq, Repr

/-- `std::f32::consts::FRAC_PI_2` and `PI`. -/
def halfPi : Num := .fin (13176795 / 8388608)
def pi : Num := .fin (13176795 / 4194304)
/-- `2.0 * PI`. -/
def twoPi : Num := (Num.fin 2).mul f32 pi

/-- A cast `as u16` and `as i32`: truncates, saturates, 0 for NaN. -/
def asU16 : Num → UInt16
  | .nan => 0
  | .inf neg => if neg then 0 else 65535
  | .fin q => UInt16.ofNat (min 65535 (ReadingsFp.trunc q).toNat)
def asI32 : Num → Int32
  | .nan => 0
  | .inf neg => if neg then -2147483648 else 2147483647
  | .fin q => Int32.ofInt (max (-2147483648) (min 2147483647 (ReadingsFp.trunc q)))

/-- The reading of the converter (sim.rs:119-127). -/
def analog (yaw : Num) : UInt16 :=
  let angle := yaw.sub f32 halfPi
  let angle := if angle.lt (.fin 0) then angle.add f32 twoPi else angle
  asU16 ((angle.div f32 twoPi).mul f32 (.fin 4096))

/-- The ticks of the encoder (sim.rs:137). -/
def ticks (x : Num) : Int32 := asI32 (x.mul f32 (.fin 2000))

variable (inp : Inputs)

/-- `sim_callback` on a process step (sim.rs:110-168).  The texts of the statuses are a parameter. -/
def answer (tid : Nat) (ins : List (Msg Payload)) (out : Msg Payload) (s : State) :
    State × Msg Payload × SimOverride :=
  match tid, ins with
  | 0, _ =>
    (s, { out.setPayload (.rod (analog s.frame.yaw)) with md := { out.md with tov := .time s.frame.time } },
      .executedBySim)
  | 1, _ =>
    (s, { out.setPayload (.rail (ticks s.frame.x)) with md := { out.md with tov := .time s.frame.time } },
      .executedBySim)
  | 5, [m] =>
    match m.payload with
    | some (.motor p) =>
      if p = .nan then ({ s with forces := s.forces ++ [.fin 0] }, out, .executedBySim)
      else
        let f := p.mul f32 (.fin 2)
        ({ s with forces := s.forces ++ [f] }, { out with md := { out.md with statusTxt := inp.text (.motor f) } },
          .executedBySim)
    | _ => ({ s with forces := s.forces ++ [.fin 0] }, out, .errored "Safety Mode.")
  | 5, _ => (s, out, .executedBySim)
  | _, _ => (s, out, .executeByRuntime)

/-- The callback on a lifecycle step (sim.rs:38-47, 132, 142, 168): `default_callback` and `sim_callback` agree. -/
def answerLife (_ : Phase) (tid : Nat) (s : State) : State × SimOverride :=
  (s, if tid = 0 ∨ tid = 1 ∨ tid = 5 then .executedBySim else .executeByRuntime)

/-- A call of a task. -/
def onRobot {α : Type} (r : Robot × α) (s : State) : State × α := ({ s with robot := r.1 }, r.2)

/-- The application.  Its clock is the mock clock, set to the time of the frame (sim.rs:106-108). -/
def env : Env State Payload where
  now s := (s, s.frame.time)
  life ph tid s := onRobot (Bot.life inp ph tid s.robot) s
  source tid out s := onRobot ((Bot.env inp).source tid out s.robot) s
  regular tid ins out s := onRobot ((Bot.env inp).regular tid ins out s.robot) s
  sink tid ins s := onRobot ((Bot.env inp).sink tid ins s.robot) s
  onError ph _ _ s := (s, ConsoleMon.decide' ph)
  monCL md s := onRobot ((Bot.env inp).monCL md s.robot) s
  monStart s := (s, none)
  monStop s := (s, none)
  log := some (fun s _ => .ok s)
  sim := some ⟨answerLife, answer inp⟩

/-- `struct BalanceBotSim` (sim.rs:18-20). -/
def app : App State Payload := ⟨6, plan, env inp, .checked⟩

/-- The runtime as it is created (sim.rs:73-77), the clock at 0. -/
def fresh : Rt State Payload :=
  ⟨⟨⟨.new, ⟨⟨0⟩, .fin 0, .fin 0⟩, []⟩, []⟩, zeroLists 10 (List.replicate 6 .tagged)⟩

/-- `run_copper_callback` (sim.rs:92-177) for each frame in which there is a cart; `expect` panics on an error:
here the loop ends with it. -/
def frames : List Frame → Rt State Payload → Rs (Rt State Payload × Option Err)
  | [], rt => .ok (rt, none)
  | f :: fs, rt =>
    match runOneIteration (app inp) { rt with w := { rt.w with st := { rt.w.st with frame := f } } } with
    | .panic => .panic
    | .ok (rt, some e) => .ok (rt, some e)
    | .ok (rt, none) => frames fs rt

/-- `setup_copper` (sim.rs:50-88), then the frames. -/
def simulate (fs : List Frame) : Rs (Rt State Payload × Option Err) :=
  match startAll (app inp) fresh with
  | (rt, some e) => .ok (rt, some e)
  | (rt, none) => frames inp fs rt

end BotSim
end Verif
