import Verif.Model.FreshList
import Verif.Model.ConsoleMon
import Verif.Model.Devices
import Verif.Model.Fp
/-!
Two example applications (examples/cu_multisources and examples/cu_caterpillar: copperconfig.ron, src/tasks.rs,
src/main.rs), on the generated runtime (`Model/Runtime`).
-/
namespace Verif
namespace Examples
open Clock CopperList Planner Verif.Runtime Fp

/-- What comes from outside: the clock, each time it is read, and whether the monitor ends the program after a
list (`q` pressed on the console). -/
structure Inputs where
  clock : Nat → CuTime
  quit : Nat → Bool

/-- The tasks of a running program, how often the clock was read and how many lists the monitor has seen. -/
structure State (S : Type) where
  reads : Nat
  lists : Nat
  task : Nat → S

/-- One task has changed. -/
def State.set {S : Type} (s : State S) (t : Nat) (x : S) : State S :=
  { s with task := fun u => if u = t then x else s.task u }

/-- `output.set_payload(..)` and, in the caterpillar, `output.metadata.set_status(..)`.  Nothing is sent by a task
which has panicked: that ends the program. -/
def leave {P : Type} (status : P → Option String) (out : Msg P) : Option P → Msg P
  | none => out.clearPayload
  | some p => match status p with
    | none => out.setPayload p
    | some t => { out with md := { out.md with statusTxt := t } }.setPayload p

/-- An application of tasks without lifecycle methods, without failures and without readings of the clock of their
own.  `next t` is `process` of the task `t`: its state after it, and the payload it sets.  A panic is a state of the
task.  The monitor is `decide`, and may end the program after a list.  Writing to the log succeeds. -/
def env {S P : Type} (inp : Inputs) (decide : Phase → Decision) (status : P → Option String)
    (next : Nat → S → List (Option P) → S × Option P) : Env (State S) P where
  now s := ({ s with reads := s.reads + 1 }, inp.clock s.reads)
  life _ _ s := (s, none)
  source t out s := let r := next t (s.task t) []; (s.set t r.1, leave status out r.2, none)
  regular t ins out s :=
    let r := next t (s.task t) (ins.map Msg.payload); (s.set t r.1, leave status out r.2, none)
  sink t ins s := (s.set t (next t (s.task t) (ins.map Msg.payload)).1, none)
  onError ph _ _ s := (s, decide ph)
  monCL _ s := ({ s with lists := s.lists + 1 }, if inp.quit s.lists then some "Exiting..." else none)
  monStart s := (s, none)
  monStop s := (s, none)
  log := some (fun s _ => .ok s)
  sim := none

/-- The plan an application is generated with. -/
def planOf (g : Graph) : List Step :=
  match computePlan g with
  | .ok (some p) => p
  | _ => []

/-! ### Two sources, a merger and two sinks -/
namespace Multi

/-- The payloads: `i32`, `f32`, `(i32, f32)`. -/
inductive Payload where
  | int (v : Int32)
  | float (v : Num)
  | pair (i : Int32) (f : Num)
  deriving DecidableEq, Repr

/-- The tasks (src/tasks.rs:4-110); a sink with the lines it has printed. -/
inductive Task where
  | int (value : Int32)
  | float (value : Num)
  | merger
  | sink (printed : List (Int32 × Num))
  | panicked
  deriving DecidableEq, Repr

/-- The configuration (copperconfig.ron): i, f, merger, merger_sink, merged_sink. -/
def graph : Graph :=
  ⟨5, [⟨0, 3, "i32"⟩, ⟨1, 3, "f32"⟩, ⟨0, 2, "i32"⟩, ⟨1, 2, "f32"⟩, ⟨2, 4, "(i32, f32)"⟩]⟩

/-- `new` of the tasks (src/tasks.rs:12-14, 33-35, 53-55, 81-83, 107-109). -/
def init : Nat → Task
  | 0 => .int 42
  | 1 => .float (.fin 24)
  | 2 => .merger
  | _ => .sink []

/-- `self.value += 1` on an `i32` (src/tasks.rs:17): a panic when the build checks for overflow. -/
def increment (o : Overflow) (v : Int32) : Option Int32 :=
  match o with
  | .wrapping => some (v + 1)
  | .checked => if v = 2147483647 then none else some (v + 1)

/-- `process` of the tasks (src/tasks.rs:16-20, 37-41, 57-65, 85-96, 111-114).  A missing payload is a panic in
`unwrap`. -/
def next (o : Overflow) : Nat → Task → List (Option Payload) → Task × Option Payload
  | 0, .int v, _ => match increment o v with
    | none => (.panicked, none)
    | some v => (.int v, some (.int v))
  | 1, .float v, _ => let v := v.add f32 (.fin 1); (.float v, some (.float v))
  | 2, .merger, [some (.int i), some (.float f)] => (.merger, some (.pair i f))
  | 3, .sink l, [some (.int i), some (.float f)] => (.sink (l ++ [(i, f)]), none)
  | 4, .sink l, [some (.pair i f)] => (.sink (l ++ [(i, f)]), none)
  | _, _, _ => (.panicked, none)

/-- `struct MultiSourceApp` (src/main.rs:9-10).  Without a monitor in the configuration it is `NoMonitor`
(core/cu29_runtime/src/monitoring.rs:52-71): errors are ignored, and the program never ends by itself. -/
def app (inp : Inputs) (o : Overflow) : App (State Task) Payload :=
  ⟨5, planOf graph, env { inp with quit := fun _ => false } (fun _ => .ignore) (fun _ => none) (next o), o⟩

/-- The runtime as it is created: ten zeroed lists; none of the payloads has unused values. -/
def fresh : Rt (State Task) Payload := ⟨⟨⟨0, 0, init⟩, []⟩, zeroLists 10 (List.replicate 5 .tagged)⟩

/-- `main` (src/main.rs:14-34): `run`, observed after `n` iterations. -/
def main (inp : Inputs) (o : Overflow) (n : Nat) : Rs (Rt (State Task) Payload × RunResult) :=
  run (app inp o) n fresh

end Multi

/-! ### The caterpillar -/
namespace Cater

/-- The tasks (src/tasks.rs:11-71, components/sinks/cu_rp_gpio/src/lib.rs:19-24): an output pin with the level that
was last written to it. -/
inductive Task where
  | source (state : Bool)
  | segment
  | gpio (pin : UInt8) (level : Option Devices.Level)
  | panicked
  deriving DecidableEq, Repr

/-- The configuration (copperconfig.ron): src is 0, ct-i is 2 i + 1, gpio-i is 2 i + 2. -/
def graph : Graph :=
  let ty := "cu_rp_gpio::RPGpioPayload"
  ⟨17, [⟨0, 1, ty⟩, ⟨1, 3, ty⟩, ⟨3, 5, ty⟩, ⟨5, 7, ty⟩, ⟨7, 9, ty⟩, ⟨9, 11, ty⟩, ⟨11, 13, ty⟩, ⟨13, 15, ty⟩,
        ⟨1, 2, ty⟩, ⟨3, 4, ty⟩, ⟨5, 6, ty⟩, ⟨7, 8, ty⟩, ⟨9, 10, ty⟩, ⟨11, 12, ty⟩, ⟨13, 14, ty⟩, ⟨15, 16, ty⟩]⟩

/-- The pins of the configuration (copperconfig.ron). -/
def pins : List UInt8 := [4, 17, 27, 22, 5, 6, 19, 26]

/-- `new` of the tasks (src/tasks.rs:30-35, 55-60, cu_rp_gpio/src/lib.rs:63-85). -/
def init (t : Nat) : Task :=
  if t = 0 then .source true
  else if t % 2 = 1 then .segment
  else match pins[t / 2 - 1]? with
    | some p => .gpio p none
    | none => .panicked

/-- `process` of the source and of the segments (src/tasks.rs:37-43, 62-71), and of a pin
(cu_rp_gpio/src/lib.rs:87-90, `Devices.gpioProcess`). -/
def next (_ : Nat) : Task → List (Option Bool) → Task × Option Bool
  | .source state, _ => (.source (!state), some (!state))
  | .segment, [some on] => (.segment, some on)
  | .gpio pin _, [p] => match Devices.gpioProcess (Msg.new p) with
    | .ok l => (.gpio pin (some l), none)
    | .panic => (.panicked, none)
  | _, _ => (.panicked, none)

/-- `metadata.set_status(on)` (src/tasks.rs:41, 69): the text of a `bool`. -/
def status (on : Bool) : Option String := some (if on then "true" else "false")

/-- `struct CaterpillarApplication` (src/main.rs:6-7); the console is its monitor. -/
def app (inp : Inputs) (o : Overflow) : App (State Task) Bool :=
  ⟨17, planOf graph, env inp ConsoleMon.decide' status next, o⟩

/-- The runtime as it is created: ten zeroed lists.  The payload of a pin has unused values, that of a sink is
`()`. -/
def fresh : Rt (State Task) Bool :=
  ⟨⟨⟨0, 0, init⟩, []⟩, zeroLists 10 ((planOf graph).map (fun s => if s.taskType = .sink then .tagged else gpioLayout))⟩

/-- `main` (src/main.rs:11-32): `run`, observed after `n` iterations. -/
def main (inp : Inputs) (o : Overflow) (n : Nat) : Rs (Rt (State Task) Bool × RunResult) :=
  run (app inp o) n fresh

end Cater
end Examples
end Verif
