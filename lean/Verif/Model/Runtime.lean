import Verif.Model.Message
import Verif.Model.Planner
import Verif.Model.EndOfProcessing
/-!
Model of the code generated by the `#[copper_runtime]` macro for an application
(core/cu29_derive/src/lib.rs: lifecycle calls 395-620, process steps 630-870, run methods
962-1017) together with the runtime it drives (core/cu29_runtime/src/curuntime.rs).

Everything the generated code calls is a parameter (`Env`): the tasks, the monitor, the clock, the
simulation callback and the log stream, over an arbitrary state `σ`.  Calls that return a
`CuResult` return `some error` for `Err`.  A panic inside a task or a monitor is not modelled.
Message payloads of all the tasks live in one type `P`.  Every call is recorded in a trace, which
is what the properties talk about.
-/
namespace Verif
namespace Runtime
open Clock CopperList Planner

abbrev Err := String

/-- `CuTaskState` (core/cu29_runtime/src/monitoring.rs:13-19). -/
inductive Phase where
  | start | preprocess | process | postprocess | stop
  deriving DecidableEq, Repr

/-- `Decision` (monitoring.rs:21-27). -/
inductive Decision where
  | abort | ignore | shutdown
  deriving DecidableEq, Repr

/-- `SimOverride` (core/cu29_runtime/src/simulation.rs:148-156). -/
inductive SimOverride where
  | executedBySim | executeByRuntime | errored (reason : Err)
  deriving DecidableEq, Repr

/-- The simulation callback, on a lifecycle step and on a process step
(`CuTaskCallbackState`, simulation.rs:120-146).  On a process step it sees the inputs and may
modify the output. -/
structure Sim (σ P : Type) where
  life : Phase → Nat → σ → σ × SimOverride
  process : Nat → List (Msg P) → Msg P → σ → σ × Msg P × SimOverride

/-- Everything around the generated code. -/
structure Env (σ P : Type) where
  /-- `clock.now()` -/
  now : σ → σ × CuTime
  /-- `start`, `preprocess`, `postprocess`, `stop` of a task (cutask.rs:177-330) -/
  life : Phase → Nat → σ → σ × Option Err
  /-- `process` of a source task: it gets its output only -/
  source : Nat → Msg P → σ → σ × Msg P × Option Err
  /-- `process` of a regular task -/
  regular : Nat → List (Msg P) → Msg P → σ → σ × Msg P × Option Err
  /-- `process` of a sink task: it gets its inputs only -/
  sink : Nat → List (Msg P) → σ → σ × Option Err
  /-- `monitor.process_error(index, state, &error)` -/
  onError : Phase → Nat → Err → σ → σ × Decision
  /-- `monitor.process_copperlist(&metadata)` -/
  monCL : List MsgMeta → σ → σ × Option Err
  /-- `monitor.start(clock)` -/
  monStart : σ → σ × Option Err
  /-- `monitor.stop(clock)` -/
  monStop : σ → σ × Option Err
  /-- the copper list stream; `none` when task logging is disabled -/
  log : Logger σ (List (Msg P))
  /-- the callback when the application is generated with `sim_mode = true` -/
  sim : Option (Sim σ P)

/-- What happens, in order. -/
inductive Ev (P : Type) where
  /-- the simulation callback was asked about a step and answered -/
  | asked (ph : Phase) (tid : Nat) (inputs : List (Msg P)) (answer : SimOverride)
  /-- the task's own method was called (with these input messages, for `process`) -/
  | called (ph : Phase) (tid : Nat) (inputs : List (Msg P)) (result : Option Err)
  /-- the monitor was asked about an error and decided -/
  | decided (ph : Phase) (tid : Nat) (e : Err) (d : Decision)
  /-- a process step is over; this is the message in the task's slot -/
  | left (tid : Nat) (out : Msg P)
  /-- a copper list was taken -/
  | created (id : UInt32)
  /-- the monitor was shown the metadata of the copper list -/
  | monitored (md : List MsgMeta) (result : Option Err)
  /-- a copper list was written to the log -/
  | logged (cl : CL (List (Msg P)))
  | monStarted (result : Option Err)
  | monStopped (result : Option Err)
  deriving DecidableEq, Repr

/-- The environment's state and the trace so far. -/
structure World (σ P : Type) where
  st : σ
  trace : List (Ev P)
  deriving DecidableEq, Repr

variable {σ P : Type}

def World.emit (w : World σ P) (st : σ) (e : Ev P) : World σ P := ⟨st, w.trace ++ [e]⟩

/-- How a step ends: the next step follows, or the generated function returns early. -/
inductive Flow where
  | next
  | abort
  | shutdown (e : Err)
  deriving DecidableEq, Repr

/-- `monitoring_action` (core/cu29_derive/src/lib.rs:415-434 and the copies at 468, 518, 567, 661,
733, 801).  The text added to the error by `new_with_cause` is not modelled. -/
def react (env : Env σ P) (ph : Phase) (tid : Nat) (e : Err) (w : World σ P) : World σ P × Flow :=
  let r := env.onError ph tid e w.st
  (w.emit r.1 (.decided ph tid e r.2),
    match r.2 with
    | .abort => .abort
    | .ignore => .next
    | .shutdown => .shutdown e)

/-- The call of a lifecycle method, with the handling of its error (lib.rs:455-462). -/
def lifeCall (env : Env σ P) (ph : Phase) (tid : Nat) (w : World σ P) : World σ P × Flow :=
  let r := env.life ph tid w.st
  let w := w.emit r.1 (.called ph tid [] r.2)
  match r.2 with
  | none => (w, .next)
  | some e => react env ph tid e w

/-- One lifecycle step (lib.rs:436-463; the same for `stop`, `preprocess`, `postprocess`). -/
def lifeStep (env : Env σ P) (ph : Phase) (tid : Nat) (w : World σ P) : World σ P × Flow :=
  match env.sim with
  | none => lifeCall env ph tid w
  | some sim =>
    let r := sim.life ph tid w.st
    let w := w.emit r.1 (.asked ph tid [] r.2)
    match r.2 with
    | .errored e => react env ph tid e w
    | .executedBySim => (w, .next)
    | .executeByRuntime => lifeCall env ph tid w

/-- The lifecycle calls of all the tasks, in declaration order. -/
def lifeAll (env : Env σ P) (ph : Phase) : List Nat → World σ P → World σ P × Flow
  | [], w => (w, .next)
  | t :: ts, w =>
    match lifeStep env ph t w with
    | (w, .next) => lifeAll env ph ts w
    | (w, f) => (w, f)

/-- The call of the task's `process` (lib.rs:711-715, 785, 853). -/
def callProcess (env : Env σ P) (step : Step) (inputs : List (Msg P)) (out : Msg P) (s : σ) :
    σ × Msg P × Option Err :=
  match step.taskType with
  | .source => env.source step.nodeId out s
  | .regular => env.regular step.nodeId inputs out s
  | .sink => let r := env.sink step.nodeId inputs s; (r.1, out, r.2)

/-- The part of a process step after the simulation callback (lib.rs:710-720, 784-790, 852-858). -/
def execProcess (env : Env σ P) (step : Step) (inputs : List (Msg P)) (out : Msg P) (doit : Bool)
    (w : World σ P) : World σ P × Msg P × Flow :=
  let t0 := env.now w.st
  let out := out.setStart t0.2
  let w := { w with st := t0.1 }
  let r := if doit then callProcess env step inputs out w.st else (w.st, out, none)
  let w := if doit then w.emit r.1 (.called .process step.nodeId inputs r.2.2) else w
  let t1 := env.now w.st
  let out := r.2.1.setStop t1.2
  let w := { w with st := t1.1 }
  match r.2.2 with
  | none => (w.emit w.st (.left step.nodeId out), out, .next)
  | some e =>
    match react env .process step.nodeId e w with
    | (w, .next) => (w.emit w.st (.left step.nodeId out.clearPayload), out.clearPayload, .next)
    | (w, f) => (w, out, f)

/-- One process step on its input messages and its output message (lib.rs:656-864). -/
def processStep (env : Env σ P) (step : Step) (inputs : List (Msg P)) (out : Msg P)
    (w : World σ P) : World σ P × Msg P × Flow :=
  match env.sim with
  | none => execProcess env step inputs out true w
  | some sim =>
    let r := sim.process step.nodeId inputs out w.st
    let w := w.emit r.1 (.asked .process step.nodeId inputs r.2.2)
    match r.2.2 with
    | .errored e =>
      match react env .process step.nodeId e w with
      | (w, .next) => execProcess env step inputs r.2.1.clearPayload false w
      | (w, f) => (w, r.2.1, f)
    | .executedBySim => execProcess env step inputs r.2.1 false w
    | .executeByRuntime => execProcess env step inputs r.2.1 true w

/-- The process steps in plan order, on the messages of the copper list (lib.rs:970-973).  An input
or output index outside the list is a compile error of the generated code: a panic here.  The
output is exclusively borrowed while the step runs. -/
def planLoop (env : Env σ P) : List Step → World σ P → List (Msg P) →
    Rs (World σ P × List (Msg P) × Flow)
  | [], w, msgs => .ok (w, msgs, .next)
  | step :: steps, w, msgs =>
    match step.output with
    | none => .panic
    | some (o, _) =>
      match mapRs (fun i => Rs.ofOption msgs[i.1]?) step.inputs, msgs[o]? with
      | .ok inputs, some out =>
        match processStep env step inputs out w with
        | (w, out, .next) => planLoop env steps w (msgs.set o out)
        | (w, out, f) => .ok (w, msgs.set o out, f)
      | _, _ => .panic

/-- An application: its number of tasks, its execution plan, the build profile. -/
structure App (σ P : Type) where
  tasks : Nat
  plan : List Step
  env : Env σ P
  overflow : Overflow

/-- `taskid_call_order` (lib.rs:650-651). -/
def callOrder (plan : List Step) : List Nat := plan.map Step.nodeId

/-- `collect_metadata` (lib.rs:142-146): the tuple is indexed by the task ids in call order. -/
def collectMetadata (plan : List Step) (msgs : List (Msg P)) : Rs (List MsgMeta) :=
  mapRs (fun t => Rs.ofOption (msgs[t]?.map Msg.md)) (callOrder plan)

/-- The accessor `get_<task>_output` generated for the task declared at position `tid`
(lib.rs:148-158): the position it reads in the tuple of messages. -/
def accessorIndex (plan : List Step) (tid : Nat) : Option Nat := (callOrder plan)[tid]?

/-- The end to end latency (lib.rs:975-980). -/
def endToEnd (o : Overflow) (md : List MsgMeta) : Rs CuDuration :=
  match md.getLast?, md.head? with
  | some l, some f =>
    match l.processTime.stop.unwrap, f.processTime.start.unwrap with
    | some e, some s => Rs.ofOption (e.sub o s)
    | _, _ => .panic
  | _, _ => .panic

/-- The log stream, with the trace. -/
def tracedLog (log : Logger σ (List (Msg P))) : Logger (World σ P) (List (Msg P)) :=
  log.map (fun f w cl =>
    match f w.st cl with
    | .panic => .panic
    | .ok st => .ok (w.emit st (.logged cl)))

/-- The whole runtime. -/
structure Rt (σ P : Type) where
  w : World σ P
  mgr : Manager (List (Msg P))
  deriving DecidableEq, Repr

/-- `monitor.process_copperlist(&collect_metadata(&culist))?; end_of_processing(id);`
(lib.rs:668-669, 983-984): `some e` when the monitor's error makes the function return. -/
def finishList (app : App σ P) (id : UInt32) (msgs : List (Msg P)) (rt : Rt σ P) :
    Rs (Rt σ P × Option Err) :=
  match collectMetadata app.plan msgs with
  | .panic => .panic
  | .ok md =>
    let r := app.env.monCL md rt.w.st
    let w := rt.w.emit r.1 (.monitored md r.2)
    match r.2 with
    | some e => .ok ({ rt with w := w }, some e)
    | none =>
      match endOfProcessing (tracedLog app.env.log) w rt.mgr id with
      | .panic => .panic
      | .ok (w, mgr) => .ok (⟨w, mgr⟩, none)

/-- `run_one_iteration` (lib.rs:964-988).  `none` is `Ok(())`. -/
def runOneIteration (app : App σ P) (rt : Rt σ P) : Rs (Rt σ P × Option Err) :=
  match lifeAll app.env .preprocess (List.range app.tasks) rt.w with
  | (w, .abort) => .ok ({ rt with w := w }, none)
  | (w, .shutdown e) => .ok ({ rt with w := w }, some e)
  | (w, .next) =>
    match rt.mgr.create app.overflow with
    | .panic => .panic
    | .ok (_, none) => .panic
    | .ok (mgr, some slot) =>
      match mgr.data[slot]? with
      | none => .panic
      | some cl =>
        let id := cl.id
        let w := w.emit w.st (.created id)
        match planLoop app.env app.plan w cl.msgs with
        | .panic => .panic
        | .ok (w, msgs, flow) =>
          let mgr := mgr.write slot (fun c => { c with state := .processing, msgs := msgs })
          match flow with
          | .shutdown e => .ok (⟨w, mgr⟩, some e)
          | .abort => finishList app id msgs ⟨w, mgr⟩
          | .next =>
            match collectMetadata app.plan msgs with
            | .panic => .panic
            | .ok md =>
              match endToEnd app.overflow md with
              | .panic => .panic
              | .ok _ =>
                match finishList app id msgs ⟨w, mgr⟩ with
                | .panic => .panic
                | .ok (rt, some e) => .ok (rt, some e)
                | .ok (rt, none) =>
                  match lifeAll app.env .postprocess (List.range app.tasks) rt.w with
                  | (w, .shutdown e) => .ok ({ rt with w := w }, some e)
                  | (w, _) => .ok ({ rt with w := w }, none)

/-- `start_all_tasks` (lib.rs:990-994). -/
def startAll (app : App σ P) (rt : Rt σ P) : Rt σ P × Option Err :=
  match lifeAll app.env .start (List.range app.tasks) rt.w with
  | (w, .abort) => ({ rt with w := w }, none)
  | (w, .shutdown e) => ({ rt with w := w }, some e)
  | (w, .next) =>
    let r := app.env.monStart w.st
    ({ rt with w := w.emit r.1 (.monStarted r.2) }, r.2)

/-- `stop_all_tasks` (lib.rs:996-1000). -/
def stopAll (app : App σ P) (rt : Rt σ P) : Rt σ P × Option Err :=
  match lifeAll app.env .stop (List.range app.tasks) rt.w with
  | (w, .abort) => ({ rt with w := w }, none)
  | (w, .shutdown e) => ({ rt with w := w }, some e)
  | (w, .next) =>
    let r := app.env.monStop w.st
    ({ rt with w := w.emit r.1 (.monStopped r.2) }, r.2)

/-- The loop of `run` (lib.rs:1004-1009), at most `n` iterations: `none` when it is still
running. -/
def runLoop (app : App σ P) : Nat → Rt σ P → Rs (Rt σ P × Option Err)
  | 0, rt => .ok (rt, none)
  | n + 1, rt =>
    match runOneIteration app rt with
    | .panic => .panic
    | .ok (rt, some e) => .ok (rt, some e)
    | .ok (rt, none) => runLoop app n rt

/-- Outcome of `run` observed after at most `n` iterations. -/
inductive RunResult where
  | running
  | ended (e : Err)
  deriving DecidableEq, Repr

/-- `run` (lib.rs:1002-1013), observed after at most `n` iterations.  `run` never returns `Ok`:
its loop ends with an error only. -/
def run (app : App σ P) (n : Nat) (rt : Rt σ P) : Rs (Rt σ P × RunResult) :=
  match startAll app rt with
  | (rt, some e) => .ok (rt, .ended e)
  | (rt, none) =>
    match runLoop app n rt with
    | .panic => .panic
    | .ok (rt, none) => .ok (rt, .running)
    | .ok (rt, some e) =>
      match stopAll app rt with
      | (rt, some e') => .ok (rt, .ended e')
      | (rt, none) => .ok (rt, .ended e)

end Runtime
end Verif
