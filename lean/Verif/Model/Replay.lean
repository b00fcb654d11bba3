import Verif.Model.Runtime
/-!
Model of the replay of a log by an application (examples/cu_rp_balancebot/src/resim.rs): the
application is generated once more with `sim_mode = true` and driven by a callback that answers
for the sources and the sinks from the recorded copper lists.
-/
namespace Verif
namespace Runtime
open Clock CopperList Planner
variable {σ P : Type}

/-- Which task of the application this is: source, sink or regular.  In the Rust code this is the
choice of the `SimStep` variants matched by the callback. -/
def kindOf (plan : List Step) (tid : Nat) : TaskType :=
  match plan.find? (fun s => s.nodeId == tid) with
  | some s => s.taskType
  | none => .regular

/-- `default_callback` (resim.rs:11-19): used for `start_all_tasks` and `stop_all_tasks`.  Sources
and sinks are answered for, the others are left to the runtime.  It is never asked about a process
step. -/
def defaultCallback (plan : List Step) : Sim σ P where
  life _ tid s :=
    (s, if kindOf plan tid = .regular then .executeByRuntime else .executedBySim)
  process tid _ out s :=
    (s, out, if kindOf plan tid = .regular then .executeByRuntime else .executedBySim)

/-- `sim_callback` (resim.rs:37-68), which borrows the recorded messages: a source's output becomes
a clone of what the accessor `get_<source>_output` reads in the recorded list, a sink's output is
changed by the code of the simulation (`sinkOut`), everything else is left to the runtime.  An
accessor outside the list would not compile: the output is left alone in that case. -/
def resimCallback (plan : List Step) (sinkOut : Nat → List (Msg P) → Msg P → Msg P)
    (msgs : List (Msg P)) : Sim σ P where
  life _ tid s :=
    (s, if kindOf plan tid = .regular then .executeByRuntime else .executedBySim)
  process tid ins out s :=
    match kindOf plan tid with
    | .source => (s, ((accessorIndex plan tid).bind (fun i => msgs[i]?)).getD out, .executedBySim)
    | .sink => (s, sinkOut tid ins out, .executedBySim)
    | .regular => (s, out, .executeByRuntime)

/-- The replaying application: the application without its callback, the sinks' stand-ins, and
`robot_clock.set_value(…)` (resim.rs:27-35), which sets the mock clock to the recorded time of the
list. -/
structure Replayer (σ P : Type) where
  app : App σ P
  sinkOut : Nat → List (Msg P) → Msg P → Msg P
  setClock : List (Msg P) → σ → σ

/-- The application with a callback. -/
def App.withSim (app : App σ P) (sim : Sim σ P) : App σ P :=
  { app with env := { app.env with sim := some sim } }

/-- `run_one_copperlist` (resim.rs:21-71). -/
def replayOne (r : Replayer σ P) (cl : CL (List (Msg P))) (rt : Rt σ P) : Rs (Rt σ P × Option Err) :=
  runOneIteration (r.app.withSim (resimCallback r.app.plan r.sinkOut cl.msgs))
    { rt with w := { rt.w with st := r.setClock cl.msgs rt.w.st } }

/-- The loop of `main` (resim.rs:106-109): `.expect` panics on an error. -/
def replayLoop (r : Replayer σ P) : List (CL (List (Msg P))) → Rt σ P → Rs (Rt σ P)
  | [], rt => .ok rt
  | cl :: cls, rt =>
    match replayOne r cl rt with
    | .ok (rt, none) => replayLoop r cls rt
    | _ => .panic

/-- `main` (resim.rs:74-113) up to the end of the loop: start the tasks, replay every list. -/
def replay (r : Replayer σ P) (cls : List (CL (List (Msg P)))) (rt : Rt σ P) : Rs (Rt σ P) :=
  match startAll (r.app.withSim (defaultCallback r.app.plan)) rt with
  | (rt, none) => replayLoop r cls rt
  | (_, some _) => .panic

/-- A recorded run: start the tasks, `n` iterations, none of which reports an error. -/
def record (app : App σ P) (n : Nat) (rt : Rt σ P) : Rs (Rt σ P) :=
  match startAll app rt with
  | (rt, none) =>
    match runLoop app n rt with
    | .ok (rt, none) => .ok rt
    | _ => .panic
  | (_, some _) => .panic

end Runtime
end Verif
