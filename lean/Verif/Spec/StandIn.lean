import Verif.Model.Runtime
/-! Simulations that stand in for the tasks of an application. -/
namespace Verif
namespace Runtime
open Clock CopperList Planner
variable {σ P : Type}

/-- The application generated with `sim_mode = true`, run with this callback. -/
def App.simulated (app : App σ P) (sim : Sim σ P) : App σ P := { app with env := { app.env with sim := some sim } }

/-- The answer for a result of a task. -/
def answerOf : Option Err → SimOverride
  | none => .executedBySim
  | some e => .errored e

/-- The callback leaves all to the runtime. -/
structure Passes (sim : Sim σ P) : Prop where
  life : ∀ ph t s, sim.life ph t s = (s, .executeByRuntime)
  process : ∀ t ins out s, sim.process t ins out s = (s, out, .executeByRuntime)

/-- For each step the callback leaves it to the runtime or does what the task would have done. -/
structure StandsIn (app : App σ P) (sim : Sim σ P) : Prop where
  life : ∀ ph t s, sim.life ph t s = (s, .executeByRuntime) ∨
    sim.life ph t s = ((app.env.life ph t s).1, answerOf (app.env.life ph t s).2)
  process : ∀ step ∈ app.plan, ∀ ins out s, sim.process step.nodeId ins out s = (s, out, .executeByRuntime) ∨
    let r := callProcess app.env step ins out s
    sim.process step.nodeId ins out s = (r.1, r.2.1, answerOf r.2.2)

/-- The clock is that of the simulation: neither reading it nor a task or the monitor changes the time.  Tasks take no
notice of the start time the runtime notes in their output. -/
structure SimClock (app : App σ P) : Prop where
  now : ∀ s, (app.env.now s).1 = s
  call : ∀ step ins out s, (app.env.now (callProcess app.env step ins out s).1).2 = (app.env.now s).2
  onError : ∀ ph t e s, (app.env.now (app.env.onError ph t e s).1).2 = (app.env.now s).2
  start : ∀ step ins out s t, callProcess app.env step ins (out.setStart t) s =
    let r := callProcess app.env step ins out s
    (r.1, r.2.1.setStart t, r.2.2)

/-- What happens but for the questions to the callback. -/
def unasked (t : List (Ev P)) : List (Ev P) := t.filter (fun | .asked .. => false | _ => true)

/-- What happens but for the questions to the callback and the calls of the tasks: errors and what the monitor
decides, what tasks leave in their messages, the lists, what the monitor is told and what is logged. -/
def effects (t : List (Ev P)) : List (Ev P) := t.filter (fun | .asked .. => false | .called .. => false | _ => true)

end Runtime
end Verif
