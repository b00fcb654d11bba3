import Verif.Spec.Dataflow
/-!
What a configuration means in simulation: the machine of a task is what the callback and the task behind it do together.
-/
namespace Verif
namespace Dataflow
open Clock CopperList Planner Verif.Runtime
variable {σ S P Q : Type}

/-- A reading of messages, the payload for one, or the payload with its time of validity, that takes no notice of the
times the runtime notes in them. -/
structure IgnoresTimes (read : Msg P → Option Q) : Prop where
  start : ∀ o t, read (o.setStart t) = read o
  stop : ∀ o t, read (o.setStop t) = read o

/-- What is read of the message a task leaves: after an error it has no payload. -/
def sentAs (read : Msg P → Option Q) (r : σ × Msg P × Option Err) : Option Q :=
  if r.2.2.isSome then read r.2.1.clearPayload else read r.2.1

/-- Task `t`, when the runtime runs it itself, is this machine: it looks at what is read of the messages it is given and
at its own state, whatever is in the message it writes to, and changes nothing else. -/
def RunsAs (read : Msg P → Option Q) (env : Env σ P) (view : σ → Nat → S) (m : Tasks S Q) : TaskType → Nat → Prop
  | .source, t => ∀ out s, view (env.source t out s).1 = update (view s) t (m.next t (view s t) []).1 ∧
      sentAs read (env.source t out s) = (m.next t (view s t) []).2
  | .regular, t => ∀ ins out s,
      view (env.regular t ins out s).1 = update (view s) t (m.next t (view s t) (ins.map read)).1 ∧
      sentAs read (env.regular t ins out s) = (m.next t (view s t) (ins.map read)).2
  | .sink, t => ∀ ins s, view (env.sink t ins s).1 = update (view s) t (m.next t (view s t) (ins.map read)).1

/-- What all applications here have in common: the clock, the monitor and the log leave the tasks alone, and an error
of a step is ignored. -/
structure Calm (env : Env σ P) (view : σ → Nat → S) : Prop where
  now : ∀ s, view (env.now s).1 = view s
  ignores : ∀ t e s, (env.onError .process t e s).2 = .ignore ∧ view (env.onError .process t e s).1 = view s
  monCL : ∀ md s, view (env.monCL md s).1 = view s
  log : ∀ f, env.log = some f → ∀ s cl s', f s cl = .ok s' → view s' = view s

/-- The application of the robot runs these machines. -/
structure Drives (read : Msg P → Option Q) (env : Env σ P) (plan : List Step) (view : σ → Nat → S) (m : Tasks S Q) :
    Prop where
  runs : env.sim = none
  calm : Calm env view
  life : ∀ ph t s, ph = .preprocess ∨ ph = .postprocess → (env.life ph t s).2 = none ∧ view (env.life ph t s).1 = view s
  process : ∀ step ∈ plan, RunsAs read env view m step.taskType step.nodeId

/-- What is read of the message after the answer of the callback that it did the step, or that it failed. -/
def simSent (read : Msg P → Option Q) (r : σ × Msg P × SimOverride) : Option Q :=
  match r.2.2 with
  | .errored _ => read r.2.1.clearPayload
  | _ => read r.2.1

/-- The simulated application runs these machines: for each step, either the callback takes the turn of the machine, in
the state that is seen of it and in the message it is given (not looking at what is there), or it changes nothing that
is seen and leaves the step to the runtime, whose task is the machine. -/
structure Simulates (read : Msg P → Option Q) (env : Env σ P) (sim : Sim σ P) (plan : List Step) (view : σ → Nat → S)
    (m : Tasks S Q) : Prop where
  runs : env.sim = some sim
  calm : Calm env view
  life : ∀ ph t s, ph = .preprocess ∨ ph = .postprocess → view (sim.life ph t s).1 = view s ∧
    ((sim.life ph t s).2 = .executedBySim ∨ (sim.life ph t s).2 = .executeByRuntime ∧
      ∀ s', (env.life ph t s').2 = none ∧ view (env.life ph t s').1 = view s')
  process : ∀ step ∈ plan, ∀ ins out s, (step.taskType = .source → ins = []) →
    let t := step.nodeId
    let r := sim.process t ins out s
    (r.2.2 ≠ .executeByRuntime ∧
      view r.1 = update (view s) t (m.next t (view s t) (ins.map read)).1 ∧
      (step.taskType ≠ .sink → simSent read r = (m.next t (view s t) (ins.map read)).2)) ∨
    (r.2.2 = .executeByRuntime ∧ view r.1 = view s ∧ RunsAs read env view m step.taskType t)

/-- A task that receives and sends: neither a driver of a sensor nor one of an actuator. -/
def Inner (g : Graph) (t : Nat) : Prop := (∃ e ∈ g.edges, e.dst = t) ∧ ∃ e ∈ g.edges, e.src = t

/-- A task that only sends. -/
def Sensor (g : Graph) (t : Nat) : Prop := (∀ e ∈ g.edges, e.dst ≠ t) ∧ ∃ e ∈ g.edges, e.src = t

end Dataflow
end Verif
