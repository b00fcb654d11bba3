import Verif.Spec.Runtime
/-! Contracts: what the tasks of an application promise of their messages. -/
namespace Verif
namespace Runtime
open Clock CopperList Planner
variable {σ P : Type}

/-- The messages of a list, each as its slot requires. -/
def Holds (n : Nat) (Q : Nat → Msg P → Prop) (msgs : List (Msg P)) : Prop :=
  msgs.length = n ∧ ∀ i m, msgs[i]? = some m → Q i m

/-- What can be seen of a run: a task, or the simulation in its place, is given inputs as their slots require; it
leaves an output as its slot requires; and so are all the messages of a list that is logged. -/
def Ev.Holds (plan : List Step) (n : Nat) (Q : Nat → Msg P → Prop) : Ev P → Prop
  | .called .process t ins _ => ∃ step ∈ plan, step.nodeId = t ∧ Pointwise (fun i m => Q i.1 m) step.inputs ins
  | .asked .process t ins _ => ∃ step ∈ plan, step.nodeId = t ∧ Pointwise (fun i m => Q i.1 m) step.inputs ins
  | .left t m => ∃ step ∈ plan, step.nodeId = t ∧ ∃ o ty, step.output = some (o, ty) ∧ Q o m
  | .logged cl => Runtime.Holds n Q cl.msgs
  | _ => True

/-- The monitor, its log and its clock keep `I` of the state of an application, and so do the steps of the tasks other
than processing.  The requirements do not depend on the times the runtime notes in a message. -/
structure Unheard (app : App σ P) (I : σ → Prop) (Q : Nat → Msg P → Prop) : Prop where
  now : ∀ s, I s → I (app.env.now s).1
  life : ∀ ph t s, I s → I (app.env.life ph t s).1
  onError : ∀ ph t e s, I s → I (app.env.onError ph t e s).1
  monCL : ∀ md s, I s → I (app.env.monCL md s).1
  monStart : ∀ s, I s → I (app.env.monStart s).1
  monStop : ∀ s, I s → I (app.env.monStop s).1
  log : ∀ f, app.env.log = some f → ∀ s cl s', I s → f s cl = .ok s' → I s'
  simLife : ∀ sim, app.env.sim = some sim → ∀ ph t s, I s → I (sim.life ph t s).1
  times : ∀ o m (t : CuTime), Q o m → Q o (m.setStart t) ∧ Q o (m.setStop t)

/-- What a task, or the simulation in its place, leaves in its message is as the slot requires when it succeeds, if the
messages it is given are, the one it finds in its own slot included; when it fails, what is left is as the slot
requires once its payload is removed. -/
structure Promises (app : App σ P) (I : σ → Prop) (Q : Nat → Msg P → Prop) : Prop extends Unheard app I Q where
  call : ∀ step ∈ app.plan, ∀ o ty, step.output = some (o, ty) → ∀ ins out s, I s →
    Pointwise (fun (i : Nat × String) m => Q i.1 m) step.inputs ins → Q o out →
      let r := callProcess app.env step ins out s
      I r.1 ∧ (r.2.2 = none → Q o r.2.1) ∧ (r.2.2 ≠ none → Q o r.2.1.clearPayload)
  simCall : ∀ sim, app.env.sim = some sim → ∀ step ∈ app.plan, ∀ o ty, step.output = some (o, ty) → ∀ ins out s, I s →
    Pointwise (fun (i : Nat × String) m => Q i.1 m) step.inputs ins → Q o out →
      let r := sim.process step.nodeId ins out s
      I r.1 ∧ ((∀ e, r.2.2 ≠ .errored e) → Q o r.2.1) ∧ (∀ e, r.2.2 = .errored e → Q o r.2.1.clearPayload)

/-- The monitor decides to go on after any error of a task that is processing. -/
def Forgiving (app : App σ P) (I : σ → Prop) : Prop := ∀ t e s, I s → (app.env.onError .process t e s).2 = .ignore

/-- What a task, or the simulation in its place, leaves in its message is as the slot requires whether it succeeds or
not, if the messages it is given are; and a message without payload may be in any slot. -/
structure Keeps (app : App σ P) (I : σ → Prop) (Q : Nat → Msg P → Prop) : Prop extends Unheard app I Q where
  call : ∀ step ∈ app.plan, ∀ o ty, step.output = some (o, ty) → ∀ ins out s, I s →
    Pointwise (fun (i : Nat × String) m => Q i.1 m) step.inputs ins → Q o out →
      I (callProcess app.env step ins out s).1 ∧ Q o (callProcess app.env step ins out s).2.1
  simCall : ∀ sim, app.env.sim = some sim → ∀ step ∈ app.plan, ∀ o ty, step.output = some (o, ty) → ∀ ins out s, I s →
    Pointwise (fun (i : Nat × String) m => Q i.1 m) step.inputs ins → Q o out →
      I (sim.process step.nodeId ins out s).1 ∧ Q o (sim.process step.nodeId ins out s).2.1
  cleared : ∀ o m, Q o m → Q o m.clearPayload

end Runtime
end Verif
