import Verif.Model.Runtime
import Verif.Spec.Graph
/-!
What a configuration means, without a runtime: every task is a machine with a state of its own, which in each turn
takes what its producers have sent in the same turn, in the order of its connections, and sends something or nothing.
-/
namespace Verif
namespace Dataflow
open Clock CopperList Planner Verif.Runtime
variable {σ S P : Type}

/-- The tasks of an application: `init t` is the state in which task `t` is created, `next t` what it does in a turn
with its state and what it receives.  What a source receives from outside is in its state. -/
structure Tasks (S P : Type) where
  init : Nat → S
  next : Nat → S → List (Option P) → S × Option P

/-- `x n t` is the state of task `t` before turn `n`, `y n t` what it sends in turn `n`. -/
structure Solution (g : Graph) (m : Tasks S P) (x : Nat → Nat → S) (y : Nat → Nat → Option P) : Prop where
  init : ∀ t < g.nodes, x 0 t = m.init t
  turn : ∀ n, ∀ t < g.nodes,
    (x (n + 1) t, y n t) = m.next t (x n t) ((g.edges.filter (fun e => e.dst == t)).map (fun e => y n e.src))

/-- The state of one task changes. -/
def update (f : Nat → S) (t : Nat) (s : S) : Nat → S := fun u => if u = t then s else f u

/-- What is in the message a task leaves: nothing after an error. -/
def sent (r : σ × Msg P × Option Err) : Option P := if r.2.2.isSome then none else r.2.1.payload

/-- The tasks of an application are these machines: a task looks at the payloads it is given and at its own state,
and changes nothing else.  A task may fail, as long as the monitor says that the error be ignored. -/
structure Implements (env : Env σ P) (view : σ → Nat → S) (m : Tasks S P) : Prop where
  sim : env.sim = none
  now : ∀ s, view (env.now s).1 = view s
  life : ∀ ph t s, ph = .preprocess ∨ ph = .postprocess → (env.life ph t s).2 = none ∧ view (env.life ph t s).1 = view s
  source : ∀ t out s, view (env.source t out s).1 = update (view s) t (m.next t (view s t) []).1 ∧
    sent (env.source t out s) = (m.next t (view s t) []).2
  regular : ∀ t ins out s,
    view (env.regular t ins out s).1 = update (view s) t (m.next t (view s t) (ins.map Msg.payload)).1 ∧
    sent (env.regular t ins out s) = (m.next t (view s t) (ins.map Msg.payload)).2
  sink : ∀ t ins s, view (env.sink t ins s).1 = update (view s) t (m.next t (view s t) (ins.map Msg.payload)).1
  ignores : ∀ t e s, (env.onError .process t e s).2 = .ignore ∧ view (env.onError .process t e s).1 = view s
  monCL : ∀ md s, view (env.monCL md s).1 = view s
  log : ∀ f, env.log = some f → ∀ s cl s', f s cl = .ok s' → view s' = view s

/-- Two configurations of the same tasks: `p t` is the place in `g'` of the task declared at `t` in `g`, and each
task has the same connections, in the same order among themselves. -/
structure Rearranged (g g' : Graph) (m m' : Tasks S P) (p : Nat → Nat) : Prop where
  nodes : g'.nodes = g.nodes
  lt : ∀ t < g.nodes, p t < g.nodes
  inj : ∀ t < g.nodes, ∀ u < g.nodes, p t = p u → t = u
  tasks : ∀ t < g.nodes, m'.init (p t) = m.init t ∧ m'.next (p t) = m.next t
  edges : ∀ t < g.nodes, (g'.edges.filter (fun e => e.dst == p t)).map Edge.src =
    (g.edges.filter (fun e => e.dst == t)).map (fun e => p e.src)

/-- What leaves task `u` may reach task `t`. -/
inductive Reaches (g : Graph) (u : Nat) : Nat → Prop
  | self : Reaches g u u
  | step {e : Edge} : Reaches g u e.src → e ∈ g.edges → Reaches g u e.dst

/-- What is read in a copper list of the message of task `t`: it is where the plan has the task. -/
def sentBy {Q : Type} (read : Msg P → Q) (plan : List Step) (t : Nat) (cl : CL (List (Msg P))) : Option Q :=
  (cl.msgs[(plan.map Step.nodeId).idxOf t]?).map read

/-- The payload task `t` left in a copper list: it is where the plan has the task. -/
def payloadOf (plan : List Step) (t : Nat) (cl : CL (List (Msg P))) : Option (Option P) :=
  (cl.msgs[(plan.map Step.nodeId).idxOf t]?).map Msg.payload

end Dataflow
end Verif
