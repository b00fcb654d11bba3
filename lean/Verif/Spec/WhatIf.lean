import Verif.Spec.Simulated
import Verif.Spec.Replay
/-!
What a replay with other code means: the sensors send what is in the log, the tasks behind them are the machines of the
new code.
-/
namespace Verif
namespace Dataflow
open Clock CopperList Planner Verif.Runtime
variable {σ S P Q : Type}

/-- In turn `n` sensor `t` sends `fed n t`, and every task which receives and sends does what its machine says. -/
structure FedSolution (g : Graph) (m : Tasks S Q) (fed : Nat → Nat → Option Q) (x : Nat → Nat → S)
    (y : Nat → Nat → Option Q) : Prop where
  init : ∀ t, Inner g t → x 0 t = m.init t
  fed : ∀ n t, Sensor g t → y n t = fed n t
  turn : ∀ n t, Inner g t →
    (x (n + 1) t, y n t) = m.next t (x n t) ((g.edges.filter (fun e => e.dst == t)).map (fun e => y n e.src))

/-- The replaying application has these machines for the tasks that are neither sources nor sinks. -/
structure Rebuilt (read : Msg P → Option Q) (r : Replayer σ P) (view : σ → Nat → S) (m : Tasks S Q) : Prop where
  calm : Calm r.app.env view
  life : ∀ ph t s, ph = .preprocess ∨ ph = .postprocess →
    (r.app.env.life ph t s).2 = none ∧ view (r.app.env.life ph t s).1 = view s
  process : ∀ step ∈ r.app.plan, step.taskType = .regular → RunsAs read r.app.env view m .regular step.nodeId
  clock : ∀ msgs s, view (r.setClock msgs s) = view s

/-- A task that receives, directly or through others, what one of the changed tasks sends, or is one. -/
def Behind (g : Graph) (changed : Nat → Prop) (t : Nat) : Prop := ∃ u, changed u ∧ Reaches g u t

end Dataflow
end Verif
