import Verif.Model.Planner
/-! Specification vocabulary for task graphs. -/
namespace Verif
namespace Planner

/-- Connections relate existing tasks. -/
def Graph.WF (g : Graph) : Prop := ∀ e ∈ g.edges, e.src < g.nodes ∧ e.dst < g.nodes

instance (g : Graph) : Decidable g.WF := by unfold Graph.WF; infer_instance

/-- `v` is a task with no connection at all. -/
def Graph.Isolated (g : Graph) (v : Nat) : Prop :=
  v < g.nodes ∧ ∀ e ∈ g.edges, e.src ≠ v ∧ e.dst ≠ v

/-- The tasks all of whose transitive producers chains are finite: the task exists and every
task it receives messages from is itself such a task.  These are the tasks that do not sit on,
or behind, a cycle. -/
inductive Graph.Runnable (g : Graph) : Nat → Prop
  | intro (v : Nat) (hv : v < g.nodes)
      (h : ∀ e ∈ g.edges, e.dst = v → Graph.Runnable g e.src) : Graph.Runnable g v

/-- A graph is acyclic when its tasks can be ranked so that every connection goes up. -/
def Graph.Acyclic (g : Graph) : Prop := ∃ rank : Nat → Nat, ∀ e ∈ g.edges, rank e.src < rank e.dst

/-- `w` can be reached from `v` along connections. -/
inductive Graph.Reach (g : Graph) : Nat → Nat → Prop
  | refl (v : Nat) : Graph.Reach g v v
  | tail {v u : Nat} (e : Edge) (he : e ∈ g.edges) (hs : Graph.Reach g v u) (h : e.src = u) :
      Graph.Reach g v e.dst

/-- No two connections join the same pair of tasks. -/
def Graph.NoParallel (g : Graph) : Prop :=
  g.edges.Pairwise (fun a b => ¬ (a.src = b.src ∧ a.dst = b.dst))

instance (g : Graph) : Decidable g.NoParallel := by unfold Graph.NoParallel; infer_instance

/-- All the connections leaving a task carry the same message type. -/
def Graph.ConsistentTypes (g : Graph) : Prop :=
  ∀ a ∈ g.edges, ∀ b ∈ g.edges, a.src = b.src → a.msg = b.msg

instance (g : Graph) : Decidable g.ConsistentTypes := by unfold Graph.ConsistentTypes; infer_instance

end Planner
end Verif
