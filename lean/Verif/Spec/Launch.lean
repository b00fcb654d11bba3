import Verif.Model.Launch
/-!
What a user expects of the start of an application.
-/
namespace Verif
namespace Launch
namespace Spec
open Config
variable {C T M : Type}

/-- The parameters the configuration gives to the task of this name. -/
def paramsOf (c : CuConfig C) (id : String) : Option C := (c.nodes.find? (·.id == id)).bind (·.config)

/-- In a simulation the components of sources and sinks are not used. -/
def usesComponent (sim : Bool) (t : Task) : Bool :=
  match sim, t.sim with
  | true, .src _ => false
  | true, .sink _ => false
  | _, _ => true

/-- The constructors that are to be called, each with the parameters of its task. -/
def wanted (sim : Bool) (c : CuConfig C) (ts : List Task) : List (String × Option C) :=
  (ts.filter (usesComponent sim)).map fun t => (t.type_, paramsOf c t.id)

/-- The task of the application is the component made with its parameters, or the placeholder. -/
def Made (p : Parts C T M) (sim : Bool) (c : CuConfig C) (t : Task) (x : Inst T) : Prop :=
  match sim, t.sim with
  | true, .src m => x = .src m
  | true, .sink m => x = .sink m
  | _, _ => ∃ y, p.task t.type_ (paramsOf c t.id) = .ok y ∧ x = .real y

/-- The configuration begins with the tasks the application was compiled with, and names are distinct. -/
def SameTasks (k : Compiled C) (c : CuConfig C) : Prop :=
  (∃ more, c.nodes.map (·.id) = k.tasks.map (·.id) ++ more) ∧ (c.nodes.map (·.id)).Nodup

/-- The connections into and out of a task decide what stands for it in a simulation. -/
def Stands (c : CuConfig C) (i : Nat) (s : SimTy) : Prop :=
  ((∀ e ∈ c.edges, e.dst ≠ i) → ∃ e ∈ c.edges, e.src = i ∧ s = .src e.cnx.msg) ∧
  ((∃ e ∈ c.edges, e.dst = i) → (∀ e ∈ c.edges, e.src ≠ i) → ∃ e ∈ c.edges, e.dst = i ∧ s = .sink e.cnx.msg) ∧
  ((∃ e ∈ c.edges, e.dst = i) → (∃ e ∈ c.edges, e.src = i) → s = .real)

end Spec
end Launch
end Verif
