import Verif.Model.Config
/-! What a program does to build a configuration, and what the names of its connections should be. -/
namespace Verif
namespace Config
variable {C : Type}

/-- The configurations a program can build: start from the default, add tasks, connect them, change
the type or the parameters of a task, set the monitor and the logging settings. -/
inductive Built : CuConfig C → Prop
  | default : Built CuConfig.default
  | node {c : CuConfig C} (n : Node C) : Built c → Built (c.addNode n)
  | connect {c c' : CuConfig C} (s t : Nat) (msg : String) (batch : Option UInt32) (store : Option Bool) :
      Built c → c.connectExt s t msg batch store = .ok c' → Built c'
  | edit {c c' : CuConfig C} (i : Nat) (n n' : Node C) :
      Built c → c.nodes[i]? = some n → n'.id = n.id → c.setNode i n' = .ok c' → Built c'
  | monitor {c : CuConfig C} (m : Option (MonitorConfig C)) : Built c → Built { c with monitor := m }
  | logging {c : CuConfig C} (l : Option LoggingConfig) : Built c → Built { c with logging := l }

/-- No two tasks have the same name. -/
def DistinctNames (c : CuConfig C) : Prop := (c.nodes.map (·.id)).Nodup

/-- The log sections fit the slabs, as far as the configuration says. -/
def SectionFits (l : LoggingConfig) : Prop :=
  ∀ sec slab : UInt64, l.sectionSizeMib = some sec → l.slabSizeMib = some slab → sec.toNat ≤ slab.toNat

end Config
end Verif
