import Verif.Model.FreshList
/-! What C71 is about: tasks which write nothing. -/
namespace Verif
namespace Runtime
open Clock CopperList Planner

/-- A task which does not fail and leaves its output message alone. -/
def Quiet {σ P : Type} (env : Env σ P) (step : Step) : Prop :=
  ∀ ins out s, (callProcess env step ins out s).2.1 = out ∧ (callProcess env step ins out s).2.2 = none

end Runtime
end Verif
