import Verif.Spec.UnifiedLogConc
import Verif.Model.UnifiedLogKillConc
/-!
Vocabulary of C96: which stream an action of a thread is about.
-/
namespace Verif
namespace ULog

/-- The stream an action is about, if it has one already. -/
def ConcOp.stream : ConcOp → Option Nat
  | .openStream _ _ => none
  | .begin_ i _ => some i
  | .finish i => some i
  | .drop i => some i

end ULog
end Verif
