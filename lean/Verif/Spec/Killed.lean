import Verif.Model.UnifiedLogKill
import Verif.Spec.CrashExport
import Verif.Model.Wire
/-!
Vocabulary of C94: decoders that read their input from the front.
-/
namespace Verif

/-- A decoder that takes what it needs from the front of its input and nothing else: more input does
not change what it finds.  True of any `Decode` implementation that only uses bincode's reader. -/
def Dec.Sequential {α : Type} (d : Dec α) : Prop :=
  ∀ (x y r : Bytes) (a : α), d x = .ok (a, r) → d (x ++ y) = .ok (a, r ++ y)

end Verif
