import Verif.Spec.MspResponses
import Verif.Props.MspTasks
/-!
Lemmas for `Props/MspResponses`.
-/
namespace Verif
namespace Msp
variable {S : RespKind → Type}

theorem kindOf_code {n : Nat} {k : RespKind} (h : kindOf n = some k) : k.code = n := by
  unfold kindOf at h
  split at h <;> first | (cases h; rfl) | cases h

theorem code_kindOf (k : RespKind) : kindOf k.code = some k ↔ ¬ Shadowed k := by
  cases k <;> simp [RespKind.code, kindOf, Shadowed]

theorem code_known (k : RespKind) : codes.contains k.code = true ∧ k.code < 65536 := by
  cases k <;> decide

end Msp
end Verif
