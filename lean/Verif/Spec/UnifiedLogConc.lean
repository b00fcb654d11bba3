import Verif.Model.UnifiedLogConc
/-!
Vocabulary of C60: interleavings of the actions of threads, and what they look like to their users.
-/
namespace Verif
namespace ULog

/-- Interleavings of calls: `busy` are the streams with a call of `log` under way.  The owner of a
stream waits for the end of a call before the next one, or before it drops the stream. -/
def Interleaved : List Nat → List ConcOp → Prop
  | _, [] => True
  | busy, .openStream _ _ :: ops => Interleaved busy ops
  | busy, .begin_ i _ :: ops => i ∉ busy ∧ Interleaved (i :: busy) ops
  | busy, .finish i :: ops => i ∈ busy ∧ Interleaved (busy.filter (· != i)) ops
  | busy, .drop i :: ops => i ∉ busy ∧ Interleaved busy ops

/-- The streams with a call under way after these actions. -/
def busyAfter : List Nat → List ConcOp → List Nat
  | busy, [] => busy
  | busy, .openStream _ _ :: ops => busyAfter busy ops
  | busy, .begin_ i _ :: ops => busyAfter (i :: busy) ops
  | busy, .finish i :: ops => busyAfter (busy.filter (· != i)) ops
  | busy, .drop _ :: ops => busyAfter busy ops

/-- The calls made, in the order in which they begin. -/
def calls : List ConcOp → List LogOp
  | [] => []
  | .openStream t n :: ops => .openStream t n :: calls ops
  | .begin_ i obj :: ops => .log i obj :: calls ops
  | .finish _ :: ops => calls ops
  | .drop i :: ops => .drop i :: calls ops

end ULog
end Verif
