import Verif.Model.Wire
import Verif.Model.Export
import Verif.Model.Runtime
import Verif.Spec.UnifiedLog
/-!
Vocabulary of C23: an application whose copper lists go to a stream of a unified log that the rest
of the application may use too.
-/
namespace Verif
namespace Runtime
open Bincode CopperList
variable {σ P : Type}

/-- The operations `h'` follow the operations `h`, and the new ones leave the stream `k` alone. -/
def Leaves (k : Nat) (h h' : List ULog.LogOp) : Prop :=
  ∃ ops, h' = h ++ ops ∧ .drop k ∉ ops ∧ ∀ obj, .log k obj ∉ ops

/-- The environment of an application that writes its copper lists to the stream `k` of a unified
log.  `hist` is what has been done with the log so far.  Logging a list is one operation on this
stream, of the pieces its encoder produces; everything else (tasks and monitor with their text logs,
other streams) may use the log but not this stream. -/
structure LogsTo (env : Env σ P) (hist : σ → List ULog.LogOp) (k : Nat)
    (pieces : CL (List (Msg P)) → List Bytes) : Prop where
  log : ∃ f, env.log = some f ∧
    ∀ s cl s', f s cl = .ok s' → hist s' = hist s ++ [.log k (pieces cl)]
  now : ∀ s, Leaves k (hist s) (hist (env.now s).1)
  life : ∀ ph t s, Leaves k (hist s) (hist (env.life ph t s).1)
  source : ∀ t m s, Leaves k (hist s) (hist (env.source t m s).1)
  regular : ∀ t ins m s, Leaves k (hist s) (hist (env.regular t ins m s).1)
  sink : ∀ t ins s, Leaves k (hist s) (hist (env.sink t ins s).1)
  onError : ∀ ph t e s, Leaves k (hist s) (hist (env.onError ph t e s).1)
  monCL : ∀ md s, Leaves k (hist s) (hist (env.monCL md s).1)
  monStart : ∀ s, Leaves k (hist s) (hist (env.monStart s).1)
  monStop : ∀ s, Leaves k (hist s) (hist (env.monStop s).1)
  simLife : ∀ sim, env.sim = some sim → ∀ ph t s, Leaves k (hist s) (hist (sim.life ph t s).1)
  simProcess : ∀ sim, env.sim = some sim → ∀ t ins m s,
    Leaves k (hist s) (hist (sim.process t ins m s).1)

/-- After the operations `h`, the stream `k` is the copper list stream, nothing has been logged on
it, and no other stream was used for copper lists before. -/
def StreamReady (k : Nat) : List (Option (ULog.EntryType × Nat)) → List ULog.LogOp → Prop
  | live, [] => ∃ n, live[k]? = some (some (.copperList, n))
  | live, .openStream t n :: ops => StreamReady k (live ++ [some (t, n)]) ops
  | live, .log i _ :: ops => (∀ n, live[i]? ≠ some (some (.copperList, n))) ∧ StreamReady k live ops
  | live, .drop i :: ops =>
    (∀ n, live[i]? ≠ some (some (.copperList, n))) ∧ StreamReady k (live.set i none) ops

/-- The messages of a list are of the types of its slots, which are read back as written. -/
def Typed (slots : List (Codec P)) (cl : CL (List (Msg P))) : Prop :=
  Pointwise (fun c m => (∀ p, m.payload = some p → ∀ rest, c.dec (c.enc p ++ rest) = .ok (p, rest)) ∧
    m.md.statusTxt.utf8ByteSize < 18446744073709551616) slots cl.msgs

end Runtime
end Verif
