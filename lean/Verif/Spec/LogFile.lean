import Verif.Model.LogFile
import Verif.Spec.LogLine
/-! Specification for C106: what a log file holds. -/
namespace Verif
namespace LogFile
open Bincode

/-- The entries logged. -/
def entriesOf : List Call → List LogEntry
  | [] => []
  | .log e _ :: cs => e :: entriesOf cs
  | .flush :: cs => entriesOf cs

/-- The pieces of each entry are those of its encoding, cut anywhere, and it can be encoded. -/
def Encoded : List Call → Prop
  | [] => True
  | .log e pieces :: cs => pieces.flatten = enc e ∧ e.Legal ∧ Encoded cs
  | .flush :: cs => Encoded cs

/-- No call of `log` returned an error. -/
def Accepted : List Call → List Res → Prop
  | .log _ _ :: cs, r :: rs => r ≠ .err ∧ Accepted cs rs
  | .flush :: cs, _ :: rs => Accepted cs rs
  | _, _ => True

/-- A disk on which writes get on. -/
def Sound (plan : List Outcome) : Prop := ∀ o ∈ plan, o = .interrupted ∨ ∃ n, 0 < n ∧ o = .wrote n

end LogFile
end Verif
