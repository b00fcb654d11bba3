import Verif.Model.LogRuntime
/-! Vocabulary of C61: threads that log text lines. -/
namespace Verif
namespace LogRt

/-- A thread ends a call before its next one; `busy` are the threads inside a call. -/
def Sequential : List Nat → List Act → Prop
  | _, [] => True
  | busy, .stamp th _ _ :: as => th ∉ busy ∧ Sequential (th :: busy) as
  | busy, .write th :: as => th ∈ busy ∧ Sequential (busy.filter (· != th)) as
  | busy, _ :: as => Sequential busy as

/-- The entries logged by a thread, in the order of its calls, each with the time that the clock of
the process shows at the call.  `clock` is the clock of the process, if any: calls before the first
`init` have no effect but their error. -/
def callsOf (th : Nat) : Option Nat → List Act → List LogEntry
  | _, [] => []
  | none, .init c _ :: as => callsOf th (some c) as
  | some c, .init _ _ :: as => callsOf th (some c) as
  | clock, .drop :: as => callsOf th clock as
  | clock, .write _ :: as => callsOf th clock as
  | none, .stamp _ _ _ :: as => callsOf th none as
  | some c, .stamp t e now :: as =>
    (if t = th then [{ e with time := now c }] else []) ++ callsOf th (some c) as

/-- The clock of a process does not go backwards (`lo` is the last time seen). -/
def Forward : Option Nat → UInt64 → List Act → Prop
  | _, _, [] => True
  | none, lo, .init c _ :: as => Forward (some c) lo as
  | some c, lo, .stamp _ _ now :: as => lo ≤ now c ∧ Forward (some c) (now c) as
  | clock, lo, _ :: as => Forward clock lo as

/-- The clock of a process: that of its first `init`. -/
def firstClock : List Act → Option Nat
  | [] => none
  | .init c _ :: _ => some c
  | _ :: as => firstClock as

/-- Times in order. -/
def InOrder (l : List LogEntry) : Prop := l.Pairwise (fun a b => a.time ≤ b.time)

/-- No destination is set or dropped. -/
def Steady (as : List Act) : Prop := ∀ a ∈ as, (∀ c w, a ≠ .init c w) ∧ a ≠ .drop

end LogRt
end Verif
