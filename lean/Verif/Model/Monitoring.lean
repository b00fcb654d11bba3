import Verif.Model.Basic
/-!
Live statistics: core/cu29_runtime/src/monitoring.rs:191-356.  The histogram itself is that of the crate
`hdrhistogram` (trusted), with three significant digits: 2048 sub-buckets, values below 2048 counted
exactly, the others by buckets of a power of two.  Simplifications: counters do not saturate, and a mean
is the exact quotient rounded down, where the code adds floating point terms and truncates.
-/
namespace Verif
namespace Monitoring

/-! ### `hdrhistogram` -/

/-- Log of the size of the bucket of a value. -/
def shift (v : Nat) : Nat := Nat.log2 v - 10
/-- `lowest_equivalent`. -/
def lowest (v : Nat) : Nat := v / 2 ^ shift v * 2 ^ shift v
/-- `highest_equivalent`. -/
def highest (v : Nat) : Nat := lowest v + 2 ^ shift v - 1
/-- `median_equivalent`. -/
def median (v : Nat) : Nat := lowest v + 2 ^ shift v / 2

/-- `Histogram<u64>`: the values it was given, and how far it reaches: values below `2048 * 2 ^ n`, or
anything (`auto_resize`). -/
structure Hist where
  reach : Option Nat
  seen : List Nat
  deriving DecidableEq, Repr

/-- The number of doublings of 2048 needed to be above `max`. -/
def doublings (max : Nat) : Nat := Nat.log2 max - 10

/-- `Histogram::new_with_bounds(1, max, 3).unwrap()`: an error unless `max` is at least 2. -/
def Hist.newWithBounds (max : Nat) : Rs Hist := if 2 ≤ max then .ok ⟨some (doublings max), []⟩ else .panic

/-- `Histogram::record`: `none` is the error. -/
def Hist.record (h : Hist) (v : Nat) : Option Hist :=
  match h.reach with
  | none => some { h with seen := h.seen ++ [v] }
  | some n => if v < 2048 * 2 ^ n then some { h with seen := h.seen ++ [v] } else none

/-- `Histogram::reset`. -/
def Hist.reset (h : Hist) : Hist := { h with seen := [] }
/-- `Histogram::len`. -/
def Hist.len (h : Hist) : Nat := h.seen.length
/-- `Histogram::min`: zero when empty. -/
def Hist.min (h : Hist) : Nat := lowest (h.seen.min?.getD 0)
/-- `Histogram::max`: zero when empty. -/
def Hist.max (h : Hist) : Nat := highest (h.seen.max?.getD 0)
/-- `Histogram::mean() as u64`: zero when empty. -/
def Hist.mean (h : Hist) : Nat := (h.seen.map median).sum / h.seen.length

/-! ### `LiveStatistics` -/

/-- `LiveStatistics` (monitoring.rs:193-195). -/
abbrev Live := Hist

/-- `new_unbounded` (monitoring.rs:198-202). -/
def Live.newUnbounded : Live := ⟨none, []⟩
/-- `new_with_max` (monitoring.rs:204-208). -/
def Live.newWithMax (max : Nat) : Rs Live := Hist.newWithBounds max
/-- `record` (monitoring.rs:232-237): an error is only logged. -/
def Live.record (s : Live) (v : Nat) : Live := (Hist.record s v).getD s

/-! ### `CuDurationStatistics` -/

/-- `CuDurationStatistics` (monitoring.rs:258-262). -/
structure DurStats where
  bare : Live
  jitter : Live
  last : Nat
  deriving DecidableEq, Repr

/-- `CuDurationStatistics::new` (monitoring.rs:265-272). -/
def DurStats.new (max : Nat) : Rs DurStats := do
  let b ← Live.newWithMax max
  let j ← Live.newWithMax max
  pure ⟨b, j, 0⟩

/-- `u64::abs_diff`. -/
def absDiff (a b : Nat) : Nat := if a < b then b - a else a - b

/-- `record` (monitoring.rs:335-350). -/
def DurStats.record (s : DurStats) (v : Nat) : Rs DurStats :=
  if s.bare.len == 0 then
    match Hist.record s.bare v with
    | none => .panic
    | some b => .ok ⟨b, s.jitter, v⟩
  else
    match Hist.record s.bare v with
    | none => .panic
    | some b =>
      match Hist.record s.jitter (absDiff v s.last) with
      | none => .panic
      | some j => .ok ⟨b, j, v⟩

/-- `reset` (monitoring.rs:352-355): the last value is kept. -/
def DurStats.reset (s : DurStats) : DurStats := { s with bare := s.bare.reset, jitter := s.jitter.reset }

/-! ### Histories -/

/-- What a monitor does with its statistics. -/
inductive Op
  | record (v : Nat)
  | reset
  deriving DecidableEq, Repr

/-- One operation. -/
def DurStats.step (s : DurStats) : Op → Rs DurStats
  | .record v => s.record v
  | .reset => .ok s.reset

/-- Any sequence of operations. -/
def DurStats.run (s : DurStats) : List Op → Rs DurStats
  | [] => .ok s
  | o :: os =>
    match s.step o with
    | .panic => .panic
    | .ok s => s.run os

/-- Any sequence of operations on `LiveStatistics`. -/
def Live.run (s : Live) : List Op → Live
  | [] => s
  | .record v :: os => Live.run (Live.record s v) os
  | .reset :: os => Live.run (Hist.reset s) os

end Monitoring
end Verif
