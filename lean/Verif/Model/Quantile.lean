import Mathlib.Data.Rat.Floor
import Mathlib.Data.Nat.Sqrt
import Mathlib.Data.List.Sort
import Verif.Model.Monitoring
/-!
Percentiles and standard deviations: core/cu29_runtime/src/monitoring.rs:225-228, 289-332.  The
histogram is that of the crate `hdrhistogram` (trusted).  Simplification: what the code computes in
floating point is exact here, and so is rounded down only once, at the end.
-/
namespace Verif
namespace Monitoring

/-- The buckets of a histogram, in increasing order: the lowest values of those with a count. -/
def Hist.buckets (h : Hist) : List Nat := ((h.seen.map lowest).insertionSort (· ≤ ·)).dedup

/-- `counts[i]`. -/
def Hist.countAt (h : Hist) (b : Nat) : Nat := h.seen.countP (fun v => lowest v == b)

/-- The loop of `Histogram::value_at_quantile`: the first bucket with which `target` values are
reached. -/
def Hist.findBucket (h : Hist) (target : Nat) : List Nat → Nat → Option Nat
  | [], _ => none
  | b :: bs, total => if total + h.countAt b ≥ target then some b else h.findBucket target bs (total + h.countAt b)

/-- `Histogram::value_at_quantile`: zero when empty. -/
def Hist.valueAtQuantile (h : Hist) (quantile : Rat) : Nat :=
  let quantile := if quantile > 1 then 1 else quantile
  let target := (quantile * h.len).ceil.toNat
  let target := if target = 0 then 1 else target
  match h.findBucket target h.buckets 0 with
  | some b => if quantile = 0 then lowest b else highest b
  | none => 0

/-- `Histogram::mean`, not rounded. -/
def Hist.exactMean (h : Hist) : Rat := ((h.seen.map median).sum : Nat) / (h.seen.length : Rat)

/-- The square of `Histogram::stdev`. -/
def Hist.variance (h : Hist) : Rat :=
  if h.len = 0 then 0
  else (h.seen.map fun v => ((median v : Rat) - h.exactMean) * ((median v : Rat) - h.exactMean)).sum / h.len

/-- `Histogram::stdev() as u64`. -/
def Hist.stdev (h : Hist) : Nat := Nat.sqrt h.variance.floor.toNat

/-- `percentile` (monitoring.rs:289-292). -/
def DurStats.percentile (s : DurStats) (p : Rat) : Nat := s.bare.valueAtQuantile p
/-- `stddev` (monitoring.rs:294-297). -/
def DurStats.stddev (s : DurStats) : Nat := s.bare.stdev
/-- `jitter_stddev` (monitoring.rs:324-327). -/
def DurStats.jitterStddev (s : DurStats) : Nat := s.jitter.stdev
/-- `jitter_percentile` (monitoring.rs:329-332). -/
def DurStats.jitterPercentile (s : DurStats) (p : Rat) : Nat := s.jitter.valueAtQuantile p

end Monitoring
end Verif
