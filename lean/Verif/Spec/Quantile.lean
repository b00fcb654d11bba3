import Mathlib.Data.Rat.Floor
import Mathlib.Data.Real.Sqrt
import Verif.Spec.Monitoring
/-! What a percentile and a standard deviation are. -/
namespace Verif
namespace Monitoring

/-- `m` is a sample such that at least the fraction `q` of the samples is at most `m`, and no smaller
sample is such. -/
def IsQuantile (l : List Nat) (q : Rat) (m : Nat) : Prop :=
  m ∈ l ∧ q * l.length ≤ l.countP (· ≤ m) ∧ ∀ x ∈ l, q * l.length ≤ l.countP (· ≤ x) → m ≤ x

/-- The mean of some numbers. -/
noncomputable def meanOf (l : List Nat) : ℝ := (l.map fun (v : Nat) => (v : ℝ)).sum / l.length

/-- The standard deviation of some numbers: the root of the mean of the squares of the deviations. -/
noncomputable def deviationOf (l : List Nat) : ℝ :=
  √((l.map fun (v : Nat) => ((v : ℝ) - meanOf l) ^ 2).sum / l.length)

end Monitoring
end Verif
