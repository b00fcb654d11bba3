import Verif.Model.Monitoring
/-! What statistics over a list of samples should be. -/
namespace Verif
namespace Monitoring

/-- The samples recorded since the last reset. -/
def sinceReset : List Op → List Nat → List Nat
  | [], acc => acc
  | .record v :: os, acc => sinceReset os (acc ++ [v])
  | .reset :: os, _ => sinceReset os []

/-- Absolute differences of successive samples. -/
def differences : List Nat → List Nat
  | a :: b :: l => (if a ≤ b then b - a else a - b) :: differences (b :: l)
  | _ => []

/-- `m` is the smallest sample. -/
def IsMin (l : List Nat) (m : Nat) : Prop := m ∈ l ∧ ∀ x ∈ l, m ≤ x
/-- `m` is the largest sample. -/
def IsMax (l : List Nat) (m : Nat) : Prop := m ∈ l ∧ ∀ x ∈ l, x ≤ m

/-- The reported figures are exact. -/
def Exact (l : List Nat) (len min mean max : Nat) : Prop :=
  len = l.length ∧ (l = [] → min = 0 ∧ mean = 0 ∧ max = 0) ∧
  (l ≠ [] → IsMin l min ∧ IsMax l max ∧ mean = l.sum / l.length)

/-- The reported figures are within one part in 1024, one in 2048 for the mean (besides rounding down),
and in order; the number of samples is exact. -/
def Accurate (l : List Nat) (len min mean max : Nat) : Prop :=
  len = l.length ∧ (l = [] → min = 0 ∧ mean = 0 ∧ max = 0) ∧
  (∀ m, IsMin l m → min ≤ m ∧ 1024 * (m - min) ≤ m) ∧
  (∀ m, IsMax l m → m ≤ max ∧ 1024 * (max - m) ≤ m) ∧
  (l ≠ [] → 2048 * (mean * l.length) ≤ 2048 * l.sum + l.sum ∧
    2048 * l.sum ≤ 2048 * ((mean + 1) * l.length) + l.sum) ∧
  min ≤ mean ∧ mean ≤ max

end Monitoring
end Verif
