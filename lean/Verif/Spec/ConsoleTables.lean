import Verif.Spec.Monitoring
import Verif.Spec.Quantile
import Verif.Spec.ShowTime
/-! How a person reads a row of the table of latencies. -/
namespace Verif
namespace ConsoleMon
open Monitoring ShowTime

/-- What is written in a cell. -/
def written (c : List Char) : List Char := c.dropWhile (· = ' ')

/-- The cell reads as a duration of `n` nanoseconds, rounded for display: exactly below a microsecond. -/
def Reads (c : List Char) (n : Nat) : Prop :=
  ∃ v, readTime (written c) = some v ∧ |v - n| ≤ n * (501 / 1000000) ∧ (n < 1000 → v = n)

/-- A deviation reported for some numbers is theirs, up to one part in 2048 of the largest of them. -/
def DeviationOk (l : List Nat) (sd : Nat) : Prop :=
  ∀ M : Nat, (∀ v ∈ l, v ≤ M) → (sd : ℝ) ≤ deviationOf l + M / 2048 ∧ deviationOf l < sd + 1 + M / 2048

/-- A row of the table, for a name and some times: the name if it has ten characters or less; the smallest, the
largest, the mean and the deviation of the times; the mean and the largest of their changes.  The deviation is
excepted when it is less than a second by half a microsecond or less. -/
def ShowsRow (name : List Char) (l : List Nat) (cells : List (List Char)) : Prop :=
  cells.map List.length = [10, 10, 12, 12, 10, 12, 13] ∧
  ∃ c₀ c₁ c₂ c₃ c₄ c₅ c₆ len min mean max sd jlen jmin jmean jmax,
    cells = [c₀, c₁, c₂, c₃, c₄, c₅, c₆] ∧
    (name.length ≤ 10 → (∀ c ∈ name.head?, c ≠ ' ') → written c₀ = name) ∧
    Accurate l len min mean max ∧ Accurate (differences l) jlen jmin jmean jmax ∧ DeviationOk l sd ∧
    Reads c₁ min ∧ Reads c₂ max ∧ Reads c₃ mean ∧ (¬ (999999500 ≤ sd ∧ sd < 1000000000) → Reads c₄ sd) ∧
    Reads c₅ jmean ∧ Reads c₆ jmax

end ConsoleMon
end Verif
