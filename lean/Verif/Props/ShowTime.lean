import Verif.Proofs.ShowTime
/-!
C87: the text of a duration.
-/
namespace Verif
namespace ShowTime
open Clock

/-- Who reads the text of a duration gets the duration up to 0.0501 %, and exactly below a microsecond. -/
theorem C87_reads (a : CuDuration) :
    ∃ v, readTime (text a) = some v ∧ |v - a.ns.toNat| ≤ a.ns.toNat * (501 / 1000000) ∧
      (a.ns.toNat < 1000 → v = a.ns.toNat) := by
  refine ⟨_, read_text a, shown_near a.ns.toNat_lt, fun h => ?_⟩
  unfold shown
  rw [if_neg (by omega), if_neg (by omega), if_neg (by omega), if_neg (by omega), if_neg (by omega), if_neg (by omega)]

/-- A longer duration is never shown as a shorter one, whatever their units. -/
theorem C87_ordered (a b : CuDuration) (h : a.ns ≤ b.ns) :
    ∃ v w, readTime (text a) = some v ∧ readTime (text b) = some w ∧ v ≤ w :=
  ⟨_, _, read_text a, read_text b, shown_mono (UInt64.le_iff_toNat_le.1 h)⟩

/-- Texts, with rounding up to the next unit. -/
example : text ⟨1234567⟩ = "1.235 ms".toList ∧ text ⟨999⟩ = "999 ns".toList ∧
    text ⟨999999999⟩ = "1000.000 ms".toList ∧ text ⟨90061001000000⟩ = "1.042 d".toList ∧
    text ⟨18446744073709551615⟩ = "213503.982 d".toList ∧ readTime (text ⟨1234567⟩) = some 1235000 := by
  refine ⟨?_, ?_, ?_, ?_, ?_, ?_⟩ <;> decide +kernel

end ShowTime
end Verif
