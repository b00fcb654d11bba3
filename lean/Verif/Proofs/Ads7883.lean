import Verif.Model.Ads7883
/-! Lemmas on the filter of the converter. -/
namespace Verif
namespace Adc

theorem run_append (i : Nat) (a b : List (Option UInt16)) :
    run i (a ++ b) = ((run (run i a).1 b).1, (run i a).2 ++ (run (run i a).1 b).2) := by
  induction a generalizing i with
  | nil => rfl
  | cons r a ih => simp [run, ih]

/-- The integrated value is between eight times some reading and eight times some other. -/
def Between (l : List UInt16) (i : Nat) : Prop :=
  (∃ a ∈ l, a.toNat * 8 ≤ i) ∧ (∃ b ∈ l, i ≤ b.toNat * 8)

theorem Between.process {l : List UInt16} {i : Nat} (h : Between l i) (v : UInt16) :
    Between (l ++ [v]) (process i (some v)).1 := by
  obtain ⟨⟨a, ha, h1⟩, b, hb, h2⟩ := h
  simp only [Adc.process]
  refine ⟨?_, ?_⟩
  · by_cases h : a.toNat ≤ v.toNat
    · exact ⟨a, by simp [ha], by omega⟩
    · exact ⟨v, by simp, by omega⟩
  · by_cases h : v.toNat ≤ b.toNat
    · exact ⟨b, by simp [hb], by omega⟩
    · exact ⟨v, by simp, by omega⟩

theorem Between.run {l : List UInt16} {i : Nat} (h : Between l i) (rs : List (Option UInt16)) :
    Between (l ++ rs.filterMap id) (run i rs).1 := by
  induction rs generalizing l i with
  | nil => simpa [Adc.run] using h
  | cons r rs ih =>
    cases r with
    | none => simpa [Adc.run, Adc.process] using ih h
    | some v =>
      have := ih (h.process v)
      simpa [Adc.run] using this

theorem Between.output {l : List UInt16} {i : Nat} (h : Between l i) :
    ∃ a ∈ l, ∃ b ∈ l, a ≤ UInt16.ofNat (i / 8) ∧ UInt16.ofNat (i / 8) ≤ b := by
  obtain ⟨⟨a, ha, h1⟩, b, hb, h2⟩ := h
  have := b.toNat_lt
  have e : (UInt16.ofNat (i / 8)).toNat = i / 8 := by
    rw [UInt16.toNat_ofNat']
    omega
  refine ⟨a, ha, b, hb, ?_, ?_⟩
  · rw [UInt16.le_iff_toNat_le, e]; omega
  · rw [UInt16.le_iff_toNat_le, e]; omega

/-- The integrated value after `n` equal readings. -/
def settle (v : Nat) (i : Nat) : Nat → Nat
  | 0 => i
  | n + 1 => settle v ((i + v) * 8 / 9) n

theorem run_replicate (v : UInt16) (i n : Nat) : (run i (List.replicate n (some v))).1 = settle v.toNat i n := by
  induction n generalizing i with
  | zero => rfl
  | succ n ih => simp [List.replicate_succ, run, settle, process, ih]

theorem settle_fix {v i : Nat} (h : i ≤ 8 * v) (h' : 8 * v ≤ i + 8) (n : Nat) :
    settle v i n ≤ 8 * v ∧ 8 * v ≤ settle v i n + 8 := by
  induction n generalizing i with
  | zero => exact ⟨h, h'⟩
  | succ n ih =>
    have e : (i + v) * 8 / 9 = i := by omega
    simp only [settle, e]
    exact ih h h'

theorem settle_down {v : Nat} : ∀ {i n : Nat}, 8 * v ≤ i → i ≤ 8 * v + n →
    settle v i n = 8 * v
  | i, 0, h, h' => by simp only [settle]; omega
  | i, n + 1, h, h' => by
    simp only [settle]
    exact settle_down (by omega) (by omega)

theorem settle_up {v : Nat} : ∀ {i n : Nat}, i ≤ 8 * v → 8 * v ≤ i + 8 + n →
    settle v i n ≤ 8 * v ∧ 8 * v ≤ settle v i n + 8
  | i, 0, h, h' => by simp only [settle]; omega
  | i, n + 1, h, h' => by
    simp only [settle]
    exact settle_up (by omega) (by omega)

end Adc
end Verif
