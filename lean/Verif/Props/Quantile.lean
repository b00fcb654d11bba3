import Verif.Proofs.Quantile
/-! Property C82: percentiles and standard deviations of durations. -/
namespace Verif
namespace Monitoring

/-- After any history, what is reported for a fraction above 0 of the samples is at least the smallest
sample such that this fraction of the samples is at most it, and at most one part in 1024 above it; the
same for the jitter. -/
theorem C82_percentile {max : Nat} {s s' : DurStats} (hn : DurStats.new max = .ok s) {ops : List Op}
    (hr : s.run ops = .ok s') {q : Rat} (h0 : 0 < q) (h1 : q ≤ 1) :
    (∀ m, IsQuantile (sinceReset ops []) q m →
      m ≤ s'.percentile q ∧ 1024 * (s'.percentile q - m) ≤ m ∧ (m < 2048 → s'.percentile q = m)) ∧
    (∀ m, IsQuantile (differences (sinceReset ops [])) q m →
      m ≤ s'.jitterPercentile q ∧ 1024 * (s'.jitterPercentile q - m) ≤ m ∧
        (m < 2048 → s'.jitterPercentile q = m)) := by
  have hi := (inv_run ops (new_inv hn)).2.1 s' hr
  have e1 : s'.bare.seen = sinceReset ops [] := by rw [hi.bare]
  have e2 : s'.jitter.seen = differences (sinceReset ops []) := by rw [hi.jitter]
  rw [← e2, ← e1]
  constructor <;> intro m hm
  · rw [DurStats.percentile, valueAtQuantile_eq h1 hm, if_neg (by linarith)]
    exact ⟨le_highest m, highest_error m, highest_small⟩
  · rw [DurStats.jitterPercentile, valueAtQuantile_eq h1 hm, if_neg (by linarith)]
    exact ⟨le_highest m, highest_error m, highest_small⟩

/-- There is such a sample as soon as there is any. -/
theorem C82_defined {l : List Nat} (hl : l ≠ []) {q : Rat} (h1 : q ≤ 1) : ∃ m, IsQuantile l q m :=
  exists_quantile hl h1

/-- Nothing has percentile 0, the fraction 0 that of the smallest sample from below, and fractions above
1 count as 1, for which it is the maximum. -/
theorem C82_limits {max : Nat} {s s' : DurStats} (hn : DurStats.new max = .ok s) {ops : List Op}
    (hr : s.run ops = .ok s') :
    (sinceReset ops [] = [] → ∀ q, s'.percentile q = 0) ∧
    s'.percentile 0 = s'.bare.min ∧ s'.percentile 1 = s'.bare.max ∧
    (∀ q, 1 < q → s'.percentile q = s'.bare.max) := by
  have hi := (inv_run ops (new_inv hn)).2.1 s' hr
  have e1 : s'.bare.seen = sinceReset ops [] := by rw [hi.bare]
  rw [← e1]
  have hone : s'.percentile 1 = s'.bare.max := by
    by_cases hl : s'.bare.seen = []
    · rw [DurStats.percentile, valueAtQuantile_nil hl, Hist.max, hl]; rfl
    · obtain ⟨M, hM1, hM⟩ := exists_max hl
      have hq : IsQuantile s'.bare.seen 1 M := by
        have hc : s'.bare.seen.countP (· ≤ M) = s'.bare.seen.length :=
          List.countP_eq_length.2 (by simpa using hM.2)
        refine ⟨hM.1, by rw [hc]; simp, fun x hx h => ?_⟩
        have h' : s'.bare.seen.length ≤ s'.bare.seen.countP (· ≤ x) := by
          rw [one_mul] at h; exact_mod_cast h
        have := List.countP_eq_length.1 (Nat.le_antisymm List.countP_le_length h') M hM.1
        simpa using this
      rw [DurStats.percentile, valueAtQuantile_eq (le_refl 1) hq, if_neg (by norm_num), Hist.max, hM1]
      rfl
  refine ⟨fun hl q => valueAtQuantile_nil hl q, ?_, hone, fun q hq => ?_⟩
  · by_cases hl : s'.bare.seen = []
    · rw [DurStats.percentile, valueAtQuantile_nil hl, Hist.min, hl]; rfl
    · obtain ⟨m, hm1, hm⟩ := exists_min hl
      have hq : IsQuantile s'.bare.seen 0 m :=
        ⟨hm.1, by rw [zero_mul]; exact Nat.cast_nonneg _, fun x hx _ => hm.2 x hx⟩
      rw [DurStats.percentile, valueAtQuantile_eq (by norm_num) hq, if_pos rfl, Hist.min, hm1]
      rfl
  · rw [← hone]
    exact valueAtQuantile_above _ hq

/-- A larger fraction never has a smaller percentile. -/
theorem C82_monotone {max : Nat} {s s' : DurStats} (hn : DurStats.new max = .ok s) {ops : List Op}
    (hr : s.run ops = .ok s') {p q : Rat} (h0 : 0 ≤ p) (hpq : p ≤ q) :
    s'.bare.min ≤ s'.percentile p ∧ s'.percentile p ≤ s'.percentile q ∧ s'.percentile q ≤ s'.bare.max := by
  obtain ⟨l0, l1, l2, l3⟩ := C82_limits hn hr
  have mono : ∀ {p q : Rat}, 0 ≤ p → p ≤ q → q ≤ 1 → s'.percentile p ≤ s'.percentile q := by
    intro p q h0 hpq h1
    by_cases hl : s'.bare.seen = []
    · rw [DurStats.percentile, DurStats.percentile, valueAtQuantile_nil hl, valueAtQuantile_nil hl]
    · obtain ⟨m, hm⟩ := exists_quantile hl (le_trans hpq h1)
      obtain ⟨n, hn⟩ := exists_quantile hl h1
      have hmn := quantile_mono hpq hm hn
      rw [DurStats.percentile, DurStats.percentile, valueAtQuantile_eq (le_trans hpq h1) hm,
        valueAtQuantile_eq h1 hn]
      have := lowest_le m
      have := le_highest m
      have := lowest_mono hmn
      have := highest_mono hmn
      split <;> split
      · assumption
      · omega
      · rename_i hp hq
        subst hq
        exact absurd (le_antisymm hpq h0) hp
      · assumption
  have top : ∀ {p : Rat}, 0 ≤ p → s'.percentile p ≤ s'.bare.max := by
    intro p h0
    by_cases h : p ≤ 1
    · rw [← l2]; exact mono h0 h (le_refl 1)
    · rw [l3 p (by linarith)]
  refine ⟨?_, ?_, top (le_trans h0 hpq)⟩
  · rw [← l1]
    by_cases h : p ≤ 1
    · exact mono (le_refl 0) h0 h
    · rw [l3 p (by linarith), ← l2]; exact mono (le_refl 0) (by norm_num) (le_refl 1)
  · by_cases h : q ≤ 1
    · exact mono h0 hpq h
    · rw [l3 q (by linarith)]; exact top h0

/-- After any history, the standard deviation reported differs from that of the samples, rounded down, by
at most one part in 2048 of the largest sample; the same for the jitter. -/
theorem C82_deviation {max : Nat} {s s' : DurStats} (hn : DurStats.new max = .ok s) {ops : List Op}
    (hr : s.run ops = .ok s') {M : Nat} (hM : ∀ v ∈ sinceReset ops [], v ≤ M) :
    ((s'.stddev : ℝ) ≤ deviationOf (sinceReset ops []) + M / 2048 ∧
      deviationOf (sinceReset ops []) < s'.stddev + 1 + M / 2048) ∧
    ((s'.jitterStddev : ℝ) ≤ deviationOf (differences (sinceReset ops [])) + M / 2048 ∧
      deviationOf (differences (sinceReset ops [])) < s'.jitterStddev + 1 + M / 2048) := by
  have hi := (inv_run ops (new_inv hn)).2.1 s' hr
  have e1 : s'.bare.seen = sinceReset ops [] := by rw [hi.bare]
  have e2 : s'.jitter.seen = differences (sinceReset ops []) := by rw [hi.jitter]
  have hd : ∀ {l : List Nat}, (∀ v ∈ l, v ≤ M) → ∀ v ∈ differences l, v ≤ M := by
    intro l
    induction l with
    | nil => simp [differences]
    | cons a l ih =>
      intro h
      cases l with
      | nil => simp [differences]
      | cons b l =>
        intro v hv
        have ha := h a (by simp)
        have hb := h b (by simp)
        simp only [differences, List.mem_cons] at hv
        rcases hv with rfl | hv
        · split <;> omega
        · exact ih (fun x hx => h x (List.mem_cons_of_mem _ hx)) v hv
  have h1 := stdev_accurate s'.bare (M := M) (by rw [e1]; exact hM)
  have h2 := stdev_accurate s'.jitter (M := M) (by rw [e2]; exact hd hM)
  rw [e1] at h1
  rw [e2] at h2
  exact ⟨h1, h2⟩

/-- It is that of the samples, rounded down, when they are all below 2048 ns. -/
theorem C82_small {max : Nat} {s s' : DurStats} (hn : DurStats.new max = .ok s) {ops : List Op}
    (hr : s.run ops = .ok s') (hs : ∀ v ∈ sinceReset ops [], v < 2048) :
    (s'.stddev : ℝ) ≤ deviationOf (sinceReset ops []) ∧ deviationOf (sinceReset ops []) < s'.stddev + 1 := by
  have hi := (inv_run ops (new_inv hn)).2.1 s' hr
  have e1 : s'.bare.seen = sinceReset ops [] := by rw [hi.bare]
  have h1 := stdev_exact s'.bare (by rw [e1]; exact hs)
  rwa [e1] at h1

/-- Larger samples are not reported exactly: the median of two samples of 2048 ns is reported as 2049
ns. -/
theorem C82_exact_violated : ∃ s s' : DurStats, DurStats.new 10000 = .ok s ∧
    s.run [.record 2048, .record 2048] = .ok s' ∧ IsQuantile [2048, 2048] (1 / 2) 2048 ∧
    s'.percentile (1 / 2) = 2049 := by
  have hq : IsQuantile [2048, 2048] (1 / 2) 2048 := by
    refine ⟨by simp, ?_, by simp⟩
    have : ([2048, 2048] : List Nat).countP (· ≤ 2048) = 2 := by decide
    rw [this]
    norm_num
  refine ⟨_, _, rfl, rfl, hq, ?_⟩
  have := valueAtQuantile_eq (h := ⟨some (doublings 10000), [2048, 2048]⟩) (by norm_num) hq
  rw [if_neg (by norm_num)] at this
  rw [DurStats.percentile]
  exact this.trans (by decide +kernel)

/-- The samples 2, 4, 4, 4, 5, 5, 7, 9 have a median of 4 and a standard deviation of 2. -/
example : ∃ s s' : DurStats, DurStats.new 100000 = .ok s ∧
    s.run [.record 1, .reset, .record 2, .record 4, .record 4, .record 4, .record 5, .record 5, .record 7,
      .record 9] = .ok s' ∧ s'.percentile (1 / 2) = 4 ∧ s'.percentile (9 / 10) = 9 ∧ s'.stddev = 2 := by
  refine ⟨_, _, rfl, rfl, ?_⟩
  decide +kernel

end Monitoring
end Verif
