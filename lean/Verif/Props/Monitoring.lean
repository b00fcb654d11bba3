import Verif.Proofs.Monitoring
/-! C42: live statistics. -/
namespace Verif
namespace Monitoring

/-- Statistics made for durations up to `max` take any history of samples up to `max` without panic. -/
theorem C42_no_panic_partial {max : Nat} (hm : 2 ≤ max) (ops : List Op)
    (hv : ∀ v, Op.record v ∈ ops → v ≤ max) :
    ∃ s s', DurStats.new max = .ok s ∧ s.run ops = .ok s' := by
  have h : DurStats.new max = .ok ⟨⟨some (doublings max), []⟩, ⟨some (doublings max), []⟩, 0⟩ := by
    simp [DurStats.new, Live.newWithMax, Hist.newWithBounds, hm]
  obtain ⟨s', hs'⟩ := (inv_run ops (new_inv h)).1
    (fun v hmem => Nat.lt_of_le_of_lt (hv v hmem) (lt_reach max))
  exact ⟨_, s', h, hs'⟩

/-- After any history, the number of samples is exact, the minimum, the maximum and the mean are within
about one part in a thousand and in order; the jitter figures are those of the absolute differences of
successive samples. -/
theorem C42_accurate_partial {max : Nat} {s s' : DurStats} (hn : DurStats.new max = .ok s) {ops : List Op}
    (hr : s.run ops = .ok s') :
    Accurate (sinceReset ops []) s'.bare.len s'.bare.min s'.bare.mean s'.bare.max ∧
    Accurate (differences (sinceReset ops [])) s'.jitter.len s'.jitter.min s'.jitter.mean s'.jitter.max := by
  have hi := (inv_run ops (new_inv hn)).2.1 s' hr
  have h1 := hist_accurate s'.bare
  have h2 := hist_accurate s'.jitter
  rw [show s'.bare.seen = sinceReset ops [] by rw [hi.bare]] at h1
  rw [show s'.jitter.seen = differences (sinceReset ops []) by rw [hi.jitter]] at h2
  exact ⟨h1, h2⟩

theorem differences_lt {l : List Nat} {b : Nat} (h : ∀ x ∈ l, x < b) : ∀ d ∈ differences l, d < b := by
  induction l with
  | nil => simp [differences]
  | cons a l ih =>
    cases l with
    | nil => simp [differences]
    | cons c l =>
      intro d hd
      simp only [differences, List.mem_cons] at hd
      rcases hd with rfl | hd
      · have := h a (by simp)
        have := h c (by simp)
        split <;> omega
      · exact ih (fun x hx => h x (by simp [List.mem_cons.mp hx])) d hd

/-- They are exact when all samples since the last reset are below 2048 ns. -/
theorem C42_exact_partial {max : Nat} {s s' : DurStats} (hn : DurStats.new max = .ok s) {ops : List Op}
    (hr : s.run ops = .ok s') (hs : ∀ v ∈ sinceReset ops [], v < 2048) :
    Exact (sinceReset ops []) s'.bare.len s'.bare.min s'.bare.mean s'.bare.max ∧
    Exact (differences (sinceReset ops [])) s'.jitter.len s'.jitter.min s'.jitter.mean s'.jitter.max := by
  have hi := (inv_run ops (new_inv hn)).2.1 s' hr
  have e1 : s'.bare.seen = sinceReset ops [] := by rw [hi.bare]
  have e2 : s'.jitter.seen = differences (sinceReset ops []) := by rw [hi.jitter]
  have h1 := hist_exact s'.bare (by rw [e1]; exact hs)
  have h2 := hist_exact s'.jitter (by rw [e2]; exact differences_lt hs)
  rw [e1] at h1
  rw [e2] at h2
  exact ⟨h1, h2⟩

/-- Statistics without bound take every sample. -/
theorem C42_unbounded_partial (ops : List Op) :
    Accurate (sinceReset ops []) (Live.run Live.newUnbounded ops).len (Live.run Live.newUnbounded ops).min
      (Live.run Live.newUnbounded ops).mean (Live.run Live.newUnbounded ops).max := by
  have := hist_accurate (Live.run Live.newUnbounded ops)
  rwa [show (Live.run Live.newUnbounded ops).seen = sinceReset ops [] by
    unfold Live.newUnbounded; rw [live_run_unbounded]] at this

/-- Larger samples are not reported exactly: 2049 has minimum 2048. -/
theorem C42_violated_exact : ∃ s s' : DurStats, DurStats.new 10000 = .ok s ∧
    s.run [.record 2049] = .ok s' ∧ s'.bare.min = 2048 ∧ ¬ Exact [2049] 1 s'.bare.min s'.bare.mean s'.bare.max := by
  refine ⟨_, _, rfl, rfl, rfl, ?_⟩
  intro h
  have := (h.2.2 (by simp)).1.1
  revert this
  decide

/-- A single sample out of reach of the bound is a panic, whatever else happens. -/
theorem C42_violated_range {max : Nat} {s : DurStats} (hn : DurStats.new max = .ok s) {ops : List Op}
    {v : Nat} (hm : Op.record v ∈ ops) (hv : 2048 * 2 ^ doublings max ≤ v) : s.run ops = .panic :=
  (inv_run ops (new_inv hn)).2.2 ⟨v, hm, by omega⟩

/-- So is a bound below 2 ns. -/
theorem C42_violated_new {max : Nat} (h : max < 2) : DurStats.new max = .panic := by
  unfold DurStats.new Live.newWithMax Hist.newWithBounds
  rw [if_neg (by omega)]
  rfl

/-- Bounded statistics without jitter silently ignore such samples: the number of samples is wrong. -/
theorem C42_violated_dropped {max : Nat} {s : Live} (hn : Live.newWithMax max = .ok s) {v : Nat}
    (hv : 2048 * 2 ^ doublings max ≤ v) : (Live.run s [.record v]).len = 0 := by
  unfold Live.newWithMax Hist.newWithBounds at hn
  split at hn
  · injection hn with hn
    subst hn
    rw [live_run_bounded]
    simp [Hist.len, sinceReset, Nat.not_lt.mpr hv]
  · simp at hn

/-- A history with a reset in the middle, exact and inexact samples. -/
example : ∃ s s' : DurStats, DurStats.new 100000 = .ok s ∧
    s.run [.record 7, .record 9, .reset, .record 5, .record 3000, .record 9] = .ok s' ∧
    sinceReset [.record 7, .record 9, .reset, .record 5, .record 3000, .record 9] [] = [5, 3000, 9] ∧
    s'.bare.len = 3 ∧ s'.bare.min = 5 ∧ s'.bare.max = 3001 ∧ s'.bare.mean = 1005 ∧
    s'.jitter.len = 2 ∧ s'.jitter.min = 2990 ∧ s'.jitter.max = 2995 := by
  refine ⟨_, _, rfl, rfl, rfl, ?_⟩
  decide +kernel

example : ∃ s s' : DurStats, DurStats.new 100000 = .ok s ∧ s.run [.record 7, .record 9, .record 5] = .ok s' ∧
    (∀ v ∈ sinceReset [.record 7, .record 9, .record 5] [], v < 2048) ∧ s'.jitter.mean = 3 :=
  ⟨_, _, rfl, rfl, by decide, by decide +kernel⟩

example : 2048 * 2 ^ doublings 10000 = 16384 := by decide

end Monitoring
end Verif
