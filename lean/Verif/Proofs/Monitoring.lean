import Verif.Spec.Monitoring
/-! Lemmas on live statistics. -/
namespace Verif
namespace Monitoring

theorem shift_small {v : Nat} (h : v < 2048) : shift v = 0 := by
  unfold shift
  have : Nat.log2 v ≤ 10 := by
    by_cases h0 : v = 0
    · subst h0; decide
    · have := (Nat.log2_lt h0).mpr (show v < 2 ^ 11 from h)
      omega
  omega

theorem lowest_small {v : Nat} (h : v < 2048) : lowest v = v := by simp [lowest, shift_small h]
theorem highest_small {v : Nat} (h : v < 2048) : highest v = v := by simp [highest, lowest_small h, shift_small h]
theorem median_small {v : Nat} (h : v < 2048) : median v = v := by simp [median, lowest_small h, shift_small h]

theorem pow_shift_le {v : Nat} (h : 2048 ≤ v) : 1024 * 2 ^ shift v ≤ v := by
  have h0 : v ≠ 0 := by omega
  have hl : 11 ≤ Nat.log2 v := (Nat.le_log2 h0).mpr h
  have := Nat.log2_self_le h0
  have e : 1024 * 2 ^ shift v = 2 ^ Nat.log2 v := by
    have : Nat.log2 v = 10 + shift v := by unfold shift; omega
    rw [this, Nat.pow_add]
  omega

theorem lowest_le (v : Nat) : lowest v ≤ v := Nat.div_mul_le_self _ _
theorem lt_lowest (v : Nat) : v < lowest v + 2 ^ shift v := by
  have h := Nat.div_add_mod v (2 ^ shift v)
  have h2 := Nat.mod_lt v (show 2 ^ shift v > 0 from Nat.pow_pos (by decide))
  unfold lowest
  rw [Nat.mul_comm]
  omega
theorem le_highest (v : Nat) : v ≤ highest v := by
  have := lt_lowest v
  unfold highest
  omega
theorem lowest_le_median (v : Nat) : lowest v ≤ median v := Nat.le_add_right _ _
theorem median_le_highest (v : Nat) : median v ≤ highest v := by
  have : 2 ^ shift v > 0 := Nat.pow_pos (by decide)
  unfold median highest
  omega
theorem lowest_error (v : Nat) : 1024 * (v - lowest v) ≤ v := by
  by_cases h : v < 2048
  · rw [lowest_small h]; omega
  · have := pow_shift_le (by omega : 2048 ≤ v)
    have := lt_lowest v
    omega
theorem highest_error (v : Nat) : 1024 * (highest v - v) ≤ v := by
  by_cases h : v < 2048
  · rw [highest_small h]; omega
  · have := pow_shift_le (by omega : 2048 ≤ v)
    have := lowest_le v
    unfold highest
    omega
theorem median_error (v : Nat) : 2048 * median v ≤ 2048 * v + v ∧ 2048 * v ≤ 2048 * median v + v := by
  by_cases h : v < 2048
  · rw [median_small h]; omega
  · have := pow_shift_le (by omega : 2048 ≤ v)
    have h1 := lowest_le v
    have h2 := lt_lowest v
    have hs : 1 ≤ shift v := by
      have : 11 ≤ Nat.log2 v := (Nat.le_log2 (by omega)).mpr (by omega : 2 ^ 11 ≤ v)
      unfold shift; omega
    have he : 2 ^ shift v = 2 * (2 ^ shift v / 2) := by
      obtain ⟨k, hk⟩ : ∃ k, shift v = k + 1 := ⟨shift v - 1, by omega⟩
      rw [hk, Nat.pow_succ]; omega
    unfold median
    omega

theorem shift_mono {v w : Nat} (h : v ≤ w) : shift v ≤ shift w := by
  unfold shift
  by_cases h0 : v = 0
  · subst h0; simp
  · have : Nat.log2 v ≤ Nat.log2 w := (Nat.le_log2 (by omega)).mpr (Nat.le_trans (Nat.log2_self_le h0) h)
    omega

/-- A smaller bucket ends below the lowest value of a larger one. -/
theorem highest_lt_lowest {v w : Nat} (h : shift v < shift w) : highest v < lowest w := by
  have hw0 : w ≠ 0 := by rintro rfl; simp [shift] at h
  have hs : shift w = Nat.log2 w - 10 := rfl
  have hwl : 10 < Nat.log2 w := by omega
  have h1 : highest v < 2 ^ (shift v + 11) := by
    by_cases hv : v < 2048
    · rw [highest_small hv, shift_small hv]; exact hv
    · have hv0 : v ≠ 0 := by omega
      have hlv : 11 ≤ Nat.log2 v := (Nat.le_log2 hv0).mpr (by omega : 2 ^ 11 ≤ v)
      have hlt : v < 2 ^ (Nat.log2 v + 1) := Nat.lt_log2_self
      have e : Nat.log2 v + 1 = shift v + 11 := by unfold shift; omega
      rw [e] at hlt
      have hd : v / 2 ^ shift v < 2 ^ 11 := by
        rw [Nat.div_lt_iff_lt_mul (Nat.pow_pos (by decide)), ← Nat.pow_add, Nat.add_comm]
        exact hlt
      have : (v / 2 ^ shift v + 1) * 2 ^ shift v ≤ 2 ^ 11 * 2 ^ shift v := Nat.mul_le_mul_right _ hd
      rw [Nat.add_mul, ← Nat.pow_add, Nat.add_comm 11] at this
      have hp : 2 ^ shift v > 0 := Nat.pow_pos (by decide)
      unfold highest lowest
      omega
  have h2 : 2 ^ (shift w + 10) ≤ lowest w := by
    have e : shift w + 10 = Nat.log2 w := by omega
    have hle := Nat.log2_self_le hw0
    have : 2 ^ 10 ≤ w / 2 ^ shift w := by
      rw [Nat.le_div_iff_mul_le (Nat.pow_pos (by decide)), ← Nat.pow_add, Nat.add_comm, e]
      exact hle
    have := Nat.mul_le_mul_right (2 ^ shift w) this
    rw [← Nat.pow_add, Nat.add_comm] at this
    exact this
  have h3 : 2 ^ (shift v + 11) ≤ 2 ^ (shift w + 10) := Nat.pow_le_pow_right (by decide) (by omega)
  omega

theorem lowest_mono {v w : Nat} (h : v ≤ w) : lowest v ≤ lowest w := by
  by_cases hs : shift v = shift w
  · unfold lowest
    rw [hs]
    exact Nat.mul_le_mul_right _ (Nat.div_le_div_right h)
  · have := highest_lt_lowest (show shift v < shift w by have := shift_mono h; omega)
    have := lowest_le v
    have := le_highest v
    omega

theorem highest_mono {v w : Nat} (h : v ≤ w) : highest v ≤ highest w := by
  by_cases hs : shift v = shift w
  · have := lowest_mono h
    unfold highest
    rw [hs]
    omega
  · have := highest_lt_lowest (show shift v < shift w by have := shift_mono h; omega)
    have := lowest_le w
    have := le_highest w
    omega

theorem sum_median (l : List Nat) : 2048 * (l.map median).sum ≤ 2048 * l.sum + l.sum ∧
    2048 * l.sum ≤ 2048 * (l.map median).sum + l.sum := by
  induction l with
  | nil => simp
  | cons a l ih =>
    have := median_error a
    simp only [List.map_cons, List.sum_cons]
    omega

theorem sum_ge {l : List Nat} {b : Nat} (h : ∀ x ∈ l, b ≤ x) : b * l.length ≤ l.sum := by
  induction l with
  | nil => simp
  | cons a l ih =>
    have h1 := h a (by simp)
    have h2 := ih (fun x hx => h x (by simp [hx]))
    simp only [List.length_cons, List.sum_cons, Nat.mul_add]
    omega

theorem sum_le {l : List Nat} {b : Nat} (h : ∀ x ∈ l, x ≤ b) : l.sum ≤ b * l.length := by
  induction l with
  | nil => simp
  | cons a l ih =>
    have h1 := h a (by simp)
    have h2 := ih (fun x hx => h x (by simp [hx]))
    simp only [List.length_cons, List.sum_cons, Nat.mul_add]
    omega

theorem exists_min {l : List Nat} (h : l ≠ []) : ∃ m, l.min? = some m ∧ IsMin l m := by
  cases hm : l.min? with
  | none => simp at hm; exact absurd hm h
  | some m =>
    obtain ⟨h1, h2⟩ := List.min?_eq_some_iff.mp hm
    exact ⟨m, rfl, h1, h2⟩
theorem exists_max {l : List Nat} (h : l ≠ []) : ∃ m, l.max? = some m ∧ IsMax l m := by
  cases hm : l.max? with
  | none => simp at hm; exact absurd hm h
  | some m =>
    obtain ⟨h1, h2⟩ := List.max?_eq_some_iff.mp hm
    exact ⟨m, rfl, h1, h2⟩
theorem IsMin.unique {l : List Nat} {a b : Nat} (ha : IsMin l a) (hb : IsMin l b) : a = b :=
  Nat.le_antisymm (ha.2 b hb.1) (hb.2 a ha.1)
theorem IsMax.unique {l : List Nat} {a b : Nat} (ha : IsMax l a) (hb : IsMax l b) : a = b :=
  Nat.le_antisymm (hb.2 a ha.1) (ha.2 b hb.1)

theorem hist_accurate (h : Hist) : Accurate h.seen h.len h.min h.mean h.max := by
  obtain ⟨r, l⟩ := h
  simp only [Hist.len, Hist.min, Hist.mean, Hist.max]
  by_cases hl : l = []
  · subst hl
    refine ⟨rfl, fun _ => by decide, fun m hm => ?_, fun m hm => ?_, fun h => absurd rfl h, by decide, by decide⟩
    · simp [IsMin] at hm
    · simp [IsMax] at hm
  · obtain ⟨a, ha, hamin⟩ := exists_min hl
    obtain ⟨b, hb, hbmax⟩ := exists_max hl
    have hlen : 0 < l.length := List.length_pos_iff.mpr hl
    rw [ha, hb]
    simp only [Option.getD_some]
    have hs := sum_median l
    have hd := Nat.div_add_mod (l.map median).sum l.length
    have hm := Nat.mod_lt (l.map median).sum hlen
    refine ⟨rfl, fun h => absurd h hl, fun m hm => ?_, fun m hm => ?_, fun _ => ?_, ?_, ?_⟩
    · rw [hm.unique hamin]; exact ⟨lowest_le a, lowest_error a⟩
    · rw [hm.unique hbmax]; exact ⟨le_highest b, highest_error b⟩
    · rw [Nat.add_mul, Nat.mul_comm ((l.map median).sum / l.length)]
      omega
    · rw [Nat.le_div_iff_mul_le hlen]
      have := sum_ge (l := l.map median) (b := lowest a) (by
        intro x hx
        obtain ⟨y, hy, rfl⟩ := List.mem_map.mp hx
        exact Nat.le_trans (lowest_mono (hamin.2 y hy)) (lowest_le_median y))
      simpa using this
    · rw [Nat.div_le_iff_le_mul_add_pred hlen]
      have := sum_le (l := l.map median) (b := highest b) (by
        intro x hx
        obtain ⟨y, hy, rfl⟩ := List.mem_map.mp hx
        exact Nat.le_trans (median_le_highest y) (highest_mono (hbmax.2 y hy)))
      rw [List.length_map] at this
      rw [Nat.mul_comm] 
      omega

theorem hist_exact (h : Hist) (hs : ∀ x ∈ h.seen, x < 2048) : Exact h.seen h.len h.min h.mean h.max := by
  obtain ⟨r, l⟩ := h
  simp only [Hist.len, Hist.min, Hist.mean, Hist.max] at *
  have hm : l.map median = l := by
    have : l.map median = l.map id := List.map_congr_left (fun x hx => median_small (hs x hx))
    simpa using this
  refine ⟨rfl, by rintro rfl; decide, fun hl => ?_⟩
  obtain ⟨a, ha, hamin⟩ := exists_min hl
  obtain ⟨b, hb, hbmax⟩ := exists_max hl
  rw [ha, hb, hm]
  simp only [Option.getD_some]
  rw [lowest_small (hs a hamin.1), highest_small (hs b hbmax.1)]
  exact ⟨hamin, hbmax, trivial⟩

theorem differences_snoc (l : List Nat) (a v : Nat) :
    differences (l ++ [a] ++ [v]) = differences (l ++ [a]) ++ [absDiff v a] := by
  induction l with
  | nil =>
    simp only [List.nil_append, List.cons_append, differences, absDiff]
    congr 1
    split <;> split <;> omega
  | cons x l ih =>
    cases l with
    | nil =>
      simp only [List.cons_append, List.nil_append, differences, absDiff] at *
      simp only [List.cons.injEq, true_and, and_true]
      split <;> split <;> omega
    | cons y l =>
      simp only [List.cons_append, differences] at *
      rw [ih]

/-- The state after some history with the given samples since the last reset. -/
structure Inv (n : Nat) (samples : List Nat) (s : DurStats) : Prop where
  bare : s.bare = ⟨some n, samples⟩
  jitter : s.jitter = ⟨some n, differences samples⟩
  last : ∀ a ∈ samples.getLast?, s.last = a
  small : ∀ a ∈ samples, a < 2048 * 2 ^ n

theorem Inv.record {n : Nat} {l : List Nat} {s : DurStats} (hi : Inv n l s) (v : Nat) :
    (v < 2048 * 2 ^ n → ∃ s', s.record v = .ok s' ∧ Inv n (l ++ [v]) s') ∧
    (¬ v < 2048 * 2 ^ n → s.record v = .panic) := by
  obtain ⟨b, j, la⟩ := s
  obtain ⟨h1, h2, h3, h4⟩ := hi
  simp only at h1 h2 h3
  subst h1
  subst h2
  constructor
  · intro hv
    have hsm : ∀ a ∈ l ++ [v], a < 2048 * 2 ^ n := by
      intro a ha
      rcases List.mem_append.mp ha with ha | ha
      · exact h4 a ha
      · simp only [List.mem_singleton] at ha; subst ha; exact hv
    rcases List.eq_nil_or_concat l with rfl | ⟨l', a, rfl⟩
    · refine ⟨⟨⟨some n, [v]⟩, ⟨some n, []⟩, v⟩, ?_, ?_⟩
      · simp [DurStats.record, Hist.len, Hist.record, hv, differences]
      · exact ⟨rfl, rfl, by simp, hsm⟩
    · have hla : la = a := h3 a (by simp)
      subst hla
      have ha : la < 2048 * 2 ^ n := h4 la (by simp)
      have hd : absDiff v la < 2048 * 2 ^ n := by unfold absDiff; split <;> omega
      refine ⟨⟨⟨some n, l' ++ [la] ++ [v]⟩, ⟨some n, differences (l' ++ [la]) ++ [absDiff v la]⟩, v⟩, ?_, ?_⟩
      · simp [DurStats.record, Hist.len, Hist.record, hv, hd]
      · refine ⟨by simp, ?_, by simp, hsm⟩
        rw [List.concat_eq_append, differences_snoc]
  · intro hv
    unfold DurStats.record
    simp [Hist.record, hv]

theorem Inv.reset {n : Nat} {l : List Nat} {s : DurStats} (hi : Inv n l s) : Inv n [] s.reset := by
  obtain ⟨h1, h2, h3, h4⟩ := hi
  refine ⟨?_, ?_, by simp, by simp⟩
  · simp [DurStats.reset, Hist.reset, h1]
  · simp [DurStats.reset, Hist.reset, h2, differences]

theorem inv_run {n : Nat} (ops : List Op) {l : List Nat} {s : DurStats} (hi : Inv n l s) :
    ((∀ v, Op.record v ∈ ops → v < 2048 * 2 ^ n) → ∃ s', s.run ops = .ok s') ∧
    (∀ s', s.run ops = .ok s' → Inv n (sinceReset ops l) s') ∧
    ((∃ v, Op.record v ∈ ops ∧ ¬ v < 2048 * 2 ^ n) → s.run ops = .panic) := by
  induction ops generalizing l s with
  | nil => exact ⟨fun _ => ⟨s, rfl⟩, fun s' h => by simp [DurStats.run] at h; subst h; exact hi, by simp⟩
  | cons o os ih =>
    cases o with
    | reset =>
      have h := ih hi.reset
      simp only [DurStats.run, DurStats.step, sinceReset]
      exact ⟨fun hv => h.1 (fun v hm => hv v (by simp [hm])), h.2.1,
        fun ⟨v, hm, hv⟩ => h.2.2 ⟨v, by simpa using hm, hv⟩⟩
    | record v =>
      obtain ⟨hok, hpan⟩ := hi.record v
      simp only [DurStats.run, DurStats.step, sinceReset]
      by_cases hv : v < 2048 * 2 ^ n
      · obtain ⟨s1, he, hi1⟩ := hok hv
        have h := ih hi1
        rw [he]
        refine ⟨fun hv => h.1 (fun v hm => hv v (by simp [hm])), h.2.1, fun ⟨w, hm, hw⟩ => h.2.2 ⟨w, ?_, hw⟩⟩
        rcases List.mem_cons.mp hm with hm | hm
        · injection hm with hm; subst hm; exact absurd hv hw
        · exact hm
      · rw [hpan hv]
        exact ⟨fun h => absurd (h v (by simp)) hv, by simp, fun _ => rfl⟩

theorem new_inv {max : Nat} {s : DurStats} (h : DurStats.new max = .ok s) : Inv (doublings max) [] s := by
  unfold DurStats.new Live.newWithMax Hist.newWithBounds at h
  split at h
  · simp at h
    subst h
    exact ⟨rfl, rfl, by simp, by simp⟩
  · simp at h

theorem lt_reach (max : Nat) : max < 2048 * 2 ^ doublings max := by
  have h : max < 2 ^ (Nat.log2 max + 1) := Nat.lt_log2_self
  have : 2 ^ (Nat.log2 max + 1) ≤ 2 ^ (11 + doublings max) :=
    Nat.pow_le_pow_right (by decide) (by unfold doublings; omega)
  rw [Nat.pow_add 2 11] at this
  omega

theorem live_run_unbounded (ops : List Op) (l : List Nat) :
    Live.run ⟨none, l⟩ ops = ⟨none, sinceReset ops l⟩ := by
  induction ops generalizing l with
  | nil => rfl
  | cons o os ih => cases o <;> simp [Live.run, sinceReset, Live.record, Hist.record, Hist.reset, ih]

/-- The samples a bounded histogram keeps. -/
theorem live_run_bounded (n : Nat) (ops : List Op) (l : List Nat) :
    Live.run ⟨some n, l⟩ ops = ⟨some n, sinceReset (ops.filter fun o =>
      match o with | .record v => decide (v < 2048 * 2 ^ n) | .reset => true) l⟩ := by
  induction ops generalizing l with
  | nil => rfl
  | cons o os ih =>
    cases o with
    | reset => simp [Live.run, sinceReset, Hist.reset, ih]
    | record v =>
      by_cases hv : v < 2048 * 2 ^ n <;>
        simp [Live.run, sinceReset, Live.record, Hist.record, hv, ih]

end Monitoring
end Verif
