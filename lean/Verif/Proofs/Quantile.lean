import Mathlib.Tactic.Linarith
import Mathlib.Tactic.Ring
import Mathlib.Tactic.FieldSimp
import Mathlib.Tactic.Positivity
import Verif.Model.Quantile
import Verif.Spec.Quantile
import Verif.Proofs.Monitoring
/-! Helper lemmas about percentiles and standard deviations. -/
namespace Verif
namespace Monitoring

theorem mem_buckets {h : Hist} {b : Nat} : b ∈ h.buckets ↔ ∃ v ∈ h.seen, lowest v = b := by
  simp [Hist.buckets]

theorem buckets_sorted (h : Hist) : h.buckets.Pairwise (· < ·) := by
  have h1 : ((h.seen.map lowest).insertionSort (· ≤ ·)).Pairwise (· ≤ ·) := List.pairwise_insertionSort _ _
  have h2 : h.buckets.Pairwise (· ≤ ·) := h1.sublist (List.dedup_sublist _)
  have h3 : h.buckets.Pairwise (· ≠ ·) := List.nodup_dedup _
  exact (h2.and h3).imp (fun h => Nat.lt_of_le_of_ne h.1 h.2)

theorem findBucket_spec (h : Hist) (t : Nat) : ∀ (bs pre : List Nat), pre ++ bs = h.buckets →
    ∀ total, total = h.seen.countP (fun v => decide (lowest v ∈ pre)) →
    (∀ b ∈ pre, h.seen.countP (fun v => decide (lowest v ≤ b)) < t) →
    (match h.findBucket t bs total with
      | some b => b ∈ h.buckets ∧ t ≤ h.seen.countP (fun v => decide (lowest v ≤ b)) ∧
        ∀ c ∈ h.buckets, c < b → h.seen.countP (fun v => decide (lowest v ≤ c)) < t
      | none => ∀ b ∈ h.buckets, h.seen.countP (fun v => decide (lowest v ≤ b)) < t)
  | [], pre, hp, total, ht, hlt => by
    simp only [Hist.findBucket]
    simp only [List.append_nil] at hp
    rw [← hp]; exact hlt
  | b :: bs, pre, hp, total, ht, hlt => by
    have hs := buckets_sorted h
    rw [← hp, List.pairwise_append] at hs
    obtain ⟨h1, h2, h3⟩ := hs
    have hb : b ∉ pre := fun hm => Nat.lt_irrefl _ (h3 b hm b (by simp))
    have hsum : total + h.countAt b = h.seen.countP (fun v => decide (lowest v ∈ pre ++ [b])) := by
      rw [ht, Hist.countAt]
      clear ht
      generalize h.seen = l
      induction l with
      | nil => simp
      | cons v l ih =>
        simp only [List.countP_cons]
        by_cases hv : lowest v = b
        · simp [hv, hb] at ih ⊢; omega
        · by_cases hv2 : lowest v ∈ pre
          · simp [hv, hv2] at ih ⊢; omega
          · simp [hv, hv2] at ih ⊢; omega
    have hle : h.seen.countP (fun v => decide (lowest v ∈ pre ++ [b])) =
        h.seen.countP (fun v => decide (lowest v ≤ b)) := by
      apply List.countP_congr
      intro v hv
      have hm : lowest v ∈ pre ++ b :: bs := by rw [hp]; exact mem_buckets.2 ⟨v, hv, rfl⟩
      simp only [decide_eq_true_eq, List.mem_append, List.mem_singleton]
      constructor
      · rintro (hm | hm)
        · exact Nat.le_of_lt (h3 _ hm b (by simp))
        · omega
      · intro hl
        rcases List.mem_append.1 hm with hm | hm
        · exact .inl hm
        · rcases List.mem_cons.1 hm with hm | hm
          · exact .inr hm
          · have := (List.pairwise_cons.1 h2).1 _ hm; omega
    simp only [Hist.findBucket]
    by_cases hge : total + h.countAt b ≥ t
    · rw [if_pos hge]
      refine ⟨by rw [← hp]; simp, by omega, fun c hc hcb => ?_⟩
      rw [← hp] at hc
      rcases List.mem_append.1 hc with hc | hc
      · exact hlt c hc
      · rcases List.mem_cons.1 hc with hc | hc
        · omega
        · have := (List.pairwise_cons.1 h2).1 _ hc; omega
    · rw [if_neg hge]
      refine findBucket_spec h t bs (pre ++ [b]) (by simpa using hp) _ hsum (fun c hc => ?_)
      rcases List.mem_append.1 hc with hc | hc
      · exact hlt c hc
      · rw [List.mem_singleton.1 hc]; omega

theorem shift_lowest (v : Nat) : shift (lowest v) = shift v := by
  rcases Nat.lt_or_eq_of_le (shift_mono (lowest_le v)) with h | h
  · have := highest_lt_lowest h
    have := le_highest (lowest v)
    omega
  · exact h
theorem lowest_lowest (v : Nat) : lowest (lowest v) = lowest v := by
  rw [show lowest (lowest v) = lowest v / 2 ^ shift (lowest v) * 2 ^ shift (lowest v) from rfl, shift_lowest,
    lowest, Nat.mul_div_cancel _ (Nat.pow_pos (by decide))]
theorem highest_lowest (v : Nat) : highest (lowest v) = highest v := by
  unfold highest
  rw [lowest_lowest, shift_lowest]

/-- The bucket found is that of the sample of the rank. -/
theorem findBucket_rank {h : Hist} {t m : Nat} (hm : m ∈ h.seen)
    (h1 : t ≤ h.seen.countP (· ≤ m)) (h2 : ∀ x ∈ h.seen, t ≤ h.seen.countP (· ≤ x) → m ≤ x) :
    h.findBucket t h.buckets 0 = some (lowest m) := by
  have hf := findBucket_spec h t h.buckets [] rfl 0 (by simp) (by simp)
  have hcm : t ≤ h.seen.countP (fun v => decide (lowest v ≤ lowest m)) :=
    Nat.le_trans h1 (List.countP_mono_left (by intro x _; simp; exact lowest_mono))
  cases hb : h.findBucket t h.buckets 0 with
  | none =>
    rw [hb] at hf
    have := hf (lowest m) (mem_buckets.2 ⟨m, hm, rfl⟩)
    omega
  | some b =>
    rw [hb] at hf
    obtain ⟨hf1, hf2, hf3⟩ := hf
    congr 1
    by_cases hlt : b < lowest m
    · exfalso
      obtain ⟨v, hv, hvb⟩ := mem_buckets.1 hf1
      obtain ⟨x, -, hx⟩ := exists_max (l := h.seen.filter (fun v => decide (lowest v ≤ b)))
        (List.ne_nil_of_mem (List.mem_filter.2 ⟨hv, by simp [hvb]⟩))
      have hx1 := List.mem_filter.1 hx.1
      have := h2 x hx1.1 (Nat.le_trans hf2 (List.countP_mono_left (by
        intro y hy hyb
        simp
        exact hx.2 y (List.mem_filter.2 ⟨hy, hyb⟩))))
      have h3 := lowest_mono this
      have h4 : lowest x ≤ b := by simpa using hx1.2
      omega
    · by_cases hgt : lowest m < b
      · have := hf3 (lowest m) (mem_buckets.2 ⟨m, hm, rfl⟩) hgt
        omega
      · omega

theorem ceil_toNat_le {x : Rat} {k : Nat} : x.ceil.toNat ≤ k ↔ x ≤ k := by
  rw [Int.toNat_le, Rat.ceil_le_iff]
  simp

/-- What is reported for a fraction of the samples. -/
theorem valueAtQuantile_eq {h : Hist} {q : Rat} (h1 : q ≤ 1) {m : Nat}
    (hm : IsQuantile h.seen q m) : h.valueAtQuantile q = if q = 0 then lowest m else highest m := by
  obtain ⟨hmem, hle, hmin⟩ := hm
  unfold Hist.valueAtQuantile
  rw [if_neg (by linarith)]
  simp only
  have key : h.findBucket (if (q * (h.len : Rat)).ceil.toNat = 0 then 1 else (q * (h.len : Rat)).ceil.toNat)
      h.buckets 0 = some (lowest m) := by
    apply findBucket_rank hmem
    · split
      · exact List.countP_pos_iff.2 ⟨m, hmem, by simp⟩
      · exact ceil_toNat_le.2 hle
    · intro x hx hc
      apply hmin x hx
      split at hc
      · rename_i hz
        have := ceil_toNat_le.1 (Nat.le_of_eq hz)
        unfold Hist.len at this
        refine le_trans this ?_
        push_cast
        exact Nat.cast_nonneg _
      · exact ceil_toNat_le.1 hc
  rw [key]
  simp only [lowest_lowest, highest_lowest]

theorem exists_quantile {l : List Nat} (hl : l ≠ []) {q : Rat} (h1 : q ≤ 1) : ∃ m, IsQuantile l q m := by
  obtain ⟨M, -, hM⟩ := exists_max hl
  have hc : l.countP (· ≤ M) = l.length := List.countP_eq_length.2 (by simpa using hM.2)
  have hq : q * l.length ≤ l.countP (· ≤ M) := by
    rw [hc]
    have : (0 : Rat) ≤ (l.length : Rat) := Nat.cast_nonneg _
    nlinarith
  obtain ⟨m, -, hm⟩ := exists_min (l := l.filter (fun x => decide (q * l.length ≤ (l.countP (· ≤ x) : Nat))))
    (List.ne_nil_of_mem (List.mem_filter.2 ⟨hM.1, by simpa using hq⟩))
  have := List.mem_filter.1 hm.1
  exact ⟨m, this.1, by simpa using this.2, fun x hx hxq => hm.2 x (List.mem_filter.2 ⟨hx, by simpa using hxq⟩)⟩

theorem valueAtQuantile_nil {h : Hist} (hl : h.seen = []) (q : Rat) : h.valueAtQuantile q = 0 := by
  have : h.buckets = [] := by simp [Hist.buckets, hl]
  unfold Hist.valueAtQuantile
  simp only [this, Hist.findBucket]

theorem valueAtQuantile_above (h : Hist) {q : Rat} (hq : 1 < q) : h.valueAtQuantile q = h.valueAtQuantile 1 := by
  unfold Hist.valueAtQuantile
  rw [if_pos hq, if_neg (lt_irrefl _)]

theorem quantile_mono {l : List Nat} {p q : Rat} (h : p ≤ q) {m n : Nat} (hm : IsQuantile l p m)
    (hn : IsQuantile l q n) : m ≤ n := by
  refine hm.2.2 n hn.1 (le_trans ?_ hn.2.1)
  exact mul_le_mul_of_nonneg_right h (Nat.cast_nonneg _)

/-! ### Standard deviations -/

/-- The mean of a function over a list. -/
noncomputable def mu (f : Nat → ℝ) (l : List Nat) : ℝ := (l.map f).sum / l.length
/-- The standard deviation of a function over a list. -/
noncomputable def sigma (f : Nat → ℝ) (l : List Nat) : ℝ :=
  √((l.map fun v => (f v - mu f l) ^ 2).sum / l.length)

theorem sum_nonneg' (f : Nat → ℝ) (l : List Nat) : 0 ≤ (l.map fun v => (f v) ^ 2).sum := by
  induction l with
  | nil => simp
  | cons a l ih => simp only [List.map_cons, List.sum_cons]; positivity

theorem sum_add' (f g : Nat → ℝ) (l : List Nat) :
    (l.map fun v => f v + g v).sum = (l.map f).sum + (l.map g).sum := by
  induction l with
  | nil => simp
  | cons a l ih => simp only [List.map_cons, List.sum_cons, ih]; ring
theorem sum_mul' (c : ℝ) (g : Nat → ℝ) (l : List Nat) :
    (l.map fun v => c * g v).sum = c * (l.map g).sum := by
  induction l with
  | nil => simp
  | cons a l ih => simp only [List.map_cons, List.sum_cons, ih]; ring
theorem sum_const' (c : ℝ) (l : List Nat) : (l.map fun _ => c).sum = c * l.length := by
  induction l with
  | nil => simp
  | cons a l ih => simp only [List.map_cons, List.sum_cons, ih, List.length_cons]; push_cast; ring

theorem cauchy (f g : Nat → ℝ) (l : List Nat) :
    (l.map fun v => f v * g v).sum ^ 2 ≤ (l.map fun v => f v ^ 2).sum * (l.map fun v => g v ^ 2).sum := by
  have hF := sum_nonneg' f l
  have key : ∀ t : ℝ, 0 ≤ (l.map fun v => f v ^ 2).sum * t ^ 2 + 2 * (l.map fun v => f v * g v).sum * t +
      (l.map fun v => g v ^ 2).sum := by
    intro t
    have := sum_nonneg' (fun v => t * f v + g v) l
    have e : (fun v => (t * f v + g v) ^ 2) = fun v => (t ^ 2 * f v ^ 2 + (2 * t) * (f v * g v)) + g v ^ 2 := by
      funext v; ring
    rw [e, sum_add' (fun v => t ^ 2 * f v ^ 2 + (2 * t) * (f v * g v)) (fun v => g v ^ 2),
      sum_add' (fun v => t ^ 2 * f v ^ 2) (fun v => (2 * t) * (f v * g v)),
      sum_mul' _ (fun v => f v ^ 2), sum_mul' _ (fun v => f v * g v)] at this
    linarith
  generalize (l.map fun v => f v ^ 2).sum = A at *
  generalize (l.map fun v => f v * g v).sum = B at *
  generalize (l.map fun v => g v ^ 2).sum = C at *
  by_cases hA : A = 0
  · subst hA
    by_cases hB : B = 0
    · subst hB; simp
    · exfalso
      have := key (-(C + 1) / (2 * B))
      have e : 2 * B * (-(C + 1) / (2 * B)) = -(C + 1) := by field_simp
      rw [e] at this
      linarith
  · have := key (-B / A)
    have e : A * (-B / A) ^ 2 + 2 * B * (-B / A) + C = (A * C - B ^ 2) / A := by field_simp; ring
    rw [e] at this
    have hp : 0 < A := lt_of_le_of_ne hF (Ne.symm hA)
    have := (div_nonneg_iff.1 this)
    rcases this with h | h
    · linarith [h.1]
    · linarith [h.2]

theorem minkowski (f g : Nat → ℝ) (l : List Nat) :
    √(l.map fun v => (f v + g v) ^ 2).sum ≤ √(l.map fun v => f v ^ 2).sum + √(l.map fun v => g v ^ 2).sum := by
  have hF := sum_nonneg' f l
  have hG := sum_nonneg' g l
  have hc := cauchy f g l
  apply Real.sqrt_le_iff.2
  refine ⟨by positivity, ?_⟩
  have e : (fun v => (f v + g v) ^ 2) = fun v => (f v ^ 2 + 2 * (f v * g v)) + g v ^ 2 := by
    funext v; ring
  rw [e, sum_add' (fun v => f v ^ 2 + 2 * (f v * g v)) (fun v => g v ^ 2),
    sum_add' (fun v => f v ^ 2) (fun v => 2 * (f v * g v)), sum_mul' _ (fun v => f v * g v)]
  have h1 := Real.sq_sqrt hF
  have h2 := Real.sq_sqrt hG
  have h3 : (l.map fun v => f v * g v).sum ≤ √(l.map fun v => f v ^ 2).sum * √(l.map fun v => g v ^ 2).sum := by
    rw [← Real.sqrt_mul hF]
    exact Real.le_sqrt_of_sq_le hc
  nlinarith

theorem sum_bound {f : Nat → ℝ} {l : List Nat} {K : ℝ} (h : ∀ v ∈ l, |f v| ≤ K) :
    (l.map fun v => f v ^ 2).sum ≤ K ^ 2 * l.length := by
  induction l with
  | nil => simp
  | cons a l ih =>
    simp only [List.map_cons, List.sum_cons, List.length_cons]
    have := ih (fun v hv => h v (by simp [hv]))
    have h2 : f a ^ 2 ≤ K ^ 2 := by
      rw [← sq_abs]
      exact pow_le_pow_left₀ (abs_nonneg _) (h a (by simp)) 2
    push_cast
    linarith

theorem sigma_le {f g : Nat → ℝ} {l : List Nat} {K : ℝ} (hK : 0 ≤ K) (h : ∀ v ∈ l, |g v - f v| ≤ K) :
    sigma g l ≤ sigma f l + K := by
  by_cases hl : l = []
  · subst hl; simp [sigma]; exact hK
  have hn : (0 : ℝ) < l.length := by
    have := List.length_pos_of_ne_nil hl
    exact_mod_cast this
  unfold sigma
  rw [Real.sqrt_div (sum_nonneg' (fun v => g v - mu g l) l), Real.sqrt_div (sum_nonneg' (fun v => f v - mu f l) l)]
  have hm := minkowski (fun v => f v - mu f l) (fun v => (g v - f v) - mu (fun v => g v - f v) l) l
  have e : (fun v => (f v - mu f l + ((g v - f v) - mu (fun v => g v - f v) l)) ^ 2) =
      fun v => (g v - mu g l) ^ 2 := by
    have : mu (fun v => g v - f v) l = mu g l - mu f l := by
      unfold mu
      have : (fun v => g v - f v) = fun v => g v + (-1) * f v := by funext v; ring
      rw [this, sum_add' g (fun v => (-1) * f v), sum_mul']
      ring
    funext v
    rw [this]; ring
  rw [e] at hm
  have hE : √(l.map fun v => ((g v - f v) - mu (fun v => g v - f v) l) ^ 2).sum ≤ K * √(l.length : ℝ) := by
    apply Real.sqrt_le_iff.2
    refine ⟨by positivity, ?_⟩
    rw [mul_pow, Real.sq_sqrt hn.le]
    refine le_trans ?_ (sum_bound h)
    have e2 : (fun v => ((g v - f v) - mu (fun v => g v - f v) l) ^ 2) =
        fun v => ((g v - f v) ^ 2 + (-2 * mu (fun v => g v - f v) l) * (g v - f v)) +
          mu (fun v => g v - f v) l ^ 2 := by
      funext v; ring
    rw [e2, sum_add' (fun v => (g v - f v) ^ 2 + (-2 * mu (fun v => g v - f v) l) * (g v - f v))
        (fun _ => mu (fun v => g v - f v) l ^ 2),
      sum_add' (fun v => (g v - f v) ^ 2) (fun v => (-2 * mu (fun v => g v - f v) l) * (g v - f v)),
      sum_mul' _ (fun v => g v - f v), sum_const']
    have : (l.map fun v => g v - f v).sum = mu (fun v => g v - f v) l * l.length := by
      unfold mu; field_simp
    rw [this]
    nlinarith [sq_nonneg (mu (fun v => g v - f v) l)]
  have hs : 0 < √(l.length : ℝ) := Real.sqrt_pos.2 hn
  rw [div_le_iff₀ hs, add_mul, div_mul_cancel₀ _ hs.ne']
  linarith

theorem deviationOf_eq (l : List Nat) : deviationOf l = sigma (fun v => (v : ℝ)) l := by
  unfold deviationOf sigma meanOf mu
  rfl

theorem variance_cast (h : Hist) : ((h.variance : Rat) : ℝ) =
    (h.seen.map fun v => ((median v : ℝ) - mu (fun v => (median v : ℝ)) h.seen) ^ 2).sum / h.seen.length := by
  have hmean : ((h.exactMean : Rat) : ℝ) = mu (fun v => (median v : ℝ)) h.seen := by
    unfold Hist.exactMean mu
    rw [Rat.cast_div]
    congr 1
    · induction h.seen with
      | nil => simp
      | cons a l ih => simp only [List.map_cons, List.sum_cons] at ih ⊢; push_cast at ih ⊢; rw [ih]
  unfold Hist.variance Hist.len
  split
  · rename_i hz
    simp [List.length_eq_zero_iff.1 hz]
  · rw [Rat.cast_div, ← hmean]
    congr 1
    · generalize h.exactMean = c
      induction h.seen with
      | nil => simp
      | cons a l ih => simp only [List.map_cons, List.sum_cons, Rat.cast_add, ih]; push_cast; ring

theorem stdev_floor (h : Hist) : (h.stdev : ℝ) ≤ sigma (fun v => (median v : ℝ)) h.seen ∧
    sigma (fun v => (median v : ℝ)) h.seen < h.stdev + 1 := by
  have hv := variance_cast h
  have hnn : 0 ≤ h.variance := by
    have : (0 : ℝ) ≤ ((h.variance : Rat) : ℝ) := by
      rw [hv]
      exact div_nonneg (sum_nonneg' (fun v => (median v : ℝ) - mu (fun v => (median v : ℝ)) h.seen) _) (Nat.cast_nonneg _)
    exact_mod_cast this
  unfold sigma
  rw [← hv]
  unfold Hist.stdev
  have hf0 : 0 ≤ h.variance.floor := Rat.le_floor_iff.2 (by simpa using hnn)
  have h1 : ((h.variance.floor.toNat : Nat) : Rat) ≤ h.variance := by
    have := Rat.floor_le (a := h.variance)
    have e : ((h.variance.floor.toNat : Nat) : Int) = h.variance.floor := Int.toNat_of_nonneg hf0
    rw [← e] at this
    exact_mod_cast this
  have h2 : h.variance < ((h.variance.floor.toNat + 1 : Nat) : Rat) := by
    have := Rat.lt_floor (x := h.variance)
    have e : ((h.variance.floor.toNat : Nat) : Int) = h.variance.floor := Int.toNat_of_nonneg hf0
    rw [← e] at this
    push_cast at this ⊢
    linarith
  generalize h.variance.floor.toNat = k at *
  constructor
  · apply Real.le_sqrt_of_sq_le
    have : Nat.sqrt k ^ 2 ≤ k := Nat.sqrt_le' k
    have h3 : ((Nat.sqrt k ^ 2 : Nat) : Rat) ≤ h.variance := le_trans (by exact_mod_cast this) h1
    exact_mod_cast h3
  · apply (Real.sqrt_lt' (by positivity)).2
    have : k + 1 ≤ (Nat.sqrt k + 1) ^ 2 := Nat.lt_succ_sqrt' k
    have h3 : h.variance < (((Nat.sqrt k + 1) ^ 2 : Nat) : Rat) := lt_of_lt_of_le h2 (by exact_mod_cast this)
    exact_mod_cast h3

theorem median_abs {v M : Nat} (h : v ≤ M) : |(median v : ℝ) - v| ≤ (M : ℝ) / 2048 := by
  have h1 := (median_error v).1
  have h2 := (median_error v).2
  have h1' : (2048 * median v : ℝ) ≤ 2048 * v + v := by exact_mod_cast h1
  have h2' : (2048 * v : ℝ) ≤ 2048 * median v + v := by exact_mod_cast h2
  have h3 : (v : ℝ) ≤ M := by exact_mod_cast h
  rw [abs_le]
  constructor <;> linarith

/-- The reported deviation is close to that of the samples. -/
theorem stdev_accurate (h : Hist) {M : Nat} (hM : ∀ v ∈ h.seen, v ≤ M) :
    (h.stdev : ℝ) ≤ deviationOf h.seen + M / 2048 ∧ deviationOf h.seen < h.stdev + 1 + M / 2048 := by
  have hs := stdev_floor h
  have hK : (0 : ℝ) ≤ (M : ℝ) / 2048 := by positivity
  have h1 := sigma_le (f := fun v => (v : ℝ)) (g := fun v => (median v : ℝ)) hK (fun v hv => median_abs (hM v hv))
  have h2 := sigma_le (g := fun v => (v : ℝ)) (f := fun v => (median v : ℝ)) hK (fun v hv => by
    rw [abs_sub_comm]; exact median_abs (hM v hv))
  rw [deviationOf_eq]
  constructor
  · linarith [hs.1]
  · linarith [hs.2]

/-- It is exactly that, rounded down, when the samples are counted exactly. -/
theorem stdev_exact (h : Hist) (hM : ∀ v ∈ h.seen, v < 2048) :
    (h.stdev : ℝ) ≤ deviationOf h.seen ∧ deviationOf h.seen < h.stdev + 1 := by
  have hs := stdev_floor h
  have h1 := sigma_le (f := fun v => (v : ℝ)) (g := fun v => (median v : ℝ)) (le_refl 0) (l := h.seen)
    (fun v hv => by rw [median_small (hM v hv)]; simp)
  have h2 := sigma_le (g := fun v => (v : ℝ)) (f := fun v => (median v : ℝ)) (le_refl 0) (l := h.seen)
    (fun v hv => by rw [median_small (hM v hv)]; simp)
  rw [deviationOf_eq]
  constructor
  · linarith [hs.1]
  · linarith [hs.2]

end Monitoring
end Verif
