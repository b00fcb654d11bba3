import Verif.Model.ConsoleTables
import Verif.Spec.ConsoleTables
import Verif.Proofs.ConsoleMon
import Verif.Proofs.Quantile
import Verif.Proofs.ShowTime
/-! Lemmas on the table of latencies. -/
namespace Verif
namespace ShowTime
open Fp Clock

theorem showDiv_length {n : Nat} (hn : n < 2 ^ 64) {d : ℚ} (hd : 1 ≤ d) (u : List Char) {j : Nat} (hj : 0 < j)
    (h : thousandths n d < 10 ^ j * 1000) : (showDiv n d u).length ≤ j + 5 + u.length := by
  rw [showDiv_eq hn hd]
  have h1 : (Nat.toDigits 10 (thousandths n d / 1000)).length ≤ j :=
    (Nat.length_toDigits_le_iff (by decide) hj).2 (by omega)
  simp only [List.length_append, List.length_cons, pad3, List.length_nil]
  omega

/-- The text of a duration up to some hours fits in ten characters, unless rounding makes a thousand
milliseconds of it; it always fits in eleven. -/
theorem text_length {n : Nat} (hn : n < 86400000000000) :
    (text ⟨UInt64.ofNat n⟩).length ≤ 11 ∧
    (¬ (999999500 ≤ n ∧ n < 1000000000) → (text ⟨UInt64.ofNat n⟩).length ≤ 10) := by
  have e : (UInt64.ofNat n).toNat = n := by simp; omega
  have h64 : n < 2 ^ 64 := by omega
  unfold text
  simp only [e]
  rw [if_neg (by omega)]
  have key : ∀ (d m : Nat) (u : List Char) (j : Nat), 1 ≤ d → 0 < j → m < 10000 → m * d < 9007199254740992 →
      n ≤ m * d → m < 10 ^ j → (showDiv n (d : ℚ) u).length ≤ j + 5 + u.length := by
    intro d m u j h1 hj h2 h3 h4 h5
    apply showDiv_length h64 (by exact_mod_cast h1) u hj
    have a := thousandths_mono h4 (d := (d : ℚ)) (by exact_mod_cast h1)
    rw [thousandths_at h2 h1 h3] at a
    omega
  split
  · have := key 3600000000000 24 ['h'] 2 (by decide) (by decide) (by decide) (by decide) (by omega) (by decide)
    simp only [Nat.cast_ofNat, List.length_cons, List.length_nil] at this
    omega
  split
  · have := key 60000000000 60 ['m'] 2 (by decide) (by decide) (by decide) (by decide) (by omega) (by decide)
    simp only [Nat.cast_ofNat, List.length_cons, List.length_nil] at this
    omega
  split
  · have := key 1000000000 60 ['s'] 2 (by decide) (by decide) (by decide) (by decide) (by omega) (by decide)
    simp only [Nat.cast_ofNat, List.length_cons, List.length_nil] at this
    omega
  split
  · have := key 1000000 1000 ['m', 's'] 4 (by decide) (by decide) (by decide) (by decide) (by omega) (by decide)
    simp only [Nat.cast_ofNat, List.length_cons, List.length_nil] at this
    refine ⟨by omega, fun h => ?_⟩
    have h1 : n ≤ 999999499 := by omega
    have h2 := thousandths_mono h1 (d := 1000000) (by norm_num)
    have h3 : thousandths 999999499 1000000 = 999999 := by decide +kernel
    have := showDiv_length h64 (d := 1000000) (by norm_num) ['m', 's'] (j := 3) (by decide) (by omega)
    simpa using this
  split
  · have h1 : n ≤ 999999 := by omega
    have h2 := thousandths_mono h1 (d := 1000) (by norm_num)
    have h3 : thousandths 999999 1000 = 999999 := by decide +kernel
    have := showDiv_length h64 (d := 1000) (by norm_num) ['µ', 's'] (j := 3) (by decide) (by omega)
    simp only [List.length_cons, List.length_nil] at this
    omega
  · have h1 : (Nat.toDigits 10 n).length ≤ 3 := (Nat.length_toDigits_le_iff (by decide) (by decide)).2 (by omega)
    simp only [List.length_append, List.length_cons, List.length_nil]
    omega

/-- It starts with a digit. -/
theorem text_head {n : Nat} (hn : n < 2 ^ 64) : ∃ c l, text ⟨UInt64.ofNat n⟩ = c :: l ∧ c ≠ ' ' := by
  have dig : ∀ (k : Nat) (r : List Char), ∃ c l, Nat.toDigits 10 k ++ r = c :: l ∧ c ≠ ' ' := by
    intro k r
    have h : ∀ x ∈ Nat.toDigits 10 k, Char.isDigit x = true := fun x hx =>
      Nat.isDigit_of_mem_toDigits (by decide) (by decide) hx
    have hp : 0 < (Nat.toDigits 10 k).length := Nat.length_toDigits_pos
    match hk : Nat.toDigits 10 k with
    | [] => rw [hk] at hp; simp at hp
    | c :: l =>
      refine ⟨c, l ++ r, rfl, fun hc => ?_⟩
      have := h c (by rw [hk]; simp)
      rw [hc] at this
      exact absurd this (by decide)
  have sd : ∀ (d : ℚ) (u : List Char), 1 ≤ d → ∃ c l, showDiv n d u = c :: l ∧ c ≠ ' ' := by
    intro d u hd
    rw [showDiv_eq hn hd]
    exact dig _ _
  have e : (UInt64.ofNat n).toNat = n := by simp; omega
  unfold text
  simp only [e]
  repeat' split
  · exact sd _ _ (by norm_num)
  · exact sd _ _ (by norm_num)
  · exact sd _ _ (by norm_num)
  · exact sd _ _ (by norm_num)
  · exact sd _ _ (by norm_num)
  · exact sd _ _ (by norm_num)
  · exact dig _ _

end ShowTime

namespace Monitoring

/-- The lower end of a bucket is not just below a second. -/
theorem lowest_not (v : Nat) : ¬ (999999500 ≤ lowest v ∧ lowest v < 1000000000) := by
  rintro ⟨h1, h2⟩
  have hle := lowest_le v
  have hlt := lt_lowest v
  have he := lowest_error v
  have h0 : v ≠ 0 := by omega
  have ha : 29 ≤ Nat.log2 v := (Nat.le_log2 h0).2 (by omega)
  have hb : Nat.log2 v < 30 := (Nat.log2_lt h0).2 (by omega)
  have hs : shift v = 19 := by unfold shift; omega
  unfold lowest at h1 h2
  rw [hs] at h1 h2
  omega

theorem median_le_two (v : Nat) : median v ≤ 2 * v := by
  have := median_error v
  omega

/-- The deviation is at most as large as the largest median. -/
theorem stdev_le (h : Hist) {B : Nat} (hB : ∀ v ∈ h.seen, median v ≤ B) : h.stdev ≤ B := by
  unfold Hist.stdev
  rw [← Nat.lt_succ_iff, Nat.sqrt_lt']
  have hv : h.variance ≤ (B : ℚ) * B := by
    unfold Hist.variance
    split
    · positivity
    · rename_i hl
      have hp : (0 : ℚ) < h.len := by exact_mod_cast Nat.pos_of_ne_zero hl
      have hm0 : 0 ≤ h.exactMean := by unfold Hist.exactMean; positivity
      have hm1 : h.exactMean ≤ B := by
        unfold Hist.exactMean
        rw [div_le_iff₀ (by exact_mod_cast Nat.pos_of_ne_zero hl)]
        have := sum_le (l := h.seen.map median) (b := B) (by simpa using hB)
        rw [List.length_map] at this
        exact_mod_cast this
      rw [div_le_iff₀ hp]
      have key : ∀ l : List Nat, (∀ v ∈ l, median v ≤ B) →
          (l.map fun v => ((median v : ℚ) - h.exactMean) * ((median v : ℚ) - h.exactMean)).sum ≤ (B : ℚ) * B * l.length := by
        intro l hl
        induction l with
        | nil => simp
        | cons a l ih =>
          have ha : (median a : ℚ) ≤ B := by exact_mod_cast hl a (by simp)
          have ha0 : (0 : ℚ) ≤ median a := by positivity
          have := ih (fun v hv => hl v (by simp [hv]))
          simp only [List.map_cons, List.sum_cons, List.length_cons]
          push_cast
          have : ((median a : ℚ) - h.exactMean) * ((median a : ℚ) - h.exactMean) ≤ (B : ℚ) * B := by nlinarith
          linarith
      exact key h.seen hB
  have hf : h.variance.floor ≤ (B * B : Nat) := by
    have h1 := Rat.floor_le (a := h.variance)
    have : (h.variance.floor : ℚ) ≤ ((B * B : Nat) : Int) := by push_cast; linarith
    exact_mod_cast this
  have : h.variance.floor.toNat ≤ B * B := by omega
  nlinarith

end Monitoring

namespace ConsoleMon
open Clock Monitoring ShowTime

theorem cell_length (w : Nat) (s : List Char) : (cell w s).length = w := by
  simp only [cell, List.length_append, List.length_replicate, List.length_drop]
  omega

theorem written_cell {w : Nat} {s : List Char} (h : s.length ≤ w) (hs : ∀ c ∈ s.head?, c ≠ ' ') :
    written (cell w s) = s := by
  unfold written cell
  rw [show s.length - w = 0 by omega, List.drop_zero, List.dropWhile_append_of_pos (by simp)]
  cases s with
  | nil => rfl
  | cons c s => rw [List.dropWhile_cons, if_neg]; simpa using hs

theorem reads_figure {w n : Nat} (hn : n < 86400000000000) (h : (figure n).length ≤ w) : Reads (cell w (figure n)) n := by
  have e : (UInt64.ofNat n).toNat = n := by simp; omega
  obtain ⟨c, l, hc, hsp⟩ := text_head (n := n) (by omega)
  have hw := written_cell h (fun x hx => by
    unfold figure at hx; rw [hc] at hx; simp at hx; subst hx; exact hsp)
  refine ⟨_, by rw [hw]; exact read_text _, ?_, ?_⟩
  · rw [e]; exact shown_near (by omega)
  · rw [e]
    intro h
    unfold shown
    rw [if_neg (by omega), if_neg (by omega), if_neg (by omega), if_neg (by omega), if_neg (by omega), if_neg (by omega)]

theorem differences_le {M : Nat} {l : List Nat} : (∀ v ∈ l, v ≤ M) → ∀ v ∈ differences l, v ≤ M := by
  induction l with
  | nil => simp [differences]
  | cons a l ih =>
    intro h
    cases l with
    | nil => simp [differences]
    | cons b l =>
      intro v hv
      have ha := h a (by simp)
      have hb := h b (by simp)
      simp only [differences, List.mem_cons] at hv
      rcases hv with rfl | hv
      · split <;> omega
      · exact ih (fun x hx => h x (List.mem_cons_of_mem _ hx)) v hv

/-- The largest figure of a histogram of values below 2^33. -/
theorem max_small {h : Hist} (hs : ∀ v ∈ h.seen, v ≤ 8589934592) : h.max ≤ 17179869184 := by
  have ha := hist_accurate h
  by_cases he : h.seen = []
  · rw [(ha.2.1 he).2.2]; omega
  · obtain ⟨m, -, hm⟩ := exists_max he
    have h1 := ha.2.2.2.1 m hm
    have h2 := hs m hm.1
    omega

theorem row_shows (name : List Char) {l : List Nat} {s : DurStats} (hi : Inv N l s) :
    ShowsRow name l (latencyRow name s) := by
  have e1 : s.bare.seen = l := by rw [hi.bare]
  have e2 : s.jitter.seen = differences l := by rw [hi.jitter]
  have hl : ∀ v ∈ l, v ≤ 8589934592 := by
    intro v hv
    have := hi.small v hv
    have hN : N = 22 := by decide +kernel
    rw [hN] at this
    omega
  have ha := hist_accurate s.bare
  have hb := hist_accurate s.jitter
  have ha' := ha
  have hb' := hb
  rw [e1] at ha
  rw [e2] at hb
  have m1 := max_small (h := s.bare) (by rw [e1]; exact hl)
  have m2 := max_small (h := s.jitter) (by rw [e2]; exact differences_le hl)
  have hsd : s.stddev ≤ 17179869184 := stdev_le s.bare (fun v hv => by
    have h1 := hl v (e1 ▸ hv)
    have h2 := median_le_two v
    omega)
  have hd : DeviationOk l s.stddev := fun M hM => by
    have := stdev_accurate s.bare (M := M) (by rw [e1]; exact hM)
    rw [e1] at this
    exact this
  obtain ⟨-, -, -, -, -, o1, o2⟩ := ha'
  obtain ⟨-, -, -, -, -, o3, o4⟩ := hb'
  have f : ∀ {w n : Nat}, n ≤ 17179869184 → 11 ≤ w → Reads (cell w (figure n)) n := fun h hw =>
    reads_figure (by omega) (le_trans (text_length (by omega)).1 hw)
  refine ⟨by simp [latencyRow, cell_length], _, _, _, _, _, _, _, s.bare.len, s.bare.min, s.bare.mean, s.bare.max, s.stddev, s.jitter.len,
    s.jitter.min, s.jitter.mean, s.jitter.max, rfl, fun h1 h2 => written_cell h1 h2, ha, hb, hd, ?_, f m1 (by decide),
    f (by omega) (by decide), ?_, f (by omega) (by decide), f m2 (by decide)⟩
  · exact reads_figure (by omega) ((text_length (by omega)).2 (lowest_not _))
  · exact fun hx => reads_figure (by omega) ((text_length (by omega)).2 hx)

theorem rows_ok (ids : List (List Char)) : ∀ (ss : List DurStats) (i : Nat), i + ss.length ≤ ids.length →
    ∃ rows, latencyRows ids i ss = .ok rows ∧ rows.length = ss.length ∧
      ∀ k s id, ss[k]? = some s → ids[i + k]? = some id → rows[k]? = some (latencyRow id s) := by
  intro ss
  induction ss with
  | nil => exact fun i _ => ⟨[], rfl, rfl, by simp⟩
  | cons s ss ih =>
    intro i hi
    simp only [List.length_cons] at hi
    obtain ⟨rows, h1, h2, h3⟩ := ih (i + 1) (by omega)
    have hid : ids[i]? = some (ids[i]'(by omega)) := List.getElem?_eq_getElem _
    refine ⟨latencyRow (ids[i]'(by omega)) s :: rows, ?_, by simp [h2], ?_⟩
    · simp only [latencyRows, hid, h1]
    · intro k s' id hk hkid
      cases k with
      | zero =>
        simp only [List.getElem?_cons_zero, Option.some.injEq] at hk
        rw [Nat.add_zero, hid] at hkid
        cases hkid
        rw [hk]
        rfl
      | succ k =>
        simp only [List.getElem?_cons_succ] at hk ⊢
        exact h3 k s' id hk (by rw [← hkid]; congr 1; omega)

end ConsoleMon
end Verif
