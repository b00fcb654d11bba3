import Verif.Proofs.Ads7883
/-! C49: the filter of the converter stays within its readings. -/
namespace Verif
namespace Adc

/-- In any run since a start that read `v0`, the output of an iteration lies between two of the values read
until then, this iteration included. -/
theorem C49_range (v0 : UInt16) (rs : List (Option UInt16)) {k : Nat} {o : UInt16}
    (h : (run (start (some v0)) rs).2[k]? = some (some o)) :
    ∃ a ∈ v0 :: (rs.take (k + 1)).filterMap id, ∃ b ∈ v0 :: (rs.take (k + 1)).filterMap id, a ≤ o ∧ o ≤ b := by
  have h0 : Between [v0] (start (some v0)) := ⟨⟨v0, by simp, by simp [start]⟩, v0, by simp, by simp [start]⟩
  generalize start (some v0) = i at *
  have key : ∀ (rs : List (Option UInt16)) (l : List UInt16) (i : Nat) (k : Nat), Between l i →
      (run i rs).2[k]? = some (some o) → ∃ i', Between (l ++ (rs.take (k + 1)).filterMap id) i' ∧ o = UInt16.ofNat (i' / 8) := by
    intro rs
    induction rs with
    | nil => intro l i k _ h; simp [run] at h
    | cons r rs ih =>
      intro l i k hb h
      simp only [run] at h
      cases k with
      | zero =>
        cases r with
        | none => simp [process] at h
        | some v =>
          refine ⟨(process i (some v)).1, ?_, ?_⟩
          · simpa using hb.process v
          · simp [process] at h ⊢
            exact h.symm
      | succ k =>
        simp only [List.getElem?_cons_succ] at h
        cases r with
        | none => simpa [process] using ih l i k hb h
        | some v => simpa using ih _ _ k (hb.process v) h
  obtain ⟨i', hb, rfl⟩ := key rs [v0] i k h0 h
  exact hb.output

example := C49_range 100 [some 190, none, some 10] (k := 2) (o := 98) (by decide)

/-- A failed reading gives no output, a successful one gives one. -/
theorem C49_outputs (i : Nat) (rs : List (Option UInt16)) :
    (run i rs).2.map Option.isSome = rs.map Option.isSome := by
  induction rs generalizing i with
  | nil => rfl
  | cons r rs ih =>
    simp only [run, List.map_cons, ih]
    cases r <;> simp [process]

/-- On a constant input the output is this constant. -/
theorem C49_constant (v : UInt16) (rs : List (Option UInt16)) (h : ∀ r ∈ rs, r = none ∨ r = some v) :
    (run (start (some v)) rs).2 = rs := by
  induction rs with
  | nil => rfl
  | cons r rs ih =>
    have ih := ih (fun r hr => h r (by simp [hr]))
    rcases h r (by simp) with rfl | rfl
    · simp [run, process, ih]
    · have e : (process (start (some v)) (some v)).1 = start (some v) := by simp [process, start]; omega
      have e2 : (process (start (some v)) (some v)).2 = some v := by
        have : (v.toNat * 8 + v.toNat) * 8 / 9 / 8 = v.toNat := by omega
        simp [process, start, this]
      simp [run, e, e2, ih]

example := C49_constant 100 [some 100, none, some 100] (by decide)

/-- The integrated value never overflows. -/
theorem C49_bounded (v0 : Option UInt16) (rs : List (Option UInt16)) (v : UInt16) :
    ((run (start v0) rs).1 + v.toNat) * 8 < 2 ^ 23 := by
  have h0 : ∃ l, Between l (start v0) := by
    cases v0 with
    | none => exact ⟨[0], ⟨0, by simp, by simp [start]⟩, 0, by simp, by simp [start]⟩
    | some v0 => exact ⟨[v0], ⟨v0, by simp, by simp [start]⟩, v0, by simp, by simp [start]⟩
  obtain ⟨l, h⟩ := h0
  obtain ⟨-, b, -, h2⟩ := h.run rs
  have := b.toNat_lt
  have := v.toNat_lt
  omega

/-- Whatever happened before, under a constant input `v` the output settles on `v` (when it was above) or
on `v` or one less (when it was below). -/
theorem C49_settles (i : Nat) (v : UInt16) :
    ∃ N, ∀ n, N ≤ n → ∃ o : UInt16, (run i (List.replicate n (some v) ++ [some v])).2.getLast? = some (some o) ∧
      (8 * v.toNat ≤ i → o = v) ∧ (o = v ∨ o.toNat + 1 = v.toNat) := by
  refine ⟨i + 8 * v.toNat, fun n hn => ?_⟩
  rw [run_append, run_replicate]
  have hv := v.toNat_lt
  refine ⟨_, by simp [run, process]; rfl, ?_⟩
  have e : ∀ m, m < 65536 → (UInt16.ofNat m).toNat = m := by
    intro m hm
    rw [UInt16.toNat_ofNat']
    omega
  by_cases h : 8 * v.toNat ≤ i
  · have hs := settle_down (v := v.toNat) (i := i) (n := n) h (by omega)
    have ho : UInt16.ofNat ((settle v.toNat i n + v.toNat) * 8 / 9 / 8) = v := by
      rw [hs]
      have : (8 * v.toNat + v.toNat) * 8 / 9 / 8 = v.toNat := by omega
      simp [this]
    exact ⟨fun _ => ho, .inl ho⟩
  · have ⟨h1, h2⟩ := settle_up (v := v.toNat) (i := i) (n := n) (by omega) (by omega)
    generalize settle v.toNat i n = j at *
    refine ⟨fun h' => absurd h' h, ?_⟩
    have : (j + v.toNat) * 8 / 9 / 8 = v.toNat ∨ (j + v.toNat) * 8 / 9 / 8 + 1 = v.toNat := by omega
    rcases this with h | h
    · left; simp [h]
    · right; rw [e _ (by omega)]; exact h

example : 8 * (90 : UInt16).toNat ≤ start (some 100) := by decide

/-- It can stay one less for ever: a start at 0 followed by readings of 100. -/
theorem C49_bias (n : Nat) {o : UInt16} (h : (run (start (some 0)) (List.replicate n (some 100))).2.getLast? = some (some o)) :
    o < 100 := by
  cases n with
  | zero => simp [run] at h
  | succ n =>
    rw [List.replicate_succ', run_append, run_replicate] at h
    have hs : ∀ n i, i ≤ 792 → settle 100 i n ≤ 792 := by
      intro n
      induction n with
      | zero => intro i hi; exact hi
      | succ n ih => intro i hi; exact ih _ (by omega)
    have := hs n 0 (by omega)
    have e : (start (some 0)) = 0 := rfl
    have e' : (100 : UInt16).toNat = 100 := rfl
    rw [e, e'] at h
    simp [run, process] at h
    rw [← h, UInt16.lt_iff_toNat_lt, UInt16.toNat_ofNat', e']
    generalize settle 100 0 n = j at *
    have h9 : (j + 100) * 8 / 9 / 8 < 100 := by omega
    exact Nat.lt_of_le_of_lt (Nat.mod_le _ _) h9



example := C49_bias 3 (o := 29) (by decide)

/-- A reading is the word received without its two last bits; a word with its two leading zeros gives twelve
bits. -/
theorem C49_wire (b0 b1 : UInt8) :
    (readAdc b0 b1).toNat = (b0.toNat * 256 + b1.toNat) / 4 ∧ (b0 < 64 → readAdc b0 b1 < 4096) := by
  have h0 := b0.toNat_lt
  have h1 := b1.toNat_lt
  have e : (readAdc b0 b1).toNat = (b0.toNat * 256 + b1.toNat) / 4 := by
    have : b0.toNat <<< 8 ||| b1.toNat = b0.toNat * 256 + b1.toNat := by
      rw [← Nat.shiftLeft_add_eq_or_of_lt (by omega), Nat.shiftLeft_eq]
    simp only [readAdc, UInt16.toNat_shiftRight, UInt16.toNat_or, UInt16.toNat_shiftLeft, UInt8.toNat_toUInt16]
    have e8 : b0.toNat <<< 8 = b0.toNat * 256 := by simp [Nat.shiftLeft_eq]
    simp
    rw [Nat.mod_eq_of_lt (by omega), this, Nat.shiftRight_eq_div_pow]
  refine ⟨e, fun h => ?_⟩
  rw [UInt8.lt_iff_toNat_lt] at h
  rw [UInt16.lt_iff_toNat_lt, e]
  simp at h ⊢
  omega

example : (run (start (some 100)) [some 190, none, some 10]).2 = [some 110, none, some 98] := by decide

end Adc
end Verif
