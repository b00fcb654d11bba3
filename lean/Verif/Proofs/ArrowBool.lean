import Verif.Spec.ArrowBool
/-! Lemmas on the words of bits of the boolean kernels. -/
namespace Verif
namespace Arrow

/-- The bit of a list, false outside of it. -/
def bit (l : List Bool) (i : Nat) : Bool := l.getD i false

theorem bit_nil (i : Nat) : bit [] i = false := by simp [bit]
theorem bit_cons_zero (b : Bool) (l : List Bool) : bit (b :: l) 0 = b := rfl
theorem bit_cons_succ (b : Bool) (l : List Bool) (i : Nat) : bit (b :: l) (i + 1) = bit l i := by simp [bit]

theorem bit_of_lt {l : List Bool} {i : Nat} (h : i < l.length) : bit l i = l[i] := by simp [bit, h]
theorem bit_of_ge {l : List Bool} {i : Nat} (h : l.length ≤ i) : bit l i = false := by simp [bit, h]

theorem bit_drop (l : List Bool) (n i : Nat) : bit (l.drop n) i = bit l (n + i) := by
  simp [bit, List.getD_eq_getElem?_getD]

theorem bit_take (l : List Bool) (n i : Nat) : bit (l.take n) i = (decide (i < n) && bit l i) := by
  by_cases h : i < n
  · simp [bit, List.getD_eq_getElem?_getD, h]
  · simp [bit, List.getD_eq_getElem?_getD, h, List.getElem?_take]

theorem word_bit (l : List Bool) (j : Nat) : (word l).getLsbD j = (decide (j < 64) && bit l j) := by
  induction l generalizing j with
  | nil => simp [word, bit_nil]
  | cons b l ih =>
    simp only [word, BitVec.getLsbD_or, BitVec.getLsbD_shiftLeft, ih]
    cases j with
    | zero => cases b <;> simp [bit_cons_zero]
    | succ j =>
      have h1 : (if b = true then (1#64) else 0#64).getLsbD (j + 1) = false := by
        cases b <;> simp [BitVec.getLsbD_one]
      rw [h1, bit_cons_succ]
      by_cases h : j + 1 < 64
      · have : j < 64 := by omega
        simp [h, this]
      · simp [h]

theorem bit_wordBits (n : Nat) (w : BitVec 64) (i : Nat) :
    bit (wordBits n w) i = (decide (i < n) && w.getLsbD i) := by
  by_cases h : i < n
  · simp [bit, wordBits, List.getD_eq_getElem?_getD, h]
  · simp [bit, wordBits, List.getD_eq_getElem?_getD, h]

theorem wordBits_length (n : Nat) (w : BitVec 64) : (wordBits n w).length = n := by simp [wordBits]

theorem bit_append (a b : List Bool) (i : Nat) :
    bit (a ++ b) i = if i < a.length then bit a i else bit b (i - a.length) := by
  by_cases h : i < a.length
  · simp [bit, List.getD_eq_getElem?_getD, h, List.getElem?_append]
  · simp [bit, List.getD_eq_getElem?_getD, h, List.getElem?_append]

theorem store_length (ws : List (BitVec 64)) (rem : BitVec 64) (n : Nat) :
    (store ws rem n).length = 64 * ws.length + 8 * ((n + 7) / 8) := by
  unfold store
  induction ws with
  | nil => simp [wordBits_length]
  | cons w ws ih =>
    simp only [List.length_append, List.flatMap_cons, wordBits_length, List.length_cons] at ih ⊢
    omega

theorem bit_store (ws : List (BitVec 64)) (rem : BitVec 64) (n i : Nat) :
    bit (store ws rem n) i =
      if i < 64 * ws.length then (ws.getD (i / 64) 0#64).getLsbD (i % 64)
      else (decide (i - 64 * ws.length < 8 * ((n + 7) / 8)) && rem.getLsbD (i - 64 * ws.length)) := by
  induction ws generalizing i with
  | nil => simp [store, bit_wordBits]
  | cons w ws ih =>
    have hs : store (w :: ws) rem n = wordBits 64 w ++ store ws rem n := by simp [store]
    rw [hs, bit_append, wordBits_length]
    by_cases h : i < 64
    · rw [if_pos h, if_pos (by simp; omega), bit_wordBits]
      have h1 : i / 64 = 0 := by omega
      have h2 : i % 64 = i := by omega
      simp [h, h1, h2]
    · rw [if_neg h, ih]
      have h1 : i / 64 = (i - 64) / 64 + 1 := by omega
      have h2 : i % 64 = (i - 64) % 64 := by omega
      have h3 : i - 64 * (w :: ws).length = i - 64 - 64 * ws.length := by simp; omega
      have h4 : (i < 64 * (w :: ws).length) ↔ (i - 64 < 64 * ws.length) := by simp; omega
      rw [h1, h2, h3]
      simp only [h4, List.getD_cons_succ]

theorem chunks_ok {bits : List Bool} {off len : Nat} (h : off + len ≤ bits.length) :
    ∃ c, chunks bits off len = .ok c ∧ c.words.length = len / 64 ∧ c.remLen = len % 64 ∧
      (∀ i, i < 64 * (len / 64) → (c.words.getD (i / 64) 0#64).getLsbD (i % 64) = bit bits (off + i)) ∧
      ∀ j, c.rem.getLsbD j = (decide (j < len % 64) && bit bits (off + 64 * (len / 64) + j)) := by
  refine ⟨_, if_neg (by omega), by simp, rfl, fun i hi => ?_, fun j => ?_⟩
  · have h1 : i / 64 < len / 64 := by omega
    have h2 : off + 64 * (i / 64) + i % 64 = off + i := by omega
    have h3 : i % 64 < 64 := by omega
    have e : ((List.range (len / 64)).map fun k => word ((bits.drop (off + 64 * k)).take 64)).getD (i / 64) 0#64 =
        word ((bits.drop (off + 64 * (i / 64))).take 64) := by
      simp [List.getD_eq_getElem?_getD, h1]
    refine (congrArg (fun w => BitVec.getLsbD w (i % 64)) e).trans ?_
    simp only [word_bit, bit_take, bit_drop, h2, h3, decide_true, Bool.true_and]
  · simp only [word_bit, bit_take, bit_drop]
    by_cases hj : j < len % 64
    · have : j < 64 := by omega
      simp [hj, this]
    · simp [hj]

/-- An operation on words that works bit by bit. -/
def Bitwise (op : BitVec 64 → BitVec 64 → BitVec 64) (f : Bool → Bool → Bool) : Prop :=
  ∀ x y i, i < 64 → (op x y).getLsbD i = f (x.getLsbD i) (y.getLsbD i)

theorem bitAux {len i : Nat} : ¬ i < 64 * (len / 64) → i < len → i - 64 * (len / 64) < len % 64 := by omega

theorem binOp_ok {l r : List Bool} {lo ro len : Nat} {op : BitVec 64 → BitVec 64 → BitVec 64}
    {f : Bool → Bool → Bool} (hf : Bitwise op f) (hl : lo + len ≤ l.length) (hr : ro + len ≤ r.length) :
    ∃ bs, binOp l lo r ro len op = .ok bs ∧ bs.length = 8 * ((len + 7) / 8) ∧
      (∀ i, i < len → bit bs i = f (bit l (lo + i)) (bit r (ro + i))) ∧
      ∀ i, len ≤ i → i < 8 * ((len + 7) / 8) → bit bs i = f false false := by
  obtain ⟨a, ha, ha1, ha2, ha3, ha4⟩ := chunks_ok hl
  obtain ⟨b, hb, hb1, hb2, hb3, hb4⟩ := chunks_ok hr
  have hlen : (List.zipWith op a.words b.words).length = len / 64 := by simp [ha1, hb1]
  refine ⟨store (List.zipWith op a.words b.words) (op a.rem b.rem) a.remLen, ?_, ?_, fun i hi => ?_, fun i hi hi' => ?_⟩
  · simp only [binOp, ha, hb]
  · rw [store_length, hlen, ha2]
    omega
  · rw [bit_store, hlen, ha2]
    by_cases h : i < 64 * (len / 64)
    · have h1 : i / 64 < a.words.length := by omega
      have h2 : i / 64 < b.words.length := by omega
      have e : (List.zipWith op a.words b.words).getD (i / 64) 0#64 =
          op (a.words.getD (i / 64) 0#64) (b.words.getD (i / 64) 0#64) := by
        simp [List.getD_eq_getElem?_getD, h1, h2, List.getElem?_zipWith]
      rw [if_pos h, e, hf _ _ _ (by omega), ha3 i h, hb3 i h]
    · have h1 := bitAux h hi
      have h2 : i - 64 * (len / 64) < 8 * ((len % 64 + 7) / 8) := by omega
      have h3 : lo + 64 * (len / 64) + (i - 64 * (len / 64)) = lo + i := by omega
      have h4 : ro + 64 * (len / 64) + (i - 64 * (len / 64)) = ro + i := by omega
      rw [if_neg h, hf _ _ _ (by omega), ha4, hb4, h3, h4]
      simp [h1, h2]
  · rw [bit_store, hlen, ha2, if_neg (by omega), hf _ _ _ (by omega), ha4, hb4]
    have h1 : ¬ i - 64 * (len / 64) < len % 64 := by omega
    have h2 : i - 64 * (len / 64) < 8 * ((len % 64 + 7) / 8) := by omega
    simp [h1, h2]

theorem quadOp_ok {a b c d : List Bool} {ao bo co d' len : Nat}
    {op : BitVec 64 → BitVec 64 → BitVec 64 → BitVec 64 → BitVec 64} {f : Bool → Bool → Bool → Bool → Bool}
    (hf : ∀ x y z w i, i < 64 → (op x y z w).getLsbD i = f (x.getLsbD i) (y.getLsbD i) (z.getLsbD i) (w.getLsbD i))
    (ha : ao + len ≤ a.length) (hb : bo + len ≤ b.length) (hc : co + len ≤ c.length) (hd : d' + len ≤ d.length) :
    ∃ bs, quadOp a ao b bo c co d d' len op = .ok bs ∧ bs.length = 8 * ((len + 7) / 8) ∧
      ∀ i, i < len → bit bs i = f (bit a (ao + i)) (bit b (bo + i)) (bit c (co + i)) (bit d (d' + i)) := by
  obtain ⟨p, hp, hp1, hp2, hp3, hp4⟩ := chunks_ok ha
  obtain ⟨q, hq, hq1, hq2, hq3, hq4⟩ := chunks_ok hb
  obtain ⟨r, hr, hr1, hr2, hr3, hr4⟩ := chunks_ok hc
  obtain ⟨s, hs, hs1, hs2, hs3, hs4⟩ := chunks_ok hd
  have hlen : (List.zipWith (fun f x => f x) (List.zipWith (fun f x => f x) (List.zipWith op p.words q.words)
            r.words) s.words).length = len / 64 := by simp [hp1, hq1, hr1, hs1]
  refine ⟨store (List.zipWith (fun f x => f x) (List.zipWith (fun f x => f x) (List.zipWith op p.words q.words)
            r.words) s.words) (op p.rem q.rem r.rem s.rem) p.remLen, by simp only [quadOp, hp, hq, hr, hs], ?_,
    fun i hi => ?_⟩
  · rw [store_length, hlen, hp2]
    omega
  · rw [bit_store, hlen, hp2]
    by_cases h : i < 64 * (len / 64)
    · have h1 : i / 64 < p.words.length := by omega
      have h2 : i / 64 < q.words.length := by omega
      have h3 : i / 64 < r.words.length := by omega
      have h4 : i / 64 < s.words.length := by omega
      have e : (List.zipWith (fun f x => f x) (List.zipWith (fun f x => f x) (List.zipWith op p.words q.words)
            r.words) s.words).getD (i / 64) 0#64 =
          op (p.words.getD (i / 64) 0#64) (q.words.getD (i / 64) 0#64) (r.words.getD (i / 64) 0#64)
            (s.words.getD (i / 64) 0#64) := by
        simp [List.getD_eq_getElem?_getD, h1, h2, h3, h4, List.getElem?_zipWith]
      rw [if_pos h, e, hf _ _ _ _ _ (by omega), hp3 i h, hq3 i h, hr3 i h, hs3 i h]
    · have h1 := bitAux h hi
      have h2 : i - 64 * (len / 64) < 8 * ((len % 64 + 7) / 8) := by omega
      have h3 : ∀ o, o + 64 * (len / 64) + (i - 64 * (len / 64)) = o + i := by omega
      rw [if_neg h, hf _ _ _ _ _ (by omega), hp4, hq4, hr4, hs4, h3, h3, h3, h3]
      simp [h1, h2]

/-- The bits a buffer shows, one by one. -/
theorem view_eq {b : BoolBuf} (h : b.off + b.len ≤ b.bits.length) :
    b.view = (List.range b.len).map fun i => bit b.bits (b.off + i) := by
  apply List.ext_getElem
  · simp [BoolBuf.view]; omega
  · intro i h1 h2
    simp only [BoolBuf.view, List.getElem_take, List.getElem_drop, List.getElem_map, List.getElem_range]
    rw [bit_of_lt]

theorem slots_range {α : Type} (n : Nat) (v : Nat → α) (b : Nat → Bool) :
    slots ((List.range n).map v) (some ((List.range n).map b)) = (List.range n).map fun i => slot (b i) (v i) := by
  simp [slots, List.zipWith_map, List.zipWith_self]

theorem slots_range_none {α : Type} (n : Nat) (v : Nat → α) :
    slots ((List.range n).map v) none = (List.range n).map fun i => slot true (v i) := by
  simp [slots, slot]

/-- The validity of a slot. -/
def validAt : Option BoolBuf → Nat → Bool
  | none, _ => true
  | some n, i => bit n.bits (n.off + i)

theorem slots_eq {a : BoolArray} (h : a.Ok) :
    a.slots = (List.range a.values.len).map fun i => slot (validAt a.nulls i) (bit a.values.bits (a.values.off + i)) := by
  obtain ⟨h1, h2⟩ := h
  unfold BoolArray.slots
  rw [view_eq h1]
  cases hn : a.nulls with
  | none => exact slots_range_none ..
  | some n =>
    obtain ⟨h3, h4⟩ := h2 n hn
    simp only [Option.map_some]
    rw [view_eq h3, h4]
    exact slots_range ..

theorem zipWith_range {α β γ : Type} (f : α → β → γ) (n : Nat) (a : Nat → α) (b : Nat → β) :
    List.zipWith f ((List.range n).map a) ((List.range n).map b) = (List.range n).map fun i => f (a i) (b i) := by
  simp [List.zipWith_map, List.zipWith_self]

theorem combine_ok {op : BitVec 64 → BitVec 64 → BitVec 64} {f : Bool → Bool → Bool} (hf : Bitwise op f)
    {a b : BoolBuf} (hl : a.len = b.len) (ha : a.off + a.len ≤ a.bits.length) (hb : b.off + b.len ≤ b.bits.length) :
    ∃ bs, a.combine op b = .ok ⟨bs, 0, a.len⟩ ∧ a.len ≤ bs.length ∧
      ∀ i, i < a.len → bit bs i = f (bit a.bits (a.off + i)) (bit b.bits (b.off + i)) := by
  obtain ⟨bs, h1, h2, h3, -⟩ := binOp_ok hf ha (by omega : b.off + a.len ≤ b.bits.length)
  refine ⟨bs, ?_, by omega, h3⟩
  simp only [BoolBuf.combine, hl, ne_eq, not_true_eq_false, if_false]
  rw [← hl, h1]

theorem not_ok {a : BoolBuf} (ha : a.off + a.len ≤ a.bits.length) :
    ∃ bs, a.not = .ok ⟨bs, 0, a.len⟩ ∧ a.len ≤ bs.length ∧
      ∀ i, i < a.len → bit bs i = !bit a.bits (a.off + i) := by
  obtain ⟨c, h, h1, h2, h3, h4⟩ := chunks_ok ha
  refine ⟨_, by simp only [BoolBuf.not, h]; rfl, ?_, fun i hi => ?_⟩
  · rw [store_length, List.length_map, h1, h2]; omega
  · rw [bit_store, List.length_map, h1, h2]
    by_cases hb : i < 64 * (a.len / 64)
    · have hw : i / 64 < c.words.length := by omega
      have e : (c.words.map (~~~ ·)).getD (i / 64) 0#64 = ~~~ c.words.getD (i / 64) 0#64 := by
        simp [List.getD_eq_getElem?_getD, hw]
      have h5 : i % 64 < 64 := by omega
      rw [if_pos hb, e, BitVec.getLsbD_not, h3 i hb]
      simp [h5]
    · have h5 := bitAux hb hi
      have h6 : i - 64 * (a.len / 64) < 8 * ((a.len % 64 + 7) / 8) := by omega
      have h7 : a.off + 64 * (a.len / 64) + (i - 64 * (a.len / 64)) = a.off + i := by omega
      have h8 : i - 64 * (a.len / 64) < 64 := by omega
      rw [if_neg hb, BitVec.getLsbD_not, h4, h7]
      simp [h5, h6, h8]

end Arrow
end Verif
