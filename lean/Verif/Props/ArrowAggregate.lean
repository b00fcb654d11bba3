import Verif.Proofs.ArrowAggregate
import Verif.Model.Fp
/-! C99: an aggregate of an array is that of its values that are not null. -/
namespace Verif
namespace Arrow
variable {T : Type}

theorem sum_lawful (w : Nat) : (sumAcc 0#w (· + ·)).Lawful where
  comm := BitVec.add_comm
  assoc := BitVec.add_assoc
  unit := BitVec.add_zero
  acc _ _ := rfl
  accN _ _ _ := rfl

theorem sum_total {w : Nat} (l : List (BitVec w)) :
    (sumAcc 0#w (· + ·)).total l = BitVec.ofInt w (l.map BitVec.toInt).sum := by
  induction l with
  | nil => simp [Acc.total, sumAcc]
  | cons x l ih =>
    rw [total_cons, ih, List.map_cons, List.sum_cons, BitVec.ofInt_add, BitVec.ofInt_toInt]
    rfl

/-- The sum of an array of integers of any width is the sum of its values that are not null, wrapped around; no
sum if there are none.  For any vectors of the machine, except when the shift overflows. -/
theorem C99_sum_partial {w : Nat} (ov : Overflow) (vec size : Nat) (hb : Build vec size)
    (ho : ¬ Overflows ov vec size) (values : List (BitVec w)) (nulls : Option BoolBuf) (hf : Fits values nulls) :
    aggregate ov vec size false (sumAcc 0#w (· + ·)) values nulls =
      .ok (if present values nulls = [] then none
        else some (BitVec.ofInt w ((present values nulls).map BitVec.toInt).sum)) := by
  rw [aggregate_total (sum_lawful w) hb ho false values nulls hf, sum_total]

theorem min_lawful (key : T → Int) (inj : ∀ a b, key a = key b → a = b) (top : T) (ht : ∀ x, key x ≤ key top) :
    (minAcc top fun a b => decide (key a < key b)).Lawful where
  comm a b := by
    simp only [minAcc, select, decide_eq_true_eq]
    by_cases h1 : key b < key a
    · rw [if_pos h1, if_neg (by omega)]
    · by_cases h2 : key a < key b
      · rw [if_neg h1, if_pos h2]
      · rw [if_neg h1, if_neg h2]
        exact inj _ _ (by omega)
  assoc a b c := by
    simp only [minAcc, select, decide_eq_true_eq]
    by_cases h1 : key b < key a <;> by_cases h2 : key c < key b <;> by_cases h3 : key c < key a <;>
      simp [h1, h2, h3] <;> omega
  unit a := by
    have := ht a
    simp only [minAcc, select, decide_eq_true_eq]
    rw [if_neg (by omega)]
  acc _ _ := rfl
  accN a v b := by cases b <;> rfl

theorem max_lawful (key : T → Int) (inj : ∀ a b, key a = key b → a = b) (bottom : T)
    (ht : ∀ x, key bottom ≤ key x) : (maxAcc bottom fun a b => decide (key b < key a)).Lawful where
  comm a b := by
    simp only [maxAcc, select, decide_eq_true_eq]
    by_cases h1 : key a < key b
    · rw [if_pos h1, if_neg (by omega)]
    · by_cases h2 : key b < key a
      · rw [if_neg h1, if_pos h2]
      · rw [if_neg h1, if_neg h2]
        exact inj _ _ (by omega)
  assoc a b c := by
    simp only [maxAcc, select, decide_eq_true_eq]
    by_cases h1 : key a < key b <;> by_cases h2 : key b < key c <;> by_cases h3 : key a < key c <;>
      simp [h1, h2, h3] <;> omega
  unit a := by
    have := ht a
    simp only [maxAcc, select, decide_eq_true_eq]
    rw [if_neg (by omega)]
  acc _ _ := rfl
  accN a v b := by cases b <;> simp [maxAcc, select]

theorem min_least (key : T → Int) (inj : ∀ a b, key a = key b → a = b) (top : T) (ht : ∀ x, key x ≤ key top)
    (l : List T) (hl : l ≠ []) :
    Least (fun a b => key a ≤ key b) l ((minAcc top fun a b => decide (key a < key b)).total l) := by
  induction l with
  | nil => exact absurd rfl hl
  | cons x l ih =>
    rw [total_cons]
    have hm : ∀ y, (minAcc top fun a b => decide (key a < key b)).merge x y = if key y < key x then y else x := by
      intro y; simp [minAcc, select]
    rw [hm]
    by_cases h : l = []
    · subst h
      have : ¬ key ((minAcc top fun a b => decide (key a < key b)).total []) < key x := by
        have := ht x
        simp only [Acc.total, List.foldr_nil, minAcc]
        omega
      rw [if_neg this]
      exact ⟨by simp, by simp⟩
    · obtain ⟨h1, h2⟩ := ih h
      split
      · rename_i hlt
        exact ⟨List.mem_cons_of_mem _ h1, fun y hy => by
          rcases List.mem_cons.1 hy with hy | hy
          · subst hy; exact Int.le_of_lt hlt
          · exact h2 y hy⟩
      · rename_i hlt
        exact ⟨List.mem_cons_self .., fun y hy => by
          rcases List.mem_cons.1 hy with hy | hy
          · subst hy; exact Int.le_refl _
          · have := h2 y hy
            simp only at this ⊢
            omega⟩

theorem max_least (key : T → Int) (inj : ∀ a b, key a = key b → a = b) (bottom : T)
    (ht : ∀ x, key bottom ≤ key x) (l : List T) (hl : l ≠ []) :
    Least (fun a b => key b ≤ key a) l ((maxAcc bottom fun a b => decide (key b < key a)).total l) := by
  induction l with
  | nil => exact absurd rfl hl
  | cons x l ih =>
    rw [total_cons]
    have hm : ∀ y, (maxAcc bottom fun a b => decide (key b < key a)).merge x y = if key x < key y then y else x := by
      intro y; simp [maxAcc, select]
    rw [hm]
    by_cases h : l = []
    · subst h
      have : ¬ key x < key ((maxAcc bottom fun a b => decide (key b < key a)).total []) := by
        have := ht x
        simp only [Acc.total, List.foldr_nil, maxAcc]
        omega
      rw [if_neg this]
      exact ⟨by simp, by simp⟩
    · obtain ⟨h1, h2⟩ := ih h
      split
      · rename_i hlt
        exact ⟨List.mem_cons_of_mem _ h1, fun y hy => by
          rcases List.mem_cons.1 hy with hy | hy
          · subst hy; exact Int.le_of_lt hlt
          · exact h2 y hy⟩
      · rename_i hlt
        exact ⟨List.mem_cons_self .., fun y hy => by
          rcases List.mem_cons.1 hy with hy | hy
          · subst hy; exact Int.le_refl _
          · have := h2 y hy
            simp only at this ⊢
            omega⟩

/-- The minimum and the maximum of an array, by a total order of its elements (`key` places them on a line), are one
of its values that are not null, and no other is less or greater; none if there are none. -/
theorem C99_min_max_partial (key : T → Int) (inj : ∀ a b, key a = key b → a = b) (bottom top : T)
    (hbot : ∀ x, key bottom ≤ key x) (htop : ∀ x, key x ≤ key top) (ov : Overflow) (vec size : Nat)
    (hb : Build vec size) (ho : ¬ Overflows ov vec size) (isFloat : Bool) (values : List T) (nulls : Option BoolBuf)
    (hf : Fits values nulls) :
    (present values nulls = [] →
      aggregate ov vec size isFloat (minAcc top fun a b => decide (key a < key b)) values nulls = .ok none ∧
      aggregate ov vec size isFloat (maxAcc bottom fun a b => decide (key b < key a)) values nulls = .ok none) ∧
    (present values nulls ≠ [] → ∃ m M,
      aggregate ov vec size isFloat (minAcc top fun a b => decide (key a < key b)) values nulls = .ok (some m) ∧
      aggregate ov vec size isFloat (maxAcc bottom fun a b => decide (key b < key a)) values nulls = .ok (some M) ∧
      Least (fun a b => key a ≤ key b) (present values nulls) m ∧
      Least (fun a b => key b ≤ key a) (present values nulls) M) := by
  rw [aggregate_total (min_lawful key inj top htop) hb ho isFloat values nulls hf,
    aggregate_total (max_lawful key inj bottom hbot) hb ho isFloat values nulls hf]
  constructor
  · intro h
    rw [if_pos h, if_pos h]
    exact ⟨rfl, rfl⟩
  · intro h
    rw [if_neg h, if_neg h]
    exact ⟨_, _, rfl, rfl, min_least key inj top htop _ h, max_least key inj bottom hbot _ h⟩

/-! ### the validity of the slots -/

theorem present_eq_pick (values : List T) (n : BoolBuf) : present values (some n) = pick n.view values := rfl

/-- In a build that checks for overflows, with vectors of 64 bytes, an array of one-byte elements with some nulls and
64 elements or more has no aggregate at all: the shift of the validity by all its bits panics. -/
theorem C99_violated_overflow (A : Acc T) (isFloat : Bool) (values : List T) (n : BoolBuf)
    (hf : Fits values (some n)) (hn : present values (some n) ≠ []) (hn' : present values (some n) ≠ values)
    (h64 : 64 ≤ values.length) : aggregate .checked 64 1 isFloat A values (some n) = .panic := by
  obtain ⟨h1, h2⟩ := hf n rfl
  have hv : n.view.length = values.length := by rw [view_eq h1]; simp [h2]
  have hc := nullCount_present hf
  have hc1 : nullCount (some n) ≠ values.length := by
    intro h
    exact hn (List.length_eq_zero_iff.1 (by omega))
  have hc2 : 0 < nullCount (some n) := by
    rcases Nat.eq_zero_or_pos (nullCount (some n)) with h | h
    · exact absurd (present_of_count hf h) hn'
    · exact h
  obtain ⟨c, hc3, hc4, -⟩ := chunks_view h1
  have e64 : lanesOf (64 / 1) = 64 := by decide
  have hcs : chunksExact 64 (values.take 64) = values.take 64 :: chunksExact 64 ((values.take 64).drop 64) := by
    have := (chunksExact_big (by omega : 0 < 64) (by rw [List.length_take]; omega : 64 ≤ (values.take 64).length)).1
    rw [List.take_take] at this
    exact this
  have e : nullableLanes .checked A 64 values n = .panic := by
    unfold nullableLanes
    rw [if_neg (by simp [h2]), hc3]
    simp only [hc4, (chunksExact_big (by omega) h64).1, (chunksExact_big (by omega) (by omega : 64 ≤ n.view.length)).1,
      List.map_cons, wordLoop, hcs, laneLoop, shiftLanes]
    rfl
  unfold aggregate
  simp only [if_neg hc1, if_pos hc2, e64, e]
  rfl

theorem view_bit {n : BoolBuf} (h : n.off + n.len ≤ n.bits.length) (i : Nat) (hi : i < n.len) :
    bit n.view i = bit n.bits (n.off + i) := by
  unfold BoolBuf.view
  rw [bit_take, bit_drop]
  simp [hi]

theorem validIndices_pick (values : List T) [Inhabited T] (n : BoolBuf) (h1 : n.off + n.len ≤ n.bits.length)
    (h2 : n.len = values.length) :
    (validIndices n).map (fun i => values.getD i Inhabited.default) = present values (some n) := by
  have hv : n.view.length = values.length := by rw [view_eq h1]; simp [h2]
  rw [present_eq_pick]
  change (((List.range n.len).filter fun i => n.view.getD i false).map
    fun i => values.getD i Inhabited.default) = _
  rw [h2]
  clear h1 h2
  generalize n.view = bs at hv
  induction bs generalizing values with
  | nil =>
    cases values with
    | nil => rfl
    | cons v vs => simp at hv
  | cons b bs ih =>
    cases values with
    | nil => simp at hv
    | cons v vs =>
      have := ih vs (by simpa using hv)
      rw [pick_cons, List.length_cons, List.range_succ_eq_map, List.filter_cons, List.filter_map]
      cases b with
      | false =>
        simp only [List.getD_cons_zero, Bool.false_eq_true, if_false, List.map_map]
        rw [← this]
        rfl
      | true =>
        simp only [List.getD_cons_zero, if_true, List.map_cons, List.map_map]
        rw [← this]
        rfl

/-! ### booleans -/

theorem word_ne_zero (w : BitVec 64) : (w != 0#64) = (List.range 64).any w.getLsbD := by
  rw [Bool.eq_iff_iff]
  simp only [bne_iff_ne, ne_eq, List.any_eq_true, List.mem_range]
  constructor
  · intro h
    apply Classical.byContradiction
    intro hn
    apply h
    apply BitVec.eq_of_getLsbD_eq
    intro i hi
    simp only [BitVec.getLsbD_zero]
    cases hb : w.getLsbD i with
    | false => rfl
    | true => exact absurd ⟨i, hi, hb⟩ hn
  · rintro ⟨i, hi, hb⟩ h
    rw [h] at hb
    simp at hb

/-- A word of at most 64 bits, combined with another one bit by bit, is not zero if one of the bits is set. -/
theorem zip_ne_zero {op : BitVec 64 → BitVec 64 → BitVec 64} {f : Bool → Bool → Bool} (hf : Bitwise op f)
    (h0 : f false false = false) (a b : List Bool) (hl : a.length = b.length) (h64 : a.length ≤ 64) :
    (op (word a) (word b) != 0#64) = (List.zipWith f a b).any id := by
  rw [word_ne_zero, Bool.eq_iff_iff]
  simp only [List.any_eq_true, List.mem_range, id]
  have hb : ∀ i, i < 64 → (op (word a) (word b)).getLsbD i = f (bit a i) (bit b i) := by
    intro i hi
    rw [hf _ _ i hi, word_bit, word_bit]
    simp [hi]
  constructor
  · rintro ⟨i, hi, h⟩
    rw [hb i hi] at h
    by_cases hia : i < a.length
    · refine ⟨true, ?_, rfl⟩
      rw [List.mem_iff_getElem]
      refine ⟨i, by simp; omega, ?_⟩
      rw [List.getElem_zipWith, ← bit_of_lt, ← bit_of_lt, h]
    · rw [bit_of_ge (by omega), bit_of_ge (by omega), h0] at h
      cases h
  · rintro ⟨x, hx, rfl⟩
    rw [List.mem_iff_getElem] at hx
    obtain ⟨i, hi, h⟩ := hx
    rw [List.length_zipWith] at hi
    refine ⟨i, by omega, ?_⟩
    rw [hb i (by omega), bit_of_lt (by omega), bit_of_lt (by omega)]
    rw [List.getElem_zipWith] at h
    exact h

theorem zip_any {op : BitVec 64 → BitVec 64 → BitVec 64} {f : Bool → Bool → Bool} (hf : Bitwise op f)
    (h0 : f false false = false) (a : List Bool) : ∀ b : List Bool, a.length = b.length →
    (((((chunksExact 64 a).map word).zip ((chunksExact 64 b).map word)).any fun (x, y) => op x y != 0#64) ||
      (op (word (chunksRem 64 a)) (word (chunksRem 64 b)) != 0#64)) = (List.zipWith f a b).any id := by
  induction a using chunk_induction (by omega : 0 < 64) with
  | small a ha =>
    intro b hl
    rw [(chunksExact_small ha).1, (chunksExact_small ha).2, (chunksExact_small (by omega : b.length < 64)).2]
    simp only [List.map_nil, List.zip_nil_left, List.any_nil, Bool.false_or]
    exact zip_ne_zero hf h0 a b hl (by omega)
  | big a ha ih =>
    intro b hl
    have hb : 64 ≤ b.length := by omega
    rw [(chunksExact_big (by omega) ha).1, (chunksExact_big (by omega) hb).1, (chunksExact_big (by omega) ha).2,
      (chunksExact_big (by omega) hb).2]
    simp only [List.map_cons, List.zip_cons_cons, List.any_cons, Bool.or_assoc]
    rw [ih (b.drop 64) (by simp [hl]), zip_ne_zero hf h0 (a.take 64) (b.take 64) (by simp [hl]) (by rw [List.length_take]; omega),
      ← List.any_append, ← List.zipWith_append (by simp [hl]), List.take_append_drop, List.take_append_drop]

theorem find_any (l : List Bool) : (l.find? id).getD false = l.any id := by
  induction l with
  | nil => rfl
  | cons b l ih =>
    cases b with
    | false => simp [ih]
    | true => simp

theorem all_ones (a : List Bool) (ha : a.length = 64) : (word a != BitVec.allOnes 64) = a.any (!·) := by
  rw [Bool.eq_iff_iff]
  simp only [bne_iff_ne, ne_eq, List.any_eq_true]
  constructor
  · intro h
    apply Classical.byContradiction
    intro hn
    apply h
    apply BitVec.eq_of_getLsbD_eq
    intro i hi
    rw [word_bit, BitVec.getLsbD_allOnes, bit_of_lt (by omega)]
    cases hb : a[i] with
    | false => exact absurd ⟨false, by rw [← hb]; exact List.getElem_mem .., rfl⟩ hn
    | true => simp
  · rintro ⟨x, hx, hn⟩ h
    rw [List.mem_iff_getElem] at hx
    obtain ⟨i, hi, hx⟩ := hx
    have := congrArg (fun w => BitVec.getLsbD w i) h
    simp only [word_bit, BitVec.getLsbD_allOnes, bit_of_lt hi, hx] at this
    have h64 : i < 64 := by omega
    rw [Bool.not_eq_true'] at hn
    simp [h64, hn] at this

theorem count_ones (a : List Bool) (ha : a.length ≤ 64) :
    ((List.range 64).filter (word a).getLsbD).length = (a.filter id).length := by
  have e : (List.range 64).filter (word a).getLsbD = (List.range a.length).filter (bit a) := by
    have hs : List.range 64 = List.range a.length ++ (List.range (64 - a.length)).map (a.length + ·) := by
      rw [← List.range_add]
      congr 1
      omega
    rw [hs, List.filter_append]
    have h2 : ((List.range (64 - a.length)).map (a.length + ·)).filter (word a).getLsbD = [] := by
      rw [List.filter_eq_nil_iff]
      intro x hx
      simp only [List.mem_map] at hx
      obtain ⟨y, -, rfl⟩ := hx
      rw [word_bit, bit_of_ge (by omega)]
      simp
    rw [h2, List.append_nil]
    apply List.filter_congr
    intro x hx
    rw [List.mem_range] at hx
    have : x < 64 := by omega
    rw [word_bit]
    simp [this]
  rw [e]
  clear e ha
  induction a with
  | nil => rfl
  | cons b a ih =>
    rw [List.length_cons, List.range_succ_eq_map, List.filter_cons, List.filter_map, bit_cons_zero, List.filter_cons]
    have e : (bit (b :: a)) ∘ Nat.succ = bit a := by funext i; exact bit_cons_succ ..
    rw [e]
    cases b with
    | false => simpa using ih
    | true => simpa using ih

theorem not_all (a : List Bool) (h : a.length ≤ 64) :
    decide (((List.range 64).filter (word a).getLsbD).length ≠ a.length) = a.any (!·) := by
  rw [count_ones a h, Bool.eq_iff_iff]
  simp only [decide_eq_true_eq, ne_eq, List.length_filter_eq_length_iff, List.any_eq_true, id]
  constructor
  · intro hn
    apply Classical.byContradiction
    intro hx
    exact hn fun x hm => by
      cases x with
      | true => rfl
      | false => exact absurd ⟨false, hm, rfl⟩ hx
  · rintro ⟨x, hx, hn⟩ h
    rw [h x hx] at hn
    cases hn

theorem words_all (a : List Bool) :
    ((((chunksExact 64 a).map word).any (· != BitVec.allOnes 64)) || (chunksRem 64 a).any (!·)) = a.any (!·) := by
  induction a using chunk_induction (by omega : 0 < 64) with
  | small a ha =>
    rw [(chunksExact_small ha).1, (chunksExact_small ha).2]
    simp
  | big a ha ih =>
    rw [(chunksExact_big (by omega) ha).1, (chunksExact_big (by omega) ha).2]
    simp only [List.map_cons, List.any_cons, Bool.or_assoc]
    rw [ih, all_ones _ (by rw [List.length_take]; omega), ← List.any_append, List.take_append_drop]

theorem words_any (a : List Bool) :
    (((chunksExact 64 a).map word ++ [word (chunksRem 64 a)]).any (· != 0#64)) = a.any id := by
  have := zip_any (op := fun x _ => x) (f := fun x _ => x) (fun _ _ _ _ => rfl) rfl a a rfl
  rw [List.zipWith_self, List.map_id'] at this
  rw [← this, List.any_append]
  congr 1
  · generalize (chunksExact 64 a).map word = l
    clear this
    induction l with
    | nil => rfl
    | cons x l ih => simp only [List.any_cons, List.zip_cons_cons, ih]
  · simp

theorem bool_fits {a : BoolArray} (h : a.Ok) : Fits a.values.view a.nulls ∧ a.values.view.length = a.values.len := by
  have hv : a.values.view.length = a.values.len := by rw [view_eq h.1]; simp
  refine ⟨fun n hn => ⟨(h.2 n hn).1, ?_⟩, hv⟩
  rw [hv, (h.2 n hn).2]

theorem pick_zip_any (g : Bool → Bool) (vs : List Bool) : ∀ bs : List Bool,
    (List.zipWith (fun v n => g v && n) vs bs).any id = (pick bs vs).any g := by
  induction vs with
  | nil => intro bs; cases bs <;> rfl
  | cons v vs ih =>
    intro bs
    cases bs with
    | nil => rfl
    | cons b bs =>
      rw [List.zipWith_cons_cons, List.any_cons, ih bs, pick_cons]
      cases b <;> simp

theorem chunks_remLen {n : BoolBuf} {c : Chunks} (h : n.off + n.len ≤ n.bits.length)
    (hc : chunks n.bits n.off n.len = .ok c) : c.remLen = (chunksRem 64 n.view).length := by
  have hv : n.view.length = n.len := by rw [view_eq h]; simp
  obtain ⟨c', h1, -, h2, -⟩ := chunks_ok h
  rw [hc] at h1
  injection h1 with h1
  rw [h1, h2, chunksRem, List.length_drop, hv]
  have := Nat.div_add_mod n.len 64
  omega

theorem bitwise_min : Bitwise (fun value validity : BitVec 64 => ~~~ value &&& validity) (fun v n => !v && n) := by
  intro x y i hi
  simp [hi]

theorem bitwise_max : Bitwise (fun value validity : BitVec 64 => value &&& validity) (fun v n => v && n) := by
  intro x y i hi
  simp

/-- The minimum and the maximum of an array of booleans: whether all, and whether any, of the values that are not null
are true; none if there are none. -/
theorem C99_booleans (a : BoolArray) (h : a.Ok) :
    minBoolean a = .ok (if a.slots.filterMap id = [] then none else some ((a.slots.filterMap id).all id)) ∧
    maxBoolean a = .ok (if a.slots.filterMap id = [] then none else some ((a.slots.filterMap id).any id)) := by
  obtain ⟨hf, hv⟩ := bool_fits h
  have hc := nullCount_present hf
  rw [hv] at hc
  have hp : a.slots.filterMap id = present a.values.view a.nulls := rfl
  rw [hp]
  have hall : ∀ l : List Bool, l.all id = !l.any (!·) := by
    intro l
    induction l with
    | nil => rfl
    | cons b l ih => rw [List.all_cons, List.any_cons, ih]; cases b <;> simp
  by_cases h0 : nullCount a.nulls = a.values.len
  · have e : present a.values.view a.nulls = [] := List.length_eq_zero_iff.1 (by omega)
    rw [if_pos e, if_pos e, minBoolean, maxBoolean, if_pos h0, if_pos h0]
    exact ⟨rfl, rfl⟩
  · have e : present a.values.view a.nulls ≠ [] := by
      intro e
      rw [e, List.length_nil] at hc
      omega
    rw [if_neg e, if_neg e, minBoolean, maxBoolean, if_neg h0, if_neg h0, hall]
    obtain ⟨c, h1, h2, h3⟩ := chunks_view h.1
    cases hn : a.nulls with
    | none =>
      have e2 : present a.values.view none = a.values.view := by simp [present, slots]
      have e3 := chunks_remLen h.1 h1
      rw [e2]
      simp only [h1, h2, h3, e3, Chunks.padded]
      constructor
      · rw [← words_all, ← not_all _ (Nat.le_of_lt (chunksRem_lt (by omega) _))]
        by_cases hw : ((chunksExact 64 a.values.view).map word).any (· != BitVec.allOnes 64) = true
        · rw [if_pos hw, hw]
          rfl
        · rw [if_neg hw]
          rw [Bool.not_eq_true] at hw
          rw [hw]
          by_cases hr : ((List.range 64).filter (word (chunksRem 64 a.values.view)).getLsbD).length ≠
              (chunksRem 64 a.values.view).length
          · rw [if_pos hr, decide_eq_true hr]
            rfl
          · rw [if_neg hr, decide_eq_false hr]
            rfl
      · rw [find_any, List.any_map, ← words_any]
        rfl
    | some n =>
      obtain ⟨k1, k2⟩ := h.2 n hn
      obtain ⟨d, d1, d2, d3⟩ := chunks_view k1
      have hl : a.values.view.length = n.view.length := by rw [hv, view_eq k1]; simp [k2]
      simp only [h1, h2, h3, d1, d2, d3, Chunks.padded]
      rw [present_eq_pick]
      constructor
      · rw [← pick_zip_any, ← zip_any bitwise_min rfl _ _ hl]
        by_cases hw : ((((chunksExact 64 a.values.view).map word).zip ((chunksExact 64 n.view).map word)).any
            fun (x, y) => (~~~ x &&& y) != 0#64) = true
        · rw [if_pos hw, hw]
          rfl
        · rw [if_neg hw]
          rw [Bool.not_eq_true] at hw
          rw [hw]
          by_cases hr : (~~~ word (chunksRem 64 a.values.view) &&& word (chunksRem 64 n.view) != 0#64) = true
          · rw [if_pos hr, hr]
            rfl
          · rw [if_neg hr]
            rw [Bool.not_eq_true] at hr
            rw [hr]
            rfl
      · have e4 := pick_zip_any id a.values.view n.view
        rw [← e4]
        have e5 := zip_any bitwise_max rfl _ _ hl
        rw [find_any, List.any_map, List.zip_append (by simp [chunksExact, hl]), List.any_append]
        refine congrArg (fun b => Rs.ok (some b)) ?_
        refine Eq.trans ?_ e5
        congr 1
        simp

/-! ### operations bit by bit -/

theorem maskChunk_pick (op : T → T → T) (w : BitVec 64) (vs : List T) : ∀ (bs : List Bool) (i : Nat) (r : T),
    bs.length = vs.length → i + vs.length ≤ 64 → HasBits w i bs →
    maskChunk op w vs (1#64 <<< i) r = (pick bs vs).foldl op r := by
  induction vs with
  | nil => intro bs i r hl _ _; cases bs <;> rfl
  | cons v vs ih =>
    intro bs i r hl hi hb
    cases bs with
    | nil => cases hl
    | cons b bs =>
      obtain ⟨h1, h2⟩ := hasBits_tail hb
      rw [List.length_cons] at hi
      rw [maskChunk, shift_one, mask_bit w i (by omega), h1, ih bs (i + 1) _ (by simpa using hl) (by omega) h2, pick_cons]
      cases b <;> rfl

theorem maskRem_pick (op : T → T → T) (w : BitVec 64) (vs : List T) : ∀ (bs : List Bool) (i : Nat) (r : T),
    bs.length = vs.length → i + vs.length ≤ 64 → HasBits w i bs →
    maskRem op w vs i r = (pick bs vs).foldl op r := by
  induction vs with
  | nil => intro bs i r hl _ _; cases bs <;> rfl
  | cons v vs ih =>
    intro bs i r hl hi hb
    cases bs with
    | nil => cases hl
    | cons b bs =>
      obtain ⟨h1, h2⟩ := hasBits_tail hb
      rw [List.length_cons] at hi
      rw [maskRem, mask_bit w i (by omega), h1, ih bs (i + 1) _ (by simpa using hl) (by omega) h2, pick_cons]
      cases b <;> rfl

theorem mask_pick (op : T → T → T) (vs : List T) : ∀ (bs : List Bool) (r : T), bs.length = vs.length →
    maskRem op (word (chunksRem 64 bs)) (chunksRem 64 vs) 0
      (maskChunks op (chunksExact 64 vs) ((chunksExact 64 bs).map word) r) = (pick bs vs).foldl op r := by
  induction vs using chunk_induction (by omega : 0 < 64) with
  | small vs hs =>
    intro bs r hl
    rw [(chunksExact_small hs).1, (chunksExact_small hs).2, (chunksExact_small (by omega : bs.length < 64)).2]
    exact maskRem_pick op _ vs bs 0 r hl (by omega) (hasBits_word (by omega))
  | big vs hs ih =>
    intro bs r hl
    have hb : 64 ≤ bs.length := by omega
    rw [(chunksExact_big (by omega) hs).1, (chunksExact_big (by omega) hb).1, (chunksExact_big (by omega) hs).2,
      (chunksExact_big (by omega) hb).2, List.map_cons, maskChunks, ih (bs.drop 64) _ (by simp [hl]),
      pick_split 64 bs vs hl, List.foldl_append]
    congr 1
    exact maskChunk_pick op _ (vs.take 64) (bs.take 64) 0 r (by simp [hl])
      (by rw [List.length_take]; omega) (hasBits_word (by rw [List.length_take]; omega))

theorem bitOperation_fold (default : T) (op : T → T → T) (values : List T) (nulls : Option BoolBuf)
    (hf : Fits values nulls) : bitOperation default op values nulls =
      .ok (if present values nulls = [] then none else some ((present values nulls).foldl op default)) := by
  have hc := nullCount_present hf
  unfold bitOperation
  by_cases h0 : nullCount nulls = values.length
  · rw [if_pos h0, if_pos (List.length_eq_zero_iff.1 (by omega))]
  · have e : present values nulls ≠ [] := by
      intro e
      rw [e, List.length_nil] at hc
      omega
    rw [if_neg h0, if_neg e]
    cases nulls with
    | none => simp [present, slots]
    | some n =>
      obtain ⟨h1, h2⟩ := hf n rfl
      obtain ⟨c, h3, h4, h5⟩ := chunks_view h1
      simp only [h3, h4, h5]
      rw [mask_pick op values n.view default (by rw [view_eq h1]; simp [h2])]
      rfl

/-- The parity of how many are true. -/
theorem foldl_bits {w : Nat} (op : BitVec w → BitVec w → BitVec w) (f : Bool → Bool → Bool)
    (hf : ∀ (x y : BitVec w) (i : Nat), i < w → (op x y).getLsbD i = f (x.getLsbD i) (y.getLsbD i)) (l : List (BitVec w))
    (i : Nat) (hi : i < w) : ∀ r, (l.foldl op r).getLsbD i = (l.map (·.getLsbD i)).foldl f (r.getLsbD i) := by
  induction l with
  | nil => intro r; rfl
  | cons x l ih => intro r; rw [List.foldl_cons, ih, hf _ _ _ hi]; rfl

theorem foldl_and (l : List Bool) : ∀ b, l.foldl (· && ·) b = (b && l.all id) := by
  induction l with
  | nil => simp
  | cons x l ih => intro b; rw [List.foldl_cons, ih, List.all_cons, Bool.and_assoc]; rfl

theorem foldl_or (l : List Bool) : ∀ b, l.foldl (· || ·) b = (b || l.any id) := by
  induction l with
  | nil => simp
  | cons x l ih => intro b; rw [List.foldl_cons, ih, List.any_cons, Bool.or_assoc]; rfl

theorem foldl_xor (l : List Bool) : ∀ b, l.foldl (· ^^ ·) b = (b ^^ decide (l.count true % 2 = 1)) := by
  induction l with
  | nil => simp
  | cons x l ih =>
    intro b
    rw [List.foldl_cons, ih, List.count_cons]
    have h2 := Nat.mod_lt (l.count true) (by omega : 0 < 2)
    cases x with
    | false => simp
    | true =>
      by_cases h : l.count true % 2 = 1
      · have : ¬ (l.count true + 1) % 2 = 1 := by omega
        simp [h, this]
      · have : (l.count true + 1) % 2 = 1 := by omega
        simp [h, this]

/-- The bitwise aggregates of integers of any width: bit `i` of the result is set if it is set in all, in any, in an
odd number of the values that are not null; none if there are none. -/
theorem C99_bits {w : Nat} (values : List (BitVec w)) (nulls : Option BoolBuf) (hf : Fits values nulls) :
    (present values nulls = [] →
      bitAnd values nulls = .ok none ∧ bitOr values nulls = .ok none ∧ bitXor values nulls = .ok none) ∧
    (present values nulls ≠ [] → ∃ x y z,
      bitAnd values nulls = .ok (some x) ∧ bitOr values nulls = .ok (some y) ∧ bitXor values nulls = .ok (some z) ∧
      ∀ i, i < w →
        (x.getLsbD i = true ↔ ∀ v ∈ present values nulls, v.getLsbD i = true) ∧
        (y.getLsbD i = true ↔ ∃ v ∈ present values nulls, v.getLsbD i = true) ∧
        (z.getLsbD i = true ↔ (present values nulls).countP (·.getLsbD i) % 2 = 1)) := by
  unfold bitAnd bitOr bitXor
  rw [bitOperation_fold _ _ _ _ hf, bitOperation_fold _ _ _ _ hf, bitOperation_fold _ _ _ _ hf]
  constructor
  · intro h
    rw [if_pos h, if_pos h, if_pos h]
    exact ⟨rfl, rfl, rfl⟩
  · intro h
    rw [if_neg h, if_neg h, if_neg h]
    refine ⟨_, _, _, rfl, rfl, rfl, fun i hi => ⟨?_, ?_, ?_⟩⟩
    · rw [foldl_bits (· &&& ·) (· && ·) (fun _ _ _ _ => BitVec.getLsbD_and) _ i hi, foldl_and]
      have : (-1#w).getLsbD i = true := by
        rw [BitVec.neg_one_eq_allOnes, BitVec.getLsbD_allOnes]
        simp [hi]
      rw [this]
      simp
    · rw [foldl_bits (· ||| ·) (· || ·) (fun _ _ _ _ => BitVec.getLsbD_or) _ i hi, foldl_or]
      simp
    · rw [foldl_bits (· ^^^ ·) (· ^^ ·) (fun _ _ _ _ => BitVec.getLsbD_xor) _ i hi, foldl_xor, List.count_eq_countP,
        List.countP_map]
      have : (fun x => x == true) ∘ (fun v : BitVec w => v.getLsbD i) = fun v => v.getLsbD i := by
        funext v; simp
      rw [this]
      simp

/-! ### strings and bytes -/

theorem reduce_map {U : Type} (f : U → U → U) (g : T → T → T) (m : U → T) (l : List U)
    (h : ∀ a b, m (f a b) = g (m a) (m b)) : (reduce f l).map m = reduce g (l.map m) := by
  cases l with
  | nil => rfl
  | cons x l =>
    simp only [reduce, Option.map_some, List.map_cons]
    congr 1
    induction l generalizing x with
    | nil => rfl
    | cons y l ih => rw [List.foldl_cons, ih, h]; rfl

theorem minMax_reduce [Inhabited T] (cmp : T → T → Bool) (values : List T) (nulls : Option BoolBuf)
    (hf : Fits values nulls) : minMaxHelper cmp values nulls =
      .ok (reduce (fun acc item => if cmp acc item then item else acc) (present values nulls)) := by
  have hc := nullCount_present hf
  unfold minMaxHelper
  by_cases h0 : nullCount nulls = values.length
  · rw [if_pos h0, List.length_eq_zero_iff.1 (by omega : (present values nulls).length = 0)]
    rfl
  · rw [if_neg h0]
    by_cases h1 : nullCount nulls = 0
    · rw [if_pos h1, present_of_count hf h1]
    · rw [if_neg h1]
      cases nulls with
      | none => exact absurd rfl h1
      | some n =>
        obtain ⟨k1, k2⟩ := hf n rfl
        simp only
        rw [reduce_map (g := fun acc item => if cmp acc item then item else acc), validIndices_pick values n k1 k2]
        intro a b
        split <;> rfl

theorem reduce_least (le : T → T → Prop) (cmp : T → T → Bool) (trans : ∀ a b c, le a b → le b c → le a c)
    (refl : ∀ a, le a a) (hlt : ∀ a b, cmp a b = true → le b a) (hge : ∀ a b, cmp a b = false → le a b) (x : T)
    (l : List T) : Least le (x :: l) (l.foldl (fun acc item => if cmp acc item then item else acc) x) := by
  induction l generalizing x with
  | nil => exact ⟨by simp, by simpa using refl x⟩
  | cons y l ih =>
    rw [List.foldl_cons]
    obtain ⟨h1, h2⟩ := ih (if cmp x y then y else x)
    have h3 := h2 _ (List.mem_cons_self ..)
    constructor
    · rcases List.mem_cons.1 h1 with h | h
      · rw [h]
        split <;> simp
      · exact List.mem_cons_of_mem _ (List.mem_cons_of_mem _ h)
    · intro z hz
      cases hc : cmp x y with
      | true =>
        simp only [hc, if_true] at h3 h2 ⊢
        rcases List.mem_cons.1 hz with hz | hz
        · subst hz; exact trans _ _ _ h3 (hlt _ _ hc)
        · exact h2 z hz
      | false =>
        simp only [hc, Bool.false_eq_true, if_false] at h3 h2 ⊢
        rcases List.mem_cons.1 hz with hz | hz
        · subst hz; exact h3
        · rcases List.mem_cons.1 hz with hz | hz
          · subst hz; exact trans _ _ _ h3 (hge _ _ hc)
          · exact h2 z (List.mem_cons_of_mem _ hz)

/-- The minimum and the maximum of strings, of bytes and of what the keys of a dictionary stand for: one of the values
that are not null, than which none is less or greater; none if there are none. -/
theorem C99_bytes [Inhabited T] (lt : T → T → Bool) (irrefl : ∀ a, lt a a = false)
    (trans : ∀ a b c, lt a b = false → lt b c = false → lt a c = false)
    (asymm : ∀ a b, lt a b = true → lt b a = false) (values : List T) (nulls : Option BoolBuf)
    (hf : Fits values nulls) :
    (present values nulls = [] → minBytes lt values nulls = .ok none ∧ maxBytes lt values nulls = .ok none) ∧
    (present values nulls ≠ [] → ∃ m M, minBytes lt values nulls = .ok (some m) ∧
      maxBytes lt values nulls = .ok (some M) ∧
      Least (fun a b => lt b a = false) (present values nulls) m ∧
      Least (fun a b => lt a b = false) (present values nulls) M) := by
  unfold minBytes maxBytes
  rw [minMax_reduce _ _ _ hf, minMax_reduce _ _ _ hf]
  constructor
  · intro h
    rw [h]
    exact ⟨rfl, rfl⟩
  · intro h
    cases hp : present values nulls with
    | nil => exact absurd hp h
    | cons x l =>
      refine ⟨_, _, rfl, rfl, ?_, ?_⟩
      · exact reduce_least (fun a b => lt b a = false) (fun a b => lt b a) (fun a b c h1 h2 => trans _ _ _ h2 h1) irrefl
          (fun a b h => asymm _ _ h) (fun a b h => h) x l
      · exact reduce_least (fun a b => lt a b = false) (fun a b => lt a b) (fun a b c h1 h2 => trans _ _ _ h1 h2) irrefl
          (fun a b h => asymm _ _ h) (fun a b h => h) x l

/-! ### sums that check -/

theorem tryFold_sum (key : T → Int) (add : T → T → Option T) (rep : Int → Prop)
    (inj : ∀ a b, key a = key b → a = b)
    (some' : ∀ a b c, add a b = some c ↔ key c = key a + key b) (rep' : ∀ i, rep i ↔ ∃ c, key c = i) (l : List T) :
    ∀ z, (∀ s, tryFold add z l = some s ↔
      (∀ k, k ≤ l.length → rep (key z + ((l.take k).map key).sum)) ∧ key s = key z + (l.map key).sum) := by
  induction l with
  | nil =>
    intro z s
    simp only [tryFold, Option.some.injEq, List.length_nil, List.map_nil, List.take_nil, List.sum_nil, Int.add_zero]
    constructor
    · rintro rfl
      exact ⟨fun _ _ => (rep' _).2 ⟨_, rfl⟩, rfl⟩
    · rintro ⟨-, h⟩
      exact inj _ _ h.symm
  | cons x l ih =>
    intro z s
    rw [tryFold]
    cases ha : add z x with
    | none =>
      constructor
      · rintro ⟨⟩
      · rintro ⟨h, -⟩
        have := h 1 (by simp)
        rw [rep'] at this
        obtain ⟨c, hc⟩ := this
        rw [(some' z x c).2 (by simpa using hc)] at ha
        cases ha
    | some y =>
      have hy := (some' _ _ _).1 ha
      simp only
      rw [ih y s]
      constructor
      · rintro ⟨h1, h2⟩
        refine ⟨?_, by rw [h2, hy, List.map_cons, List.sum_cons]; omega⟩
        intro k hk
        cases k with
        | zero => simpa using (rep' _).2 ⟨z, rfl⟩
        | succ k =>
          have := h1 k (by simpa using hk)
          rw [List.take_succ_cons, List.map_cons, List.sum_cons, ← Int.add_assoc, ← hy]
          exact this
      · rintro ⟨h1, h2⟩
        refine ⟨fun k hk => ?_, by rw [h2, hy, List.map_cons, List.sum_cons]; omega⟩
        have := h1 (k + 1) (by simpa using hk)
        rw [List.take_succ_cons, List.map_cons, List.sum_cons, ← Int.add_assoc, ← hy] at this
        exact this

theorem sumChecked_fold [Inhabited T] (zero : T) (add : T → T → Option T) (values : List T) (nulls : Option BoolBuf)
    (hf : Fits values nulls) : sumChecked zero add values nulls =
      if present values nulls = [] then some none else (tryFold add zero (present values nulls)).map some := by
  have hc := nullCount_present hf
  unfold sumChecked
  by_cases h0 : nullCount nulls = values.length
  · rw [if_pos h0, if_pos (List.length_eq_zero_iff.1 (by omega))]
  · have e : present values nulls ≠ [] := by
      intro e
      rw [e, List.length_nil] at hc
      omega
    rw [if_neg h0, if_neg e]
    cases nulls with
    | none => simp [present, slots]
    | some n =>
      obtain ⟨h1, h2⟩ := hf n rfl
      simp only
      rw [validIndices_pick values n h1 h2]

theorem addSigned_key {w : Nat} (a b c : BitVec w) : addSigned a b = some c ↔ c.toInt = a.toInt + b.toInt := by
  unfold addSigned
  by_cases h : a.saddOverflow b
  · rw [if_pos h]
    constructor
    · rintro ⟨⟩
    · intro hc
      have h1 := BitVec.two_mul_toInt_lt (x := c)
      have h2 := BitVec.le_two_mul_toInt (x := c)
      simp only [BitVec.saddOverflow, Bool.or_eq_true, decide_eq_true_eq] at h
      rw [← hc] at h
      exfalso
      cases w with
      | zero =>
        have := c.eq_nil
        subst this
        simp at h
      | succ w =>
        rw [Nat.add_sub_cancel] at h
        rw [Int.pow_succ] at h1 h2
        omega
  · rw [if_neg h, Option.some.injEq]
    rw [Bool.not_eq_true] at h
    rw [← BitVec.toInt_inj, BitVec.toInt_add_of_not_saddOverflow (by simpa using h)]
    exact eq_comm

theorem addUnsigned_key {w : Nat} (a b c : BitVec w) :
    addUnsigned a b = some c ↔ (c.toNat : Int) = a.toNat + b.toNat := by
  unfold addUnsigned
  have hlt := c.isLt
  by_cases h : a.uaddOverflow b
  · rw [if_pos h]
    simp only [BitVec.uaddOverflow, decide_eq_true_eq] at h
    constructor
    · rintro ⟨⟩
    · intro hc
      omega
  · rw [if_neg h, Option.some.injEq]
    simp only [BitVec.uaddOverflow, decide_eq_true_eq] at h
    rw [← BitVec.toNat_inj, BitVec.toNat_add, Nat.mod_eq_of_lt (by omega)]
    omega

/-- The sum that checks for overflows, of signed integers (`key` their value, `add` their checked addition) and of
unsigned ones: no sum if no value is there; the exact sum if that of every initial part fits the type; an error
otherwise. -/
theorem C99_sum_checked {w : Nat} (values : List (BitVec w)) (nulls : Option BoolBuf) (hf : Fits values nulls)
    (key : BitVec w → Int) (add : BitVec w → BitVec w → Option (BitVec w))
    (hk : (key = BitVec.toInt ∧ add = addSigned) ∨ (key = (fun x => (x.toNat : Int)) ∧ add = addUnsigned)) :
    (present values nulls = [] → sumChecked 0#w add values nulls = some none) ∧
    (present values nulls ≠ [] →
      (∀ s, sumChecked 0#w add values nulls = some (some s) ↔
        (∀ k, k ≤ (present values nulls).length → ∃ c, key c = (((present values nulls).take k).map key).sum) ∧
        key s = ((present values nulls).map key).sum) ∧
      sumChecked 0#w add values nulls ≠ some none) := by
  have inj : ∀ a b, key a = key b → a = b := by
    rcases hk with ⟨rfl, -⟩ | ⟨rfl, -⟩
    · intro a b h; exact BitVec.toInt_inj.1 h
    · intro a b h; exact BitVec.toNat_inj.1 (Int.ofNat_inj.1 h)
  have hadd : ∀ a b c, add a b = some c ↔ key c = key a + key b := by
    rcases hk with ⟨rfl, rfl⟩ | ⟨rfl, rfl⟩
    · exact addSigned_key
    · exact addUnsigned_key
  have h0 : key 0#w = 0 := by
    rcases hk with ⟨rfl, -⟩ | ⟨rfl, -⟩ <;> simp
  rw [sumChecked_fold _ _ _ _ hf]
  constructor
  · intro h; rw [if_pos h]
  · intro h
    rw [if_neg h]
    refine ⟨fun s => ?_, ?_⟩
    · have := tryFold_sum key add (fun i => ∃ c, key c = i) inj hadd (fun _ => Iff.rfl) (present values nulls) 0#w s
      rw [h0] at this
      simp only [Int.zero_add] at this
      rw [← this]
      cases tryFold add 0#w (present values nulls) <;> simp
    · cases tryFold add 0#w (present values nulls) <;> simp

theorem foldl_slots (add : T → T → T) (l : List (Option T)) : ∀ z,
    l.foldl (fun sum s => match s with | some v => add sum v | none => sum) z = (l.filterMap id).foldl add z := by
  induction l with
  | nil => intro z; rfl
  | cons s l ih =>
    intro z
    cases s with
    | none => exact ih z
    | some v => exact ih (add z v)

theorem foldlM_slots (add : T → T → Option T) (l : List (Option T)) : ∀ z,
    l.foldlM (fun sum s => match s with | some v => add sum v | none => some sum) z =
      tryFold add z (l.filterMap id) := by
  induction l with
  | nil => intro z; rfl
  | cons s l ih =>
    intro z
    rw [List.foldlM_cons]
    cases s with
    | none => exact ih z
    | some v =>
      simp only [List.filterMap_cons, id, tryFold]
      cases add z v with
      | none => rfl
      | some y => exact ih y

theorem nones (l : List (Option T)) : (l.filter Option.isNone).length = l.length ↔ l.filterMap id = [] := by
  rw [List.length_filter_eq_length_iff, List.filterMap_eq_nil_iff]
  simp

/-- The sums of an array of keys into a dictionary are those of the values the keys stand for, held in an array of
their own. -/
theorem C99_sum_dict [Inhabited T] (zero : T) (add : T → T → T) (add' : T → T → Option T) (slots : List (Option T))
    (values : List T) (nulls : Option BoolBuf) (hf : Fits values nulls) (hs : slots.filterMap id = present values nulls) :
    sumChecked zero add' values nulls = sumDictChecked zero add' slots ∧
    sumDict zero add slots =
      (if present values nulls = [] then none else some ((present values nulls).foldl add zero)) := by
  unfold sumDict sumDictChecked
  have e1 := foldl_slots add slots zero
  have e2 := foldlM_slots add' slots zero
  rw [sumChecked_fold _ _ _ _ hf, ← hs]
  refine Eq.mpr (by rw [← e1, ← e2]) ?_
  by_cases h : slots.filterMap id = []
  · rw [if_pos h, if_pos ((nones _).2 h), if_pos ((nones _).2 h), if_pos h]
    exact ⟨rfl, rfl⟩
  · rw [if_neg h, if_neg (fun h' => h ((nones _).1 h')), if_neg (fun h' => h ((nones _).1 h')), if_neg h]
    exact ⟨rfl, rfl⟩

/-! ### floating point numbers -/

theorem totalKey_inj (a b : BitVec 32) (h : totalKey a = totalKey b) : a = b := by
  have e : ∀ x : BitVec 32, (x &&& 0x7fffffff#32).toNat = x.toNat % 2 ^ 31 := by
    intro x
    rw [BitVec.toNat_and]
    exact Nat.and_two_pow_sub_one_eq_mod x.toNat 31
  have hm : ∀ x : BitVec 32, x.msb = decide (2 ^ 31 ≤ x.toNat) := by
    intro x
    rw [BitVec.msb_eq_decide]
  have ha := a.isLt
  have hb := b.isLt
  unfold totalKey at h
  rw [e, e, hm, hm] at h
  apply BitVec.eq_of_toNat_eq
  by_cases h1 : 2 ^ 31 ≤ a.toNat <;> by_cases h2 : 2 ^ 31 ≤ b.toNat <;> simp [h1, h2] at h <;> omega

theorem totalKey_nan (b : BitVec 32) : (b.msb = false → totalKey b = b.toNat ∧ (b &&& 0x7fffffff#32).toNat = b.toNat) ∧
    (b.msb = true → totalKey b < 0) ∧ totalKey (0xffffffff#32) ≤ totalKey b ∧ totalKey b ≤ totalKey (0x7fffffff#32) := by
  have e : (b &&& 0x7fffffff#32).toNat = b.toNat % 2 ^ 31 := by
    rw [BitVec.toNat_and]
    exact Nat.and_two_pow_sub_one_eq_mod b.toNat 31
  have hm : b.msb = decide (2 ^ 31 ≤ b.toNat) := BitVec.msb_eq_decide ..
  have hb := b.isLt
  have e1 : totalKey (0xffffffff#32) = -2147483648 := by decide
  have e2 : totalKey (0x7fffffff#32) = 2147483647 := by decide
  rw [e1, e2, e]
  unfold totalKey
  rw [e, hm]
  by_cases h1 : 2 ^ 31 ≤ b.toNat <;> simp [h1] <;> omega

/-- `min` and `max` of an array of single precision numbers (aggregate.rs:815-835): the comparisons of `arrow-array`
are those of the total order, whose ends are two NaNs. -/
def floatMin (ov : Overflow) (vec : Nat) (values : List (BitVec 32)) (nulls : Option BoolBuf) :
    Rs (Option (BitVec 32)) :=
  aggregate ov vec 4 true (minAcc 0x7fffffff#32 fun a b => decide (totalKey a < totalKey b)) values nulls

def floatMax (ov : Overflow) (vec : Nat) (values : List (BitVec 32)) (nulls : Option BoolBuf) :
    Rs (Option (BitVec 32)) :=
  aggregate ov vec 4 true (maxAcc 0xffffffff#32 fun a b => decide (totalKey b < totalKey a)) values nulls

/-- "NaN values are considered to be greater than any other value": so the maximum is NaN if there is one, and the
minimum only if there is nothing else.  It is so if every NaN has the sign of a positive number. -/
theorem C99_nan_partial (ov : Overflow) (vec : Nat) (hb : Build vec 4) (values : List (BitVec 32))
    (nulls : Option BoolBuf) (hf : Fits values nulls) (hne : present values nulls ≠ [])
    (hpos : ∀ x ∈ present values nulls, isNan32 x → x.msb = false) :
    ∃ m M, floatMin ov vec values nulls = .ok (some m) ∧ floatMax ov vec values nulls = .ok (some M) ∧
      (isNan32 m ↔ ∀ x ∈ present values nulls, isNan32 x) ∧ (isNan32 M ↔ ∃ x ∈ present values nulls, isNan32 x) := by
  obtain ⟨m, M, h1, h2, ⟨h3, h4⟩, h5, h6⟩ := (C99_min_max_partial totalKey totalKey_inj 0xffffffff#32 0x7fffffff#32
    (fun x => (totalKey_nan x).2.2.1) (fun x => (totalKey_nan x).2.2.2) ov vec 4 hb
    (fun h => by have := h.2.2; omega) true values nulls hf).2 hne
  have key : ∀ x ∈ present values nulls, isNan32 x ↔ 0x7f800000 < totalKey x := by
    intro x hx
    constructor
    · intro hn
      obtain ⟨e1, e2⟩ := (totalKey_nan x).1 (hpos x hx hn)
      unfold isNan32 at hn
      omega
    · intro hk
      cases hm : x.msb with
      | true =>
        have := (totalKey_nan x).2.1 hm
        omega
      | false =>
        obtain ⟨e1, e2⟩ := (totalKey_nan x).1 hm
        unfold isNan32
        omega
  refine ⟨m, M, h1, h2, ?_, ?_⟩
  · constructor
    · intro hn x hx
      have := h4 x hx
      have k := (key m h3).1 hn
      exact (key x hx).2 (by omega)
    · intro h
      exact h m h3
  · constructor
    · intro h
      exact ⟨M, h5, h⟩
    · rintro ⟨x, hx, hn⟩
      have := h6 x hx
      have k := (key x hx).1 hn
      exact (key M h5).2 (by omega)

/-- It is not so otherwise: the minimum of a NaN with the sign of a negative number and of 1 is the NaN. -/
theorem C99_violated_nan : ∃ (values : List (BitVec 32)) (m : BitVec 32), floatMin .checked 16 values none = .ok (some m) ∧
    isNan32 m ∧ ∃ x ∈ present values none, ¬ isNan32 x :=
  ⟨[0xffc00000#32, 0x3f800000#32], 0xffc00000#32, by decide +kernel, by unfold isNan32; decide,
    0x3f800000#32, by decide, by unfold isNan32; decide⟩

/-- The sum of single precision numbers depends on the vectors of the machine: the numbers below add up to 0 with
vectors of 16 bytes and to 1, which is exact, with vectors of 32. -/
theorem C99_violated_float : ∃ values : List Fp.Num,
    aggregate .checked 16 4 true (sumAcc (.fin 0) (Fp.Num.add Fp.f32)) values none ≠
      aggregate .checked 32 4 true (sumAcc (.fin 0) (Fp.Num.add Fp.f32)) values none :=
  ⟨[.fin 16777216, .fin 0, .fin 0, .fin 0, .fin 0, .fin 0, .fin 0, .fin 0,
    .fin 1, .fin 0, .fin 0, .fin 0, .fin 0, .fin 0, .fin 0, .fin 0, .fin (-16777216)], by decide +kernel⟩

/-! ### concrete cases -/

/-- 70 values, the last and the one at 3 null, in a slice that starts at bit 1. -/
def exNulls : BoolBuf := ⟨[true] ++ List.replicate 3 true ++ [false] ++ List.replicate 65 true ++ [false], 1, 70⟩
def exValues : List (BitVec 8) := (List.range 70).map fun i => BitVec.ofNat 8 (i + 100)

theorem exFits : Fits exValues (some exNulls) := by
  intro n hn
  injection hn with hn
  subst hn
  decide

example : Build 32 1 ∧ ¬ Overflows .checked 32 1 ∧ ¬ Overflows .wrapping 64 1 :=
  ⟨⟨.inr (.inl rfl), .inl rfl⟩, fun h => by have := h.2.1; omega, fun h => by cases h.1⟩

example : present exValues (some exNulls) ≠ [] ∧ present exValues (some exNulls) ≠ exValues ∧ 64 ≤ exValues.length := by
  decide

example : aggregate .checked 32 1 false (sumAcc 0#8 (· + ·)) exValues (some exNulls) = .ok (some 183#8) := by
  decide +kernel
example : aggregate .checked 64 1 false (sumAcc 0#8 (· + ·)) exValues (some exNulls) = .panic := by decide +kernel

example : ∀ x : BitVec 8, (-128#8).toInt ≤ x.toInt ∧ x.toInt ≤ (127#8).toInt := by decide
example : aggregate .checked 32 1 false (minAcc 127#8 fun a b => decide (a.toInt < b.toInt)) exValues
    (some exNulls) = .ok (some 128#8) := by decide +kernel
example : aggregate .checked 32 1 false (maxAcc (-128#8) fun a b => decide (b.toInt < a.toInt)) exValues
    (some exNulls) = .ok (some 127#8) := by decide +kernel

def exBools : BoolArray := ⟨⟨List.replicate 71 true, 1, 70⟩, some exNulls⟩
example : exBools.Ok := ⟨by decide, fun n hn => by injection hn with hn; subst hn; decide⟩
example : minBoolean exBools = .ok (some true) ∧
    minBoolean ⟨⟨List.replicate 70 true ++ [false], 1, 70⟩, none⟩ = .ok (some false) := by decide +kernel
example : maxBoolean ⟨⟨List.replicate 70 false ++ [true], 1, 70⟩, some exNulls⟩ = .ok (some false) ∧
    maxBoolean ⟨⟨List.replicate 70 false ++ [true], 1, 70⟩, none⟩ = .ok (some true) := by decide +kernel

example : bitAnd exValues (some exNulls) = .ok (some 0#8) ∧ bitOr exValues (some exNulls) = .ok (some 255#8) ∧
    bitXor exValues (some exNulls) = .ok (some 207#8) := by decide +kernel

example : minBytes (fun a b : BitVec 8 => a.ult b) exValues (some exNulls) = .ok (some 100#8) ∧
    maxBytes (fun a b : BitVec 8 => a.ult b) exValues (some exNulls) = .ok (some 168#8) := by decide +kernel

example : sumChecked 0#16 addUnsigned (exValues.map (·.setWidth 16)) (some exNulls) = some (some 9143#16) ∧
    sumChecked 0#8 addUnsigned exValues (some exNulls) = none ∧
    sumChecked 0#8 addSigned [100#8, 20#8, -110#8] (some ⟨[true, false, true], 0, 3⟩) = some (some (-10#8)) ∧
    sumChecked 0#8 addSigned [100#8, 100#8, -110#8] none = none := by decide +kernel

example : sumDict 0#8 (· + ·) [some 1#8, none, some 2#8] = some 3#8 ∧
    [some 1#8, none, some 2#8].filterMap id = present [1#8, 7#8, 2#8] (some ⟨[true, false, true], 0, 3⟩) := by decide

example : Build 16 4 ∧ (∀ x ∈ present [0x7fc00000#32, 0x3f800000#32] none, isNan32 x → x.msb = false) :=
  ⟨⟨.inl rfl, .inr (.inr (.inl rfl))⟩, fun x hx _ => by
    rcases List.mem_cons.1 hx with h | h
    · subst h; rfl
    · rw [List.mem_singleton.1 h]; rfl⟩

end Arrow
end Verif
