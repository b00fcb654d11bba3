import Verif.Spec.ArrowAggregate
import Verif.Proofs.ArrowBool
/-! Lemmas on the lanes of the aggregations. -/
namespace Verif
namespace Arrow
variable {T : Type}

/-- What the accumulators have in common: they collect in a commutative monoid. -/
structure Acc.Lawful (A : Acc T) : Prop where
  comm : ∀ a b, A.merge a b = A.merge b a
  assoc : ∀ a b c, A.merge (A.merge a b) c = A.merge a (A.merge b c)
  unit : ∀ a, A.merge a A.default = a
  acc : ∀ a v, A.accumulate a v = A.merge a v
  accN : ∀ a v b, A.accumulateNullable a v b = if b then A.merge a v else a

/-- All of them together. -/
def Acc.total (A : Acc T) (l : List T) : T := l.foldr A.merge A.default

variable {A : Acc T}

theorem total_cons (a : T) (l : List T) : A.total (a :: l) = A.merge a (A.total l) := rfl

theorem total_append (h : A.Lawful) (a b : List T) : A.total (a ++ b) = A.merge (A.total a) (A.total b) := by
  induction a with
  | nil => exact ((h.comm _ _).trans (h.unit _)).symm
  | cons x a ih => rw [List.cons_append, total_cons, total_cons, ih, h.assoc]

theorem total_replicate (h : A.Lawful) (n : Nat) : A.total (List.replicate n A.default) = A.default := by
  induction n with
  | zero => rfl
  | succ n ih => rw [List.replicate_succ, total_cons, ih, h.unit]

theorem foldl_total (h : A.Lawful) (l : List T) (a : T) : l.foldl A.accumulate a = A.merge a (A.total l) := by
  induction l generalizing a with
  | nil => exact (h.unit a).symm
  | cons x l ih => rw [List.foldl_cons, ih, h.acc, total_cons, h.assoc]

theorem nonnullSimple_total (h : A.Lawful) (l : List T) : nonnullSimple A l = A.total l := by
  rw [nonnullSimple, foldl_total h, h.comm, h.unit]

theorem four (h : A.Lawful) (a b c d : T) :
    A.merge (A.merge a b) (A.merge c d) = A.merge (A.merge a c) (A.merge b d) := by
  rw [h.assoc, h.assoc, ← h.assoc b c d, h.comm b c, h.assoc c b d]

/-! ### reducing -/

theorem total_zip (h : A.Lawful) (a b : List T) (hl : a.length = b.length) :
    A.total (List.zipWith A.merge a b) = A.merge (A.total a) (A.total b) := by
  induction a generalizing b with
  | nil =>
    cases b with
    | nil => exact (h.unit _).symm
    | cons y b => simp at hl
  | cons x a ih =>
    cases b with
    | nil => simp at hl
    | cons y b =>
      rw [List.zipWith_cons_cons, total_cons, total_cons, total_cons, ih b (by simpa using hl), four h]

theorem reduceTree_total (h : A.Lawful) : ∀ (k fuel : Nat) (l : List T), l.length = 2 ^ k → k ≤ fuel →
    reduceTree A.merge fuel l = [A.total l] := by
  intro k
  induction k with
  | zero =>
    intro fuel l hl _
    match l, hl with
    | [x], _ =>
      have e : [A.total [x]] = [x] := by rw [total_cons]; exact congrArg (fun y => [y]) (h.unit x)
      rw [e]
      cases fuel <;> rfl
  | succ k ih =>
    intro fuel l hl hf
    match fuel, hf with
    | fuel + 1, hf =>
      have h2 : l.length / 2 = 2 ^ k := by rw [hl, Nat.pow_succ]; omega
      have h3 : 2 ≤ l.length := by
        rw [hl, Nat.pow_succ]
        have := Nat.two_pow_pos k
        omega
      have hp : 2 ^ (k + 1) = 2 ^ k * 2 := Nat.pow_succ ..
      have hz : (List.zipWith A.merge (l.take (l.length / 2)) (l.drop (l.length / 2))).length = 2 ^ k := by
        rw [h2]; simp; omega
      rw [reduceTree, if_pos h3, ih _ _ hz (by omega), total_zip h _ _ (by rw [h2]; simp; omega), ← total_append h,
        List.take_append_drop]

theorem reduceAcc_total (h : A.Lawful) (k : Nat) (l : List T) (hl : l.length = 2 ^ k) : reduceAcc A l = A.total l := by
  rw [reduceAcc, reduceTree_total h k _ l hl (by rw [hl]; exact Nat.le_of_lt Nat.lt_two_pow_self)]
  rfl

/-! ### chunks -/

theorem chunksExact_small {n : Nat} {l : List T} (h : l.length < n) : chunksExact n l = [] ∧ chunksRem n l = l := by
  have h0 : l.length / n = 0 := Nat.div_eq_of_lt h
  simp [chunksExact, chunksRem, h0]

theorem chunksExact_big {n : Nat} {l : List T} (hn : 0 < n) (h : n ≤ l.length) :
    chunksExact n l = l.take n :: chunksExact n (l.drop n) ∧ chunksRem n l = chunksRem n (l.drop n) := by
  have h0 : l.length / n = (l.length - n) / n + 1 := by
    rw [Nat.div_eq_sub_div hn h]
  constructor
  · unfold chunksExact
    rw [h0, List.range_succ_eq_map, List.map_cons, List.map_map, List.length_drop]
    simp only [Nat.mul_zero, List.drop_zero]
    congr 1
    apply List.map_congr_left
    intro k _
    simp only [Function.comp_apply, List.drop_drop, Nat.succ_eq_add_one, Nat.mul_add, Nat.mul_one]
    rw [Nat.add_comm]
  · unfold chunksRem
    rw [h0, List.drop_drop, List.length_drop, Nat.mul_add, Nat.mul_one, Nat.add_comm]

/-- Induction over the chunks. -/
theorem chunk_induction {n : Nat} (hn : 0 < n) {P : List T → Prop} (small : ∀ l, l.length < n → P l)
    (big : ∀ l, n ≤ l.length → P (l.drop n) → P l) (l : List T) : P l := by
  have : ∀ k (l : List T), l.length ≤ k → P l := by
    intro k
    induction k with
    | zero => intro l hl; exact small l (by omega)
    | succ k ih =>
      intro l hl
      by_cases h : l.length < n
      · exact small l h
      · exact big l (by omega) (ih _ (by rw [List.length_drop]; omega))
  exact this _ l (Nat.le_refl _)

theorem chunksRem_lt {n : Nat} (hn : 0 < n) (l : List T) : (chunksRem n l).length < n := by
  unfold chunksRem
  rw [List.length_drop, Nat.mul_comm]
  have := Nat.mod_lt l.length hn
  have := Nat.div_add_mod' l.length n
  omega

/-! ### without nulls -/

theorem nonnullChunk_total (h : A.Lawful) (acc vs : List T) (hl : vs.length ≤ acc.length) :
    A.total (nonnullChunk A acc vs) = A.merge (A.total acc) (A.total vs) ∧
      (nonnullChunk A acc vs).length = acc.length := by
  induction acc generalizing vs with
  | nil =>
    cases vs with
    | nil => exact ⟨(h.unit _).symm, rfl⟩
    | cons v vs => simp at hl
  | cons a acc ih =>
    cases vs with
    | nil => exact ⟨(h.unit _).symm, rfl⟩
    | cons v vs =>
      obtain ⟨h1, h2⟩ := ih vs (by simpa using hl)
      refine ⟨?_, by simp [nonnullChunk, h2]⟩
      rw [nonnullChunk, total_cons, total_cons, total_cons, h1, h.acc, four h]

theorem nonnullFold_total (h : A.Lawful) {n : Nat} (hn : 0 < n) (values acc : List T) (ha : acc.length = n) :
    A.total ((chunksExact n values).foldl (nonnullChunk A) acc) =
      A.merge (A.total acc) (A.total (values.take (n * (values.length / n)))) ∧
      ((chunksExact n values).foldl (nonnullChunk A) acc).length = n := by
  induction values using chunk_induction hn generalizing acc with
  | small l hl =>
    rw [(chunksExact_small hl).1, Nat.div_eq_of_lt hl]
    exact ⟨(h.unit _).symm, ha⟩
  | big l hl ih =>
    rw [(chunksExact_big hn hl).1, List.foldl_cons]
    obtain ⟨h1, h2⟩ := nonnullChunk_total h acc (l.take n) (by rw [List.length_take]; omega)
    obtain ⟨h3, h4⟩ := ih (nonnullChunk A acc (l.take n)) (h2.trans ha)
    refine ⟨?_, h4⟩
    rw [h3, h1, h.assoc, ← total_append h]
    congr 2
    have h0 : l.length / n = (l.length - n) / n + 1 := by rw [Nat.div_eq_sub_div hn hl]
    have e : l.take (n * (l.length / n)) = (l.take n) ++ (l.drop n).take (n * ((l.length - n) / n)) := by
      rw [h0, Nat.mul_add, Nat.mul_one, Nat.add_comm, List.take_add]
    rw [e, List.length_drop]

theorem nonnullLanes_total (h : A.Lawful) (k : Nat) (values : List T) :
    nonnullLanes A (2 ^ k) values = A.total values := by
  have hn := Nat.two_pow_pos k
  obtain ⟨h1, h2⟩ := nonnullFold_total h hn values (List.replicate (2 ^ k) A.default) (by simp)
  obtain ⟨h3, h4⟩ := nonnullChunk_total h _ (chunksRem (2 ^ k) values)
    (by rw [h2]; exact Nat.le_of_lt (chunksRem_lt hn values))
  rw [nonnullLanes, reduceAcc_total h k _ (h4.trans h2), h3, h1, total_replicate h, h.comm A.default, h.unit,
    ← total_append h, chunksRem, List.take_append_drop]

/-! ### with nulls -/

/-- The values whose bit is set. -/
def pick (valid : List Bool) (vs : List T) : List T := (List.zipWith slot valid vs).filterMap id

theorem pick_cons (b : Bool) (bs : List Bool) (v : T) (vs : List T) :
    pick (b :: bs) (v :: vs) = if b then v :: pick bs vs else pick bs vs := by
  cases b <;> rfl

theorem pick_append (b b' : List Bool) (v v' : List T) (h : b.length = v.length) :
    pick (b ++ b') (v ++ v') = pick b v ++ pick b' v' := by
  unfold pick
  rw [List.zipWith_append h, List.filterMap_append]

theorem pick_split (n : Nat) (b : List Bool) (v : List T) (h : b.length = v.length) :
    pick b v = pick (b.take n) (v.take n) ++ pick (b.drop n) (v.drop n) := by
  rw [← pick_append _ _ _ _ (by simp [h]), List.take_append_drop, List.take_append_drop]

theorem mask_bit (w : BitVec 64) (i : Nat) (hi : i < 64) : (w &&& (1#64 <<< i) != 0#64) = w.getLsbD i := by
  have e : w &&& (1#64 <<< i) = BitVec.ofNat 64 ((w.getLsbD i).toNat * 2 ^ i) := by
    apply BitVec.eq_of_getLsbD_eq
    intro j hj
    rw [BitVec.getLsbD_and, BitVec.getLsbD_shiftLeft]
    cases hb : w.getLsbD i with
    | false =>
      have : (w.getLsbD j && (decide (j < 64) && !decide (j < i) && (1#64).getLsbD (j - i))) = false := by
        by_cases hji : j = i
        · subst hji; simp [hb]
        · by_cases hlt : j < i
          · simp [hlt]
          · have : ¬ j - i = 0 := by omega
            simp [BitVec.getLsbD_one, this]
      rw [this]
      simp
    | true =>
      have e2 : (BitVec.ofNat 64 (2 ^ i)).getLsbD j = decide (i = j) := by
        rw [BitVec.getLsbD_ofNat, Nat.testBit_two_pow]
        simp [hj]
      rw [Bool.toNat_true, Nat.one_mul, e2]
      by_cases hji : j = i
      · subst hji; simp [hb, hj]
      · by_cases hlt : j < i
        · simp [hlt, hj]; omega
        · have : ¬ j - i = 0 := by omega
          have h3 : ¬ i = j := fun h => hji h.symm
          simp [BitVec.getLsbD_one, this, h3]
  rw [e]
  cases w.getLsbD i with
  | false => simp
  | true =>
    rw [Bool.toNat_true, Nat.one_mul, bne_iff_ne, ne_eq, ← BitVec.toNat_inj, BitVec.toNat_ofNat,
      Nat.mod_eq_of_lt (Nat.pow_lt_pow_right (by omega) hi)]
    have := Nat.two_pow_pos i
    simp

theorem shift_one (i : Nat) : (1#64 <<< i) <<< 1 = 1#64 <<< (i + 1) := by
  rw [← BitVec.shiftLeft_add]

/-- The word has the bits `bs` from bit `i` on. -/
def HasBits (w : BitVec 64) (i : Nat) (bs : List Bool) : Prop := ∀ j, j < bs.length → w.getLsbD (i + j) = bit bs j

theorem hasBits_tail {w : BitVec 64} {i : Nat} {b : Bool} {bs : List Bool} (h : HasBits w i (b :: bs)) :
    w.getLsbD i = b ∧ HasBits w (i + 1) bs := by
  refine ⟨h 0 (by simp), fun j hj => ?_⟩
  have := h (j + 1) (by simpa using hj)
  rw [bit_cons_succ] at this
  rw [← this]
  congr 1
  omega

theorem nullableChunk_total (h : A.Lawful) (w : BitVec 64) (acc vs : List T) (bs : List Bool) (i : Nat)
    (hl : vs.length ≤ acc.length) (hb : bs.length = vs.length) (hi : i + vs.length ≤ 64) (hw : HasBits w i bs) :
    A.total (nullableChunk A w acc vs (1#64 <<< i)) = A.merge (A.total acc) (A.total (pick bs vs)) ∧
      (nullableChunk A w acc vs (1#64 <<< i)).length = acc.length := by
  induction acc generalizing vs bs i with
  | nil =>
    cases vs with
    | nil =>
      cases bs with
      | nil => exact ⟨(h.unit _).symm, rfl⟩
      | cons b bs => simp at hb
    | cons v vs => simp at hl
  | cons a acc ih =>
    cases vs with
    | nil =>
      cases bs with
      | nil => exact ⟨(h.unit _).symm, rfl⟩
      | cons b bs => simp at hb
    | cons v vs =>
      cases bs with
      | nil => simp at hb
      | cons b bs =>
        obtain ⟨hw1, hw2⟩ := hasBits_tail hw
        simp only [List.length_cons] at hi
        obtain ⟨h1, h2⟩ := ih vs bs (i + 1) (by simpa using hl) (by simpa using hb) (by omega) hw2
        rw [nullableChunk, shift_one, mask_bit w i (by omega), hw1, h.accN, pick_cons]
        refine ⟨?_, by simp [h2]⟩
        rw [total_cons, h1, total_cons]
        cases b with
        | false => simp only [Bool.false_eq_true, if_false]; rw [h.assoc]
        | true => simp only [if_true]; rw [total_cons, four h]

theorem hasBits_take {w : BitVec 64} {i : Nat} {bs : List Bool} (h : HasBits w i bs) (n : Nat) :
    HasBits w i (bs.take n) := by
  intro j hj
  rw [List.length_take] at hj
  rw [bit_take, h j (by omega)]
  have : j < n := by omega
  simp [this]

theorem hasBits_shift {w : BitVec 64} {bs : List Bool} (h : HasBits w 0 bs) (n : Nat) :
    HasBits (w >>> n) 0 (bs.drop n) := by
  intro j hj
  rw [List.length_drop] at hj
  rw [bit_drop, ← h (n + j) (by omega), BitVec.getLsbD_ushiftRight]
  congr 1
  omega

/-- No shift of the validity overflows in the loop over these values. -/
def Shifts (ov : Overflow) (lanes n : Nat) : Prop := lanes < 64 ∨ n < lanes ∨ (lanes = 64 ∧ n = 64 ∧ ov = .wrapping)

theorem laneLoop_total (h : A.Lawful) {ov : Overflow} {lanes : Nat} (hn : 0 < lanes) (vs : List T) :
    ∀ (acc : List T) (w : BitVec 64) (bs : List Bool), acc.length = lanes → bs.length = vs.length →
      vs.length ≤ 64 → HasBits w 0 bs → Shifts ov lanes vs.length →
      ∃ acc' w', laneLoop ov A lanes (chunksExact lanes vs) acc w = .ok (acc', w') ∧ acc'.length = lanes ∧
        A.total acc' = A.merge (A.total acc)
          (A.total (pick (bs.take (lanes * (vs.length / lanes))) (vs.take (lanes * (vs.length / lanes))))) ∧
        HasBits w' 0 (bs.drop (lanes * (vs.length / lanes))) := by
  induction vs using chunk_induction hn with
  | small l hl =>
    intro acc w bs ha hb h64 hw hs
    rw [(chunksExact_small hl).1, Nat.div_eq_of_lt hl]
    exact ⟨acc, w, rfl, ha, (h.unit _).symm, by simpa using hw⟩
  | big l hl ih =>
    intro acc w bs ha hb h64 hw hs
    obtain ⟨h1, h2⟩ := nullableChunk_total h w acc (l.take lanes) (bs.take lanes) 0 (by rw [List.length_take]; omega)
      (by simp [hb]) (by rw [List.length_take]; omega) (hasBits_take hw lanes)
    have e1 : (1#64 <<< 0 : BitVec 64) = 1#64 := by decide
    rw [e1] at h1 h2
    have h0 : l.length / lanes = (l.length - lanes) / lanes + 1 := by rw [Nat.div_eq_sub_div hn hl]
    have et : ∀ {β : Type} (x : List β), x.take (lanes * (l.length / lanes)) =
        x.take lanes ++ (x.drop lanes).take (lanes * ((l.length - lanes) / lanes)) := by
      intro β x
      rw [h0, Nat.mul_add, Nat.mul_one, Nat.add_comm, List.take_add]
    have ed : ∀ {β : Type} (x : List β), x.drop (lanes * (l.length / lanes)) =
        (x.drop lanes).drop (lanes * ((l.length - lanes) / lanes)) := by
      intro β x
      rw [h0, Nat.mul_add, Nat.mul_one, Nat.add_comm, List.drop_drop]
    have step : ∀ w1, shiftLanes ov w lanes = .ok w1 → HasBits w1 0 (bs.drop lanes) →
        Shifts ov lanes (l.drop lanes).length →
        ∃ acc' w', laneLoop ov A lanes (chunksExact lanes l) acc w = .ok (acc', w') ∧ acc'.length = lanes ∧
        A.total acc' = A.merge (A.total acc)
          (A.total (pick (bs.take (lanes * (l.length / lanes))) (l.take (lanes * (l.length / lanes))))) ∧
        HasBits w' 0 (bs.drop (lanes * (l.length / lanes))) := by
      intro w1 hw1 hw2 hs'
      obtain ⟨acc', w', h3, h4, h5, h6⟩ := ih (nullableChunk A w acc (l.take lanes) 1#64) w1 (bs.drop lanes)
        (h2.trans ha) (by simp [hb]) (by rw [List.length_drop]; omega) hw2 hs'
      refine ⟨acc', w', ?_, h4, ?_, ?_⟩
      · rw [(chunksExact_big hn hl).1, laneLoop]
        simp only [hw1]
        exact h3
      · rw [h5, h1, h.assoc, ← total_append h, et, et, pick_append _ _ _ _ (by simp [hb]), List.length_drop]
      · rw [ed]
        rw [List.length_drop] at h6
        exact h6
    rcases hs with hs | hs | ⟨hs1, hs2, hs3⟩
    · refine step (w >>> lanes) ?_ (hasBits_shift hw lanes) (Or.inl hs)
      simp only [shiftLanes, if_neg (by omega : ¬ 64 ≤ lanes)]
    · omega
    · subst hs3
      refine step (w >>> (lanes % 64)) ?_ ?_ ?_
      · simp only [shiftLanes, if_pos (by omega : 64 ≤ lanes)]
      · intro j hj
        rw [List.length_drop] at hj
        omega
      · right; left
        rw [List.length_drop]
        omega

theorem chunks_view {n : BoolBuf} (h : n.off + n.len ≤ n.bits.length) :
    ∃ c, chunks n.bits n.off n.len = .ok c ∧ c.words = (chunksExact 64 n.view).map word ∧
      c.rem = word (chunksRem 64 n.view) := by
  have hv : n.view.length = n.len := by rw [view_eq h]; simp
  refine ⟨_, if_neg (by omega), ?_, ?_⟩
  · simp only [chunksExact, List.map_map, hv]
    apply List.map_congr_left
    intro k hk
    rw [List.mem_range] at hk
    simp only [Function.comp_apply]
    congr 1
    simp only [BoolBuf.view, List.drop_take, List.drop_drop, List.take_take]
    congr 1
    omega
  · simp only [chunksRem, hv]
    congr 1
    simp only [BoolBuf.view, List.drop_take, List.drop_drop]
    congr 1
    omega

theorem hasBits_word {bs : List Bool} (h : bs.length ≤ 64) : HasBits (word bs) 0 bs := by
  intro j hj
  have h1 : j < 64 := by omega
  rw [word_bit]
  simp [h1]

theorem wordLoop_total (h : A.Lawful) {ov : Overflow} {lanes : Nat} {k : Nat} (hk : lanes = 2 ^ k) (hk6 : k ≤ 6)
    (vs : List T) : ∀ (acc : List T) (bs : List Bool), acc.length = lanes → bs.length = vs.length →
      (64 ≤ vs.length → lanes < 64 ∨ ov = .wrapping) →
      ∃ acc', wordLoop ov A lanes (chunksExact 64 vs) ((chunksExact 64 bs).map word) acc = .ok acc' ∧
        acc'.length = lanes ∧ A.total acc' = A.merge (A.total acc)
          (A.total (pick (bs.take (64 * (vs.length / 64))) (vs.take (64 * (vs.length / 64))))) := by
  have hn : 0 < lanes := by rw [hk]; exact Nat.two_pow_pos k
  have hd : lanes * (64 / lanes) = 64 := by
    subst hk
    have : k = 0 ∨ k = 1 ∨ k = 2 ∨ k = 3 ∨ k = 4 ∨ k = 5 ∨ k = 6 := by omega
    rcases this with h | h | h | h | h | h | h <;> subst h <;> rfl
  have hle : lanes ≤ 64 := by
    have := Nat.div_mul_le_self 64 lanes
    rcases Nat.eq_zero_or_pos (64 / lanes) with h0 | h0
    · rw [h0] at hd; omega
    · calc lanes = lanes * 1 := (Nat.mul_one _).symm
        _ ≤ lanes * (64 / lanes) := Nat.mul_le_mul_left _ h0
        _ = 64 := hd
  induction vs using chunk_induction (by omega : 0 < 64) with
  | small l hl =>
    intro acc bs ha hb _
    rw [(chunksExact_small hl).1, Nat.div_eq_of_lt hl]
    exact ⟨acc, rfl, ha, (h.unit _).symm⟩
  | big l hl ih =>
    intro acc bs ha hb hs
    have h64 : (l.take 64).length = 64 := by rw [List.length_take]; omega
    obtain ⟨acc1, w1, h1, h2, h3, -⟩ := laneLoop_total h (ov := ov) hn (l.take 64) acc (word (bs.take 64))
      (bs.take 64) ha (by simp [hb]) (by omega) (hasBits_word (by rw [List.length_take]; omega)) (by
        rcases hs hl with hs | hs
        · exact Or.inl hs
        · by_cases hlt : lanes < 64
          · exact Or.inl hlt
          · exact Or.inr (Or.inr ⟨by omega, h64, hs⟩))
    obtain ⟨acc', h4, h5, h6⟩ := ih acc1 (bs.drop 64) h2 (by simp [hb]) (fun _ => hs hl)
    refine ⟨acc', ?_, h5, ?_⟩
    · rw [(chunksExact_big (by omega) hl).1, (chunksExact_big (by omega) (by omega : 64 ≤ bs.length)).1, List.map_cons,
        wordLoop]
      simp only [h1]
      exact h4
    · have h0 : l.length / 64 = (l.length - 64) / 64 + 1 := by omega
      have et : ∀ {β : Type} (x : List β), x.take (64 * (l.length / 64)) =
          x.take 64 ++ (x.drop 64).take (64 * ((l.length - 64) / 64)) := by
        intro β x
        rw [h0, Nat.mul_add, Nat.mul_one, Nat.add_comm, List.take_add]
      rw [h6, h3, h.assoc, ← total_append h, et, et, pick_append _ _ _ _ (by simp [hb]), List.length_drop, h64, hd,
        List.take_take, List.take_take]
      rfl

theorem nullableLanes_total (h : A.Lawful) {ov : Overflow} {lanes k : Nat} (hk : lanes = 2 ^ k) (hk6 : k ≤ 6)
    (values : List T) (n : BoolBuf) (h1 : n.off + n.len ≤ n.bits.length) (h2 : n.len = values.length)
    (hs : 64 ≤ values.length → lanes < 64 ∨ ov = .wrapping) :
    nullableLanes ov A lanes values n = .ok (A.total (pick n.view values)) := by
  have hn : 0 < lanes := by rw [hk]; exact Nat.two_pow_pos k
  have hv : n.view.length = values.length := by rw [view_eq h1]; simp [h2]
  obtain ⟨c, hc1, hc2, hc3⟩ := chunks_view h1
  obtain ⟨acc, ha1, ha2, ha3⟩ := wordLoop_total h (ov := ov) hk hk6 values (List.replicate lanes A.default) n.view
    (by simp) hv hs
  have hl64 : (chunksRem 64 values).length < 64 := chunksRem_lt (by omega) values
  have hr : (chunksRem 64 n.view).length = (chunksRem 64 values).length := by
    simp only [chunksRem, List.length_drop, hv]
  obtain ⟨acc', w', hb1, hb2, hb3, hb4⟩ := laneLoop_total h (ov := ov) hn (chunksRem 64 values) acc
    (word (chunksRem 64 n.view)) (chunksRem 64 n.view) ha2 hr (by omega) (hasBits_word (by omega)) (by
      by_cases hlt : lanes < 64
      · exact Or.inl hlt
      · exact Or.inr (Or.inl (by omega)))
  have hlr := chunksRem_lt hn (chunksRem 64 values)
  obtain ⟨hd1, hd2⟩ := nullableChunk_total h w' acc' (chunksRem lanes (chunksRem 64 values))
    ((chunksRem 64 n.view).drop (lanes * ((chunksRem 64 values).length / lanes))) 0 (by omega)
    (by simp only [chunksRem, List.length_drop] at hr ⊢; omega)
    (by simp only [chunksRem, List.length_drop] at hl64 ⊢; omega) hb4
  have e1 : (1#64 <<< 0 : BitVec 64) = 1#64 := by decide
  rw [e1] at hd1 hd2
  have e2 : A.total (nullableChunk A w' acc' (chunksRem lanes (chunksRem 64 values)) 1#64) =
      A.total (pick n.view values) := by
    have er : chunksRem lanes (chunksRem 64 values) =
        (chunksRem 64 values).drop (lanes * ((chunksRem 64 values).length / lanes)) := rfl
    rw [hd1, hb3, ha3, total_replicate h, h.comm A.default, h.unit, h.assoc, ← total_append h, er,
      ← pick_split _ _ _ hr, ← total_append h]
    congr 1
    rw [pick_split (64 * (values.length / 64)) n.view values hv]
    congr 2
    rw [chunksRem, hv]
  unfold nullableLanes
  rw [if_neg (by simp [h2]), hc1]
  simp only [hc2, hc3, ha1, hb1]
  rw [reduceAcc_total h k _ (hd2.trans (hb2.trans hk)), e2]

/-! ### the aggregate -/

theorem nullCount_present {values : List T} {nulls : Option BoolBuf} (h : Fits values nulls) :
    nullCount nulls + (present values nulls).length = values.length := by
  cases nulls with
  | none => simp [nullCount, present, slots]
  | some n =>
    obtain ⟨h1, h2⟩ := h n rfl
    have hv : n.view.length = values.length := by rw [view_eq h1]; simp [h2]
    simp only [nullCount, present, Option.map_some, slots]
    change ((n.view).filter (!·)).length + _ = _
    clear h1 h2 h
    generalize n.view = bs at hv
    induction bs generalizing values with
    | nil =>
      cases values with
      | nil => rfl
      | cons v vs => simp at hv
    | cons b bs ih =>
      cases values with
      | nil => simp at hv
      | cons v vs =>
        have := ih (values := vs) (by simpa using hv)
        cases b with
        | false => simp [slot]; omega
        | true => simp [slot]; omega

theorem present_of_count {values : List T} {nulls : Option BoolBuf} (h : Fits values nulls) (h0 : nullCount nulls = 0) :
    present values nulls = values := by
  cases nulls with
  | none => simp [present, slots]
  | some n =>
    obtain ⟨h1, h2⟩ := h n rfl
    have hv : n.view.length = values.length := by rw [view_eq h1]; simp [h2]
    simp only [nullCount] at h0
    change ((n.view).filter (!·)).length = 0 at h0
    simp only [present, Option.map_some, slots]
    clear h1 h2 h
    generalize n.view = bs at hv h0
    induction bs generalizing values with
    | nil =>
      cases values with
      | nil => rfl
      | cons v vs => simp at hv
    | cons b bs ih =>
      cases values with
      | nil => simp at hv
      | cons v vs =>
        cases b with
        | false => simp at h0
        | true =>
          have := ih (values := vs) (by simpa using hv) (by simpa using h0)
          simp [slot, this]

theorem lanesOf_pow (n : Nat) : ∃ k, lanesOf n = 2 ^ k ∧ k ≤ 6 := by
  unfold lanesOf
  split
  · rename_i h
    rcases h with h | h | h | h | h | h
    · exact ⟨6, h, by omega⟩
    · exact ⟨5, h, by omega⟩
    · exact ⟨4, h, by omega⟩
    · exact ⟨3, h, by omega⟩
    · exact ⟨2, h, by omega⟩
    · exact ⟨1, h, by omega⟩
  · exact ⟨0, rfl, by omega⟩

theorem aggregate_total (h : A.Lawful) {ov : Overflow} {vec size : Nat} (hb : Build vec size)
    (ho : ¬ Overflows ov vec size) (isFloat : Bool) (values : List T) (nulls : Option BoolBuf) (hf : Fits values nulls) :
    aggregate ov vec size isFloat A values nulls =
      .ok (if present values nulls = [] then none else some (A.total (present values nulls))) := by
  have hc := nullCount_present hf
  have hnn : nullCount nulls = 0 → (if isFloat then
      if lanesOf (vec * 2 / size) = 1 then Rs.ok (some (nonnullSimple A values))
      else .ok (some (nonnullLanes A (lanesOf (vec * 2 / size)) values))
    else .ok (some (nonnullSimple A values))) = Rs.ok (some (A.total (present values nulls))) := by
    intro h0
    rw [present_of_count hf h0, nonnullSimple_total h]
    obtain ⟨k, hk, -⟩ := lanesOf_pow (vec * 2 / size)
    rw [hk, nonnullLanes_total h]
    cases isFloat <;> simp
  unfold aggregate
  simp only []
  by_cases he : nullCount nulls = values.length
  · have : present values nulls = [] := List.length_eq_zero_iff.1 (by omega)
    rw [if_pos he, if_pos this]
  · have : present values nulls ≠ [] := fun hp => he (by rw [hp] at hc; simpa using hc)
    rw [if_neg he, if_neg this]
    cases hn : nulls with
    | none =>
      simp only []
      rw [hn] at hnn
      exact hnn rfl
    | some n =>
      simp only []
      by_cases h0 : 0 < nullCount (some n)
      · rw [if_pos h0]
        obtain ⟨k, hk, hk6⟩ := lanesOf_pow (vec / size)
        obtain ⟨h1, h2⟩ := hf n hn
        rw [nullableLanes_total h hk hk6 values n h1 h2]
        · rfl
        · intro _
          by_cases hl : lanesOf (vec / size) < 64
          · exact Or.inl hl
          · right
            cases ov with
            | wrapping => rfl
            | checked =>
              exfalso
              apply ho
              refine ⟨rfl, ?_⟩
              obtain ⟨hv, hs⟩ := hb
              rcases hv with hv | hv | hv <;> rcases hs with hs | hs | hs | hs | hs | hs <;> subst hv <;> subst hs <;>
                simp [lanesOf] at hl ⊢
      · rw [if_neg h0]
        rw [hn] at hnn
        exact hnn (by omega)

end Arrow
end Verif
