import Verif.Proofs.ArrowBool
/-! C98: the boolean kernels compute the logic they document, on whole arrays and on slices. -/
namespace Verif
namespace Arrow

theorem slots_build {vb : List Bool} {n : Nat} {nulls : Option BoolBuf} (hv : n ≤ vb.length)
    (hn : ∀ m, nulls = some m → m.off + m.len ≤ m.bits.length ∧ m.len = n) :
    BoolArray.new ⟨vb, 0, n⟩ nulls = .ok ⟨⟨vb, 0, n⟩, nulls⟩ ∧ BoolArray.Ok ⟨⟨vb, 0, n⟩, nulls⟩ ∧
      BoolArray.slots ⟨⟨vb, 0, n⟩, nulls⟩ = (List.range n).map fun i => slot (validAt nulls i) (bit vb i) := by
  have hok : BoolArray.Ok ⟨⟨vb, 0, n⟩, nulls⟩ := ⟨by simpa using hv, hn⟩
  refine ⟨?_, hok, ?_⟩
  · cases nulls with
    | none => rfl
    | some m =>
      obtain ⟨-, h⟩ := hn m rfl
      simp [BoolArray.new, h]
  · rw [slots_eq hok]
    simp

theorem map_range_congr {α : Type} {n : Nat} {f g : Nat → α} (h : ∀ i, i < n → f i = g i) :
    (List.range n).map f = (List.range n).map g := by
  apply List.map_congr_left
  intro i hi
  exact h i (List.mem_range.1 hi)

theorem new_ok {b : List Bool} {n : Nat} (h : n ≤ b.length) : BoolBuf.new b 0 n = .ok ⟨b, 0, n⟩ := by
  simp [BoolBuf.new]; omega

theorem le_round (n : Nat) : n ≤ 8 * ((n + 7) / 8) := by omega

theorem kleeneArray_ok {n : Nat} {vb : List Bool} {nb : Option (List Bool)} (hv : n ≤ vb.length)
    (hb : ∀ b, nb = some b → n ≤ b.length) :
    ∃ a, kleeneArray n nb (.ok ⟨vb, 0, n⟩) = .ok (some a) ∧ a.Ok ∧
      a.slots = (List.range n).map fun i => slot (match nb with | none => true | some b => bit b i) (bit vb i) := by
  cases nb with
  | none =>
    obtain ⟨h1, h2, h3⟩ := slots_build (nulls := none) hv (by simp)
    exact ⟨_, by simp only [kleeneArray, Rs.pure_eq, Rs.ok_bind, h1, Rs.map'], h2, h3⟩
  | some b =>
    have hb := hb b rfl
    obtain ⟨h1, h2, h3⟩ := slots_build (nulls := some ⟨b, 0, n⟩) hv (by
      intro m hm
      injection hm with hm
      subst hm
      exact ⟨by simpa using hb, rfl⟩)
    refine ⟨_, by simp only [kleeneArray, new_ok hb, Rs.map', Rs.ok_bind, h1], h2, h3.trans ?_⟩
    simp [validAt]

theorem le_of_round {n : Nat} {nb : List Bool} (h : nb.length = 8 * ((n + 7) / 8)) :
    ∀ b, some nb = some b → n ≤ b.length := by
  intro b hb
  injection hb with hb
  subst hb
  omega

/-- `and_kleene` is Kleene's `and` slot by slot, with or without buffers of validity, on arrays and slices. -/
theorem C98_and_kleene (l r : BoolArray) (hl : l.Ok) (hr : r.Ok) (hlen : l.slots.length = r.slots.length) :
    ∃ a, andKleene l r = .ok (some a) ∧ a.Ok ∧ a.slots = List.zipWith kleeneAnd l.slots r.slots := by
  rw [slots_eq hl, slots_eq hr] at hlen ⊢
  simp only [List.length_map, List.length_range] at hlen
  rw [← hlen, zipWith_range]
  obtain ⟨hl1, hl2⟩ := hl
  obtain ⟨hr1, hr2⟩ := hr
  obtain ⟨vb, hv, hvl, hvb⟩ := combine_ok (op := (· &&& ·)) (f := (· && ·))
    (fun x y i _ => BitVec.getLsbD_and ..) hlen hl1 hr1
  unfold andKleene andKleeneNulls
  rw [if_neg (by simpa using hlen), hv]
  have hr1' : r.values.off + l.values.len ≤ r.values.bits.length := by omega
  cases hln : l.nulls with
  | none =>
    cases hrn : r.nulls with
    | none =>
      obtain ⟨a, h1, h2, h3⟩ := kleeneArray_ok (nb := none) hvl (by simp)
      refine ⟨a, h1, h2, h3.trans (map_range_congr fun i hi => ?_)⟩
      simp only [validAt, hvb i hi]
      cases bit l.values.bits (l.values.off + i) <;> cases bit r.values.bits (r.values.off + i) <;> rfl
    | some rn =>
      obtain ⟨hr3, hr4⟩ := hr2 rn hrn
      obtain ⟨nb, hn, hnl, hnb, -⟩ := binOp_ok (op := fun a b => a ||| ~~~ b) (f := fun a b => a || !b)
        (fun x y i h => by simp [h]) (by omega : rn.off + l.values.len ≤ rn.bits.length) hl1
      obtain ⟨a, h1, h2, h3⟩ := kleeneArray_ok (nb := some nb) hvl (le_of_round hnl)
      refine ⟨a, by simp only [hn, Rs.map', Rs.ok_bind, h1], h2, h3.trans (map_range_congr fun i hi => ?_)⟩
      simp only [validAt, hvb i hi, hnb i hi]
      cases bit l.values.bits (l.values.off + i) <;> cases bit r.values.bits (r.values.off + i) <;>
        cases bit rn.bits (rn.off + i) <;> rfl
  | some ln =>
    obtain ⟨hl3, hl4⟩ := hl2 ln hln
    have hl5 : ln.off + l.values.len ≤ ln.bits.length := by omega
    cases hrn : r.nulls with
    | none =>
      obtain ⟨nb, hn, hnl, hnb, -⟩ := binOp_ok (op := fun a b => a ||| ~~~ b) (f := fun a b => a || !b)
        (fun x y i h => by simp [h]) hl5 hr1'
      obtain ⟨a, h1, h2, h3⟩ := kleeneArray_ok (nb := some nb) hvl (le_of_round hnl)
      refine ⟨a, by simp only [hn, Rs.map', Rs.ok_bind, h1], h2, h3.trans (map_range_congr fun i hi => ?_)⟩
      simp only [validAt, hvb i hi, hnb i hi]
      cases bit l.values.bits (l.values.off + i) <;> cases bit r.values.bits (r.values.off + i) <;>
        cases bit ln.bits (ln.off + i) <;> rfl
    | some rn =>
      obtain ⟨hr3, hr4⟩ := hr2 rn hrn
      obtain ⟨nb, hn, hnl, hnb⟩ := quadOp_ok
        (op := fun a b c d => (a ||| (c &&& ~~~ d)) &&& (c ||| (a &&& ~~~ b)))
        (f := fun a b c d => (a || (c && !d)) && (c || (a && !b)))
        (fun x y z w i h => by simp [h]) hl5 hl1
        (by omega : rn.off + l.values.len ≤ rn.bits.length) hr1'
      obtain ⟨a, h1, h2, h3⟩ := kleeneArray_ok (nb := some nb) hvl (le_of_round hnl)
      refine ⟨a, by simp only [hn, Rs.map', Rs.ok_bind, h1], h2, h3.trans (map_range_congr fun i hi => ?_)⟩
      simp only [validAt, hvb i hi, hnb i hi]
      cases bit l.values.bits (l.values.off + i) <;> cases bit r.values.bits (r.values.off + i) <;>
        cases bit ln.bits (ln.off + i) <;> cases bit rn.bits (rn.off + i) <;> rfl

/-- `or_kleene` is Kleene's `or` slot by slot. -/
theorem C98_or_kleene (l r : BoolArray) (hl : l.Ok) (hr : r.Ok) (hlen : l.slots.length = r.slots.length) :
    ∃ a, orKleene l r = .ok (some a) ∧ a.Ok ∧ a.slots = List.zipWith kleeneOr l.slots r.slots := by
  rw [slots_eq hl, slots_eq hr] at hlen ⊢
  simp only [List.length_map, List.length_range] at hlen
  rw [← hlen, zipWith_range]
  obtain ⟨hl1, hl2⟩ := hl
  obtain ⟨hr1, hr2⟩ := hr
  obtain ⟨vb, hv, hvl, hvb⟩ := combine_ok (op := (· ||| ·)) (f := (· || ·))
    (fun x y i _ => BitVec.getLsbD_or ..) hlen hl1 hr1
  unfold orKleene orKleeneNulls
  rw [if_neg (by simpa using hlen), hv]
  have hr1' : r.values.off + l.values.len ≤ r.values.bits.length := by omega
  cases hln : l.nulls with
  | none =>
    cases hrn : r.nulls with
    | none =>
      obtain ⟨a, h1, h2, h3⟩ := kleeneArray_ok (nb := none) hvl (by simp)
      refine ⟨a, h1, h2, h3.trans (map_range_congr fun i hi => ?_)⟩
      simp only [validAt, hvb i hi]
      cases bit l.values.bits (l.values.off + i) <;> cases bit r.values.bits (r.values.off + i) <;> rfl
    | some rn =>
      obtain ⟨hr3, hr4⟩ := hr2 rn hrn
      obtain ⟨nb, hn, hnl, hnb, -⟩ := binOp_ok (op := fun a b => a ||| b) (f := fun a b => a || b)
        (fun x y i h => by simp) (by omega : rn.off + l.values.len ≤ rn.bits.length) hl1
      obtain ⟨a, h1, h2, h3⟩ := kleeneArray_ok (nb := some nb) hvl (le_of_round hnl)
      refine ⟨a, by simp only [hn, Rs.map', Rs.ok_bind, h1], h2, h3.trans (map_range_congr fun i hi => ?_)⟩
      simp only [validAt, hvb i hi, hnb i hi]
      cases bit l.values.bits (l.values.off + i) <;> cases bit r.values.bits (r.values.off + i) <;>
        cases bit rn.bits (rn.off + i) <;> rfl
  | some ln =>
    obtain ⟨hl3, hl4⟩ := hl2 ln hln
    have hl5 : ln.off + l.values.len ≤ ln.bits.length := by omega
    cases hrn : r.nulls with
    | none =>
      obtain ⟨nb, hn, hnl, hnb, -⟩ := binOp_ok (op := fun a b => a ||| b) (f := fun a b => a || b)
        (fun x y i h => by simp) hl5 hr1'
      obtain ⟨a, h1, h2, h3⟩ := kleeneArray_ok (nb := some nb) hvl (le_of_round hnl)
      refine ⟨a, by simp only [hn, Rs.map', Rs.ok_bind, h1], h2, h3.trans (map_range_congr fun i hi => ?_)⟩
      simp only [validAt, hvb i hi, hnb i hi]
      cases bit l.values.bits (l.values.off + i) <;> cases bit r.values.bits (r.values.off + i) <;>
        cases bit ln.bits (ln.off + i) <;> rfl
    | some rn =>
      obtain ⟨hr3, hr4⟩ := hr2 rn hrn
      obtain ⟨nb, hn, hnl, hnb⟩ := quadOp_ok
        (op := fun a b c d => (a ||| (c &&& d)) &&& (c ||| (a &&& b)))
        (f := fun a b c d => (a || (c && d)) && (c || (a && b)))
        (fun x y z w i h => by simp) hl5 hl1
        (by omega : rn.off + l.values.len ≤ rn.bits.length) hr1'
      obtain ⟨a, h1, h2, h3⟩ := kleeneArray_ok (nb := some nb) hvl (le_of_round hnl)
      refine ⟨a, by simp only [hn, Rs.map', Rs.ok_bind, h1], h2, h3.trans (map_range_congr fun i hi => ?_)⟩
      simp only [validAt, hvb i hi, hnb i hi]
      cases bit l.values.bits (l.values.off + i) <;> cases bit r.values.bits (r.values.off + i) <;>
        cases bit ln.bits (ln.off + i) <;> cases bit rn.bits (rn.off + i) <;> rfl

theorem union_ok {l r : Option BoolBuf} {n : Nat}
    (hl : ∀ m, l = some m → m.off + m.len ≤ m.bits.length ∧ m.len = n)
    (hr : ∀ m, r = some m → m.off + m.len ≤ m.bits.length ∧ m.len = n) :
    ∃ u, unionNulls l r = .ok u ∧ (∀ m, u = some m → m.off + m.len ≤ m.bits.length ∧ m.len = n) ∧
      ∀ i, i < n → validAt u i = (validAt l i && validAt r i) := by
  cases l with
  | none =>
    refine ⟨r, ?_, hr, fun i _ => by simp [validAt]⟩
    cases r <;> rfl
  | some a =>
    cases r with
    | none => exact ⟨some a, rfl, hl, fun i _ => by simp [validAt]⟩
    | some b =>
      obtain ⟨ha, ha'⟩ := hl a rfl
      obtain ⟨hb, hb'⟩ := hr b rfl
      obtain ⟨bs, h1, h2, h3⟩ := combine_ok (op := (· &&& ·)) (f := (· && ·))
        (fun x y i _ => BitVec.getLsbD_and ..) (ha'.trans hb'.symm) ha hb
      refine ⟨some ⟨bs, 0, a.len⟩, by simp only [unionNulls, h1, Rs.map'], ?_, fun i hi => ?_⟩
      · intro m hm
        injection hm with hm
        subst hm
        exact ⟨by simpa using h2, ha'⟩
      · simp only [validAt, Nat.zero_add]
        exact h3 i (by omega)

theorem kernel_ok {op : BoolBuf → BoolBuf → Rs BoolBuf} {f : Bool → Bool → Bool} {l r : BoolArray} {vb : List Bool}
    (hl : l.Ok) (hr : r.Ok) (hlen : l.slots.length = r.slots.length)
    (hv : op l.values r.values = .ok ⟨vb, 0, l.values.len⟩) (hvl : l.values.len ≤ vb.length)
    (hvb : ∀ i, i < l.values.len →
      bit vb i = f (bit l.values.bits (l.values.off + i)) (bit r.values.bits (r.values.off + i))) :
    ∃ a, boolKernel op l r = .ok (some a) ∧ a.Ok ∧ a.slots = List.zipWith (strict f) l.slots r.slots := by
  rw [slots_eq hl, slots_eq hr] at hlen ⊢
  simp only [List.length_map, List.length_range] at hlen
  rw [← hlen, zipWith_range]
  obtain ⟨hl1, hl2⟩ := hl
  obtain ⟨hr1, hr2⟩ := hr
  obtain ⟨u, hu1, hu2, hu3⟩ := union_ok hl2 (by rw [hlen]; exact hr2)
  obtain ⟨h1, h2, h3⟩ := slots_build hvl hu2
  refine ⟨_, ?_, h2, h3.trans (map_range_congr fun i hi => ?_)⟩
  · unfold boolKernel
    rw [if_neg (by simpa using hlen), hu1, hv]
    simp only [Rs.ok_bind, h1, Rs.map']
  · rw [hu3 i hi, hvb i hi]
    cases validAt l.nulls i <;> cases validAt r.nulls i <;> rfl

/-- `and` and `or`: the operation where both slots hold a value, null elsewhere. -/
theorem C98_and_or (l r : BoolArray) (hl : l.Ok) (hr : r.Ok) (hlen : l.slots.length = r.slots.length) :
    (∃ a, and l r = .ok (some a) ∧ a.Ok ∧ a.slots = List.zipWith (strict (· && ·)) l.slots r.slots) ∧
    ∃ a, or l r = .ok (some a) ∧ a.Ok ∧ a.slots = List.zipWith (strict (· || ·)) l.slots r.slots := by
  have hlen' : l.values.len = r.values.len := by
    simpa [slots_eq hl, slots_eq hr] using hlen
  constructor
  · obtain ⟨vb, hv, hvl, hvb⟩ := combine_ok (op := (· &&& ·)) (f := (· && ·))
      (fun x y i _ => BitVec.getLsbD_and ..) hlen' hl.1 hr.1
    exact kernel_ok hl hr hlen hv hvl hvb
  · obtain ⟨vb, hv, hvl, hvb⟩ := combine_ok (op := (· ||| ·)) (f := (· || ·))
      (fun x y i _ => BitVec.getLsbD_or ..) hlen' hl.1 hr.1
    exact kernel_ok hl hr hlen hv hvl hvb

/-- Arrays of different lengths are refused by all of them, with an error. -/
theorem C98_lengths (l r : BoolArray) (hl : l.Ok) (hr : r.Ok) (hlen : l.slots.length ≠ r.slots.length) :
    andKleene l r = .ok none ∧ orKleene l r = .ok none ∧ and l r = .ok none ∧ or l r = .ok none ∧
      andNot l r = .ok none := by
  have hlen' : l.values.len ≠ r.values.len := by
    simpa [slots_eq hl, slots_eq hr] using hlen
  exact ⟨if_pos hlen', if_pos hlen', if_pos hlen', if_pos hlen', if_pos hlen'⟩

/-- `not` negates what the slots hold. -/
theorem C98_not (a : BoolArray) (h : a.Ok) :
    ∃ b, not a = .ok b ∧ b.Ok ∧ b.slots = a.slots.map (·.map (!·)) := by
  obtain ⟨vb, hv, hvl, hvb⟩ := not_ok h.1
  obtain ⟨h1, h2, h3⟩ := slots_build hvl h.2
  refine ⟨_, by simp only [not, hv, Rs.ok_bind, h1], h2, h3.trans ?_⟩
  rw [slots_eq h, List.map_map]
  refine map_range_congr fun i hi => ?_
  rw [hvb i hi, Function.comp_apply]
  cases validAt a.nulls i <;> rfl

/-- `is_null` and `is_not_null` say of each slot, without nulls of their own, whether it is null: of an array of
any type. -/
theorem C98_is_null {α : Type} (values : List α) (nulls : Option BoolBuf)
    (h : ∀ n, nulls = some n → n.off + n.len ≤ n.bits.length ∧ n.len = values.length) :
    (∃ b, isNull values.length nulls = .ok b ∧ b.nulls = none ∧
      b.slots = (slots values (nulls.map BoolBuf.view)).map fun s => some s.isNone) ∧
    ∃ b, isNotNull values.length nulls = .ok b ∧ b.nulls = none ∧
      b.slots = (slots values (nulls.map BoolBuf.view)).map fun s => some s.isSome := by
  cases nulls with
  | none =>
    have hc : ∀ b, BoolArray.slots ⟨BoolBuf.const b values.length, none⟩ = values.map fun _ => some b := by
      intro b
      simp only [BoolArray.slots, slots, BoolBuf.view, BoolBuf.const, Option.map_none, List.drop_zero,
        List.take_replicate]
      rw [Nat.min_eq_left (by omega)]
      simp [List.map_const']
    refine ⟨⟨_, rfl, rfl, ?_⟩, _, rfl, rfl, ?_⟩
    · rw [hc]; simp [slots]
    · rw [hc]; simp [slots]
  | some n =>
    obtain ⟨h1, h2⟩ := h n rfl
    have hs : ∀ (g : Bool → Bool) (k : Option α → Bool), (∀ v (x : α), k (slot v x) = g v) →
        (slots values (some n.view)).map (fun s => some (k s)) = n.view.map fun v => some (g v) := by
      intro g k hk
      have hv : n.view.length = values.length := by rw [view_eq h1]; simp [h2]
      simp only [slots, List.map_zipWith, hk]
      clear h1 h2 h
      generalize n.view = l at hv
      induction l generalizing values with
      | nil => simp
      | cons a l ih =>
        cases values with
        | nil => simp at hv
        | cons v vs => simp [ih vs (by simpa using hv)]
    constructor
    · obtain ⟨vb, hv, hvl, hvb⟩ := not_ok h1
      obtain ⟨h3, h4, h5⟩ := slots_build (nulls := none) hvl (by simp)
      refine ⟨_, by simp only [isNull, hv, Rs.ok_bind, h3], rfl, h5.trans ?_⟩
      rw [Option.map_some, hs (fun v => !v) Option.isNone (fun v x => by cases v <;> rfl), view_eq h1, List.map_map]
      exact map_range_congr fun i hi => by simp [validAt, slot, hvb i hi]
    · refine ⟨_, rfl, rfl, ?_⟩
      rw [Option.map_some, hs (fun v => v) Option.isSome (fun v x => by cases v <;> rfl)]
      simp [BoolArray.slots, slots]

/-- `and_not`, on arrays that are not slices: the left one where both hold a value and the right one is false.
What is missing: slices, for which the claim is false. -/
theorem C98_and_not_partial (l r : BoolArray) (hl : l.Ok) (hr : r.Ok) (hlen : l.slots.length = r.slots.length)
    (hl0 : l.values.off = 0) (hr0 : r.values.off = 0) :
    ∃ a, andNot l r = .ok (some a) ∧ a.Ok ∧ a.slots = List.zipWith (strict fun x y => x && !y) l.slots r.slots := by
  have hlen' : l.values.len = r.values.len := by
    simpa [slots_eq hl, slots_eq hr] using hlen
  obtain ⟨vb, hv, hvl, hvb, -⟩ := binOp_ok (op := fun x y => x &&& ~~~ y) (f := fun x y => x && !y)
    (fun x y i h => by simp [h]) (by have := hl.1; omega : r.values.off + l.values.len ≤ l.values.bits.length)
    (by have := hr.1; omega : l.values.off + l.values.len ≤ r.values.bits.length)
  refine kernel_ok (vb := vb) hl hr hlen ?_ (by omega) fun i hi => ?_
  · rw [hv, hl0]
    exact new_ok (by omega : l.values.len ≤ vb.length)
  · rw [hvb i hi, hl0, hr0]

/-- `and_not` of slices can be wrong: both arrays are slices, from the second slot on; the last slot should
be true, and is false. -/
theorem C98_violated_and_not :
    ∃ (x y : BoolArray) (l r a : BoolArray), x.Ok ∧ y.Ok ∧ x.slice 1 2 = .ok l ∧ y.slice 1 2 = .ok r ∧ l.Ok ∧ r.Ok ∧
      l.slots = [some true, some true] ∧ r.slots = [some false, some false] ∧
      andNot l r = .ok (some a) ∧ a.slots = [some true, some false] := by
  refine ⟨⟨⟨[true, true, true, true, true, true, true, true], 0, 3⟩, none⟩,
    ⟨⟨[false, false, false, false, false, false, false, false], 0, 3⟩, none⟩,
    ⟨⟨[true, true, true, true, true, true, true, true], 1, 2⟩, none⟩,
    ⟨⟨[false, false, false, false, false, false, false, false], 1, 2⟩, none⟩,
    ⟨⟨[true, true, false, false, false, false, false, false], 1, 2⟩, none⟩, ?_⟩
  simp only [BoolArray.Ok]
  refine ⟨by simp, by simp, ?_⟩
  decide +kernel

/-- … and of every slice of a whole number of bytes, not from the first slot on, it panics. -/
theorem C98_violated_and_not_panic (l r : BoolArray) (hl : l.Ok) (hr : r.Ok)
    (hlen : l.slots.length = r.slots.length) (h8 : l.slots.length % 8 = 0) (h0 : 0 < l.values.off) :
    andNot l r = .panic := by
  have hlen' : l.values.len = r.values.len := by
    simpa [slots_eq hl, slots_eq hr] using hlen
  have h8' : l.values.len % 8 = 0 := by simpa [slots_eq hl] using h8
  obtain ⟨u, hu, -, -⟩ := union_ok hl.2 (by rw [hlen']; exact hr.2)
  unfold andNot boolKernel
  rw [if_neg (by simpa using hlen'), hu]
  simp only [Rs.ok_bind]
  by_cases h1 : r.values.off + l.values.len ≤ l.values.bits.length
  · by_cases h2 : l.values.off + l.values.len ≤ r.values.bits.length
    · obtain ⟨vb, hv, hvl, -, -⟩ := binOp_ok (op := fun x y => x &&& ~~~ y) (f := fun x y => x && !y)
        (fun x y i h => by simp [h]) h1 h2
      rw [hv]
      simp only [Rs.ok_bind]
      rw [BoolBuf.new, if_pos (by omega)]
      rfl
    · have h3 : chunks r.values.bits l.values.off l.values.len = .panic := if_pos (by omega)
      obtain ⟨c, h4, -⟩ := chunks_ok h1
      simp only [binOp, h3, h4, Rs.panic_bind]
  · have h3 : chunks l.values.bits r.values.off l.values.len = .panic := if_pos (by omega)
    simp only [binOp, h3, Rs.panic_bind]

/-- The arrays of the examples: the ninth to the sixteenth slot of arrays of sixteen, with and without nulls. -/
def exL : BoolArray := ⟨⟨List.replicate 9 false ++ [true, true, false, false, true, true, false], 8, 8⟩,
  some ⟨List.replicate 8 true ++ [true, true, false, true, false, true, true, true], 8, 8⟩⟩
def exR : BoolArray := ⟨⟨List.replicate 8 true ++ [true, false, true, false, false, false, true, true], 8, 8⟩, none⟩

theorem exL_ok : exL.Ok := ⟨by decide, by intro n hn; injection hn with hn; subst hn; decide⟩
theorem exR_ok : exR.Ok := ⟨by decide, by intro n hn; cases hn⟩

example : exL.slots = [some false, some true, none, some false, none, some true, some true, some false] ∧
    List.zipWith kleeneAnd exL.slots exR.slots =
      [some false, some false, none, some false, some false, some false, some true, some false] ∧
    List.zipWith kleeneOr exL.slots exR.slots =
      [some true, some true, some true, some false, none, some true, some true, some true] := by decide +kernel
example := C98_and_kleene exL exR exL_ok exR_ok (by decide +kernel)
example := C98_or_kleene exL exR exL_ok exR_ok (by decide +kernel)
example := C98_and_or exL exR exL_ok exR_ok (by decide +kernel)
example := C98_not exL exL_ok
example := C98_violated_and_not_panic exL exR exL_ok exR_ok (by decide +kernel) (by decide +kernel) (by decide)
example := C98_lengths exL ⟨⟨[true], 0, 1⟩, none⟩ exL_ok ⟨by decide, by intro n hn; cases hn⟩ (by decide +kernel)
example := C98_is_null [1, 2, 3, 4, 5, 6, 7, 8] exL.nulls exL_ok.2
example := C98_and_not_partial ⟨⟨[true, true, false, true], 0, 3⟩, none⟩ ⟨⟨[true, false, false, true], 0, 3⟩, none⟩
  ⟨by decide, by intro n hn; cases hn⟩ ⟨by decide, by intro n hn; cases hn⟩ (by decide +kernel) rfl rfl

/-- A slice of an array holds these slots of it, so that all of the above is true of slices; it is refused if and only
if the array does not have the slots. -/
theorem C98_slice (a : BoolArray) (h : a.Ok) (off len : Nat) :
    (a.slots.length < off + len → a.slice off len = .panic) ∧
    (off + len ≤ a.slots.length →
      ∃ s, a.slice off len = .ok s ∧ s.Ok ∧ s.slots = (a.slots.drop off).take len) := by
  obtain ⟨⟨vb, vo, vl⟩, nulls⟩ := a
  obtain ⟨h1, h2⟩ := h
  have cut : ∀ (b : List Bool) (o l : Nat), off + len ≤ l →
      (b.drop (o + off)).take len = (((b.drop o).take l).drop off).take len := by
    intro b o l hl
    rw [List.drop_take, List.take_take, List.drop_drop, Nat.min_eq_left (by omega)]
  have hlen : (BoolArray.slots ⟨⟨vb, vo, vl⟩, nulls⟩).length = vl := by
    cases nulls with
    | none => simp [BoolArray.slots, Arrow.slots, BoolBuf.view] at h1 ⊢; omega
    | some n =>
      obtain ⟨h3, h4⟩ := h2 n rfl
      simp [BoolArray.slots, Arrow.slots, BoolBuf.view] at h1 h3 h4 ⊢; omega
  rw [hlen]
  refine ⟨fun hl => by simp [BoolArray.slice, hl], fun hl => ⟨_, by simp only [BoolArray.slice]; rw [if_neg (by omega)], ?_, ?_⟩⟩
  · refine ⟨by simp at h1 ⊢; omega, fun n hn => ?_⟩
    cases nulls with
    | none => cases hn
    | some m =>
      obtain ⟨h3, h4⟩ := h2 m rfl
      simp only [Option.map_some, Option.some.injEq] at hn
      subst hn
      simp at h3 h4 ⊢
      omega
  · cases nulls with
    | none =>
      simp only [BoolArray.slots, Arrow.slots, BoolBuf.view, Option.map_none, ← List.map_drop, ← List.map_take]
      rw [cut vb vo vl hl]
    | some m =>
      obtain ⟨h3, h4⟩ := h2 m rfl
      simp only [BoolArray.slots, Arrow.slots, BoolBuf.view, Option.map_some, List.drop_zipWith, List.take_zipWith]
      rw [cut vb vo vl hl, cut m.bits m.off m.len (by simp at h4; omega)]

example : exL.Ok ∧ ∃ s, exL.slice 1 2 = .ok s ∧ s.slots = (exL.slots.drop 1).take 2 ∧ s.slots ≠ exL.slots.take 2 :=
  ⟨exL_ok, _, rfl, by decide, by decide⟩

end Arrow
end Verif
