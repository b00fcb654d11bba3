import Verif.Proofs.ArrowDecimal
import Verif.Props.ArrowArity
/-!
C103: arithmetic on decimals.
-/
namespace Verif
namespace Arrow

/-- C103 (restricted to types between which the powers of ten exist, and whose digits before the point an `i8` counts):
each slot of the result is what the operation gives for the numbers the operands stand for, or null if one of them is;
the first slot for which an integer is needed that the type does not hold, or whose divisor is zero, makes it an error.
The type of the result does not depend on the values. -/
theorem C103_partial {D : Decimal} (hD : D = decimal128 ∨ D = decimal256) (o : Overflow) {op : Op} {t1 t2 : DecTy}
    (h1 : t1.Ok D) (h2 : t2.Ok D) (hp : op.Possible D t1 t2)
    (hs : (op = .mul ∨ op = .mulWrapping ∨ op = .div) ∨ (t1.p - t1.s ≤ 127 ∧ t2.p - t2.s ≤ 127)) :
    ∃ f : Int → Int → Except ArrowErr Int,
      (∀ a b, DecRight D op t1 t2 a b (f a b)) ∧
      (op.digits D t1 t2 ≤ D.max → ∀ a b, |a| < 10 ^ t1.p → |b| < 10 ^ t2.p →
        (∀ v, f a b = .ok v → |v| < 10 ^ (op.type D t1 t2).p) ∧
        (op ≠ .div → op ≠ .rem → ∃ v, f a b = .ok v)) ∧
      ∀ l r : Datum Int, l.Ok → r.Ok → Match l r →
        decResult (decimalOp o D op l t1 r t2) =
          .ok ((collect (List.zipWith (strictTry₂ f) (l.spread (lengthOf l r)) (r.spread (lengthOf l r)))).map
            (·, op.type D t1 t2)) := by
  have hR := real hD
  refine ⟨op.element D t1 t2, element_right hR.bits op t1 t2, fun hd a b ha hb => ?_, fun l r hl hr hm => ?_⟩
  · by_cases hop : op = .div ∨ op = .rem
    · refine ⟨fun v hv => element_size hR hop h1 h2 hd hp.2.2.2.2.1 ha hb hv, fun n1 n2 => ?_⟩
      rcases hop with h | h
      · exact absurd h n1
      · exact absurd h n2
    · have hop' : op ≠ .div ∧ op ≠ .rem := ⟨fun h => hop (.inl h), fun h => hop (.inr h)⟩
      obtain ⟨v, hv, hs⟩ := element_fits hR hop' h1 h2 hd ha hb
      refine ⟨fun w hw => ?_, fun _ _ => ⟨v, hv⟩⟩
      rw [hv] at hw
      injection hw with hw
      rw [← hw]
      exact hs
  · rw [decimal_eq hR h1 h2 hp hs]
    exact decResult_withType (type_valid hR hp) (tryOp_ok 0 hl hr hm _)

/-- C103: sums, differences and remainders are possible if the scales are no further apart than the digits of the
type. -/
theorem C103_possible {D : Decimal} {op : Op} (hop : op = .add ∨ op = .addWrapping ∨ op = .sub ∨
    op = .subWrapping ∨ op = .rem) {t1 t2 : DecTy} (h1 : t1.Ok D) (h2 : t2.Ok D) (h : |t1.s - t2.s| ≤ D.max) :
    op.Possible D t1 t2 := possible_add hop h1 h2 h

example := C103_possible (D := decimal128) (.inl rfl) (t1 := ⟨38, 20⟩) (t2 := ⟨10, -3⟩) ⟨by decide, by decide, by decide, by decide⟩
  ⟨by decide, by decide, by decide, by decide⟩ (by decide)

/-- C103: a product whose scale would exceed the greatest one is refused, whatever the values are. -/
theorem C103_scale {D : Decimal} (hD : D = decimal128 ∨ D = decimal256) (o : Overflow) {op : Op}
    (hop : op = .mul ∨ op = .mulWrapping) {t1 t2 : DecTy} (h : D.max < t1.s + t2.s) (l r : Datum Int) :
    decimalOp o D op l t1 r t2 = .ok (.error .invalid) := by
  have e : (D.max : Int) < satAdd t1.s t2.s := by
    have := (real hD).top
    unfold satAdd
    omega
  rcases hop with rfl | rfl <;> exact if_pos e

example := C103_scale (.inl rfl) .wrapping (.inl rfl) (t1 := ⟨38, 20⟩) (t2 := ⟨38, 19⟩) (by decide) ⟨demo [some 1], false⟩ ⟨demo [], true⟩

/-- C103: `neg` is exact, slot by slot, or an error, and keeps the type. -/
theorem C103_neg {D : Decimal} (hD : D = decimal128 ∨ D = decimal256) {t : DecTy} (ht : t.Ok D) {a : Prim Int}
    (h : a.Ok) :
    ∃ f : Int → Except ArrowErr Int, (∀ v, RightNeg D.native v (f v)) ∧
      decResult (decimalNeg D a t) = .ok ((collect (a.slots.map (strictTry f))).map (·, t)) := by
  have hR := real hD
  refine ⟨fun v => D.native.check (-v), fun v => ?_, decResult_withType ?_ (tryUnary_ok 0 h _)⟩
  · rcases check_ok hR.bits (-v) with ⟨h, e⟩ | ⟨h, e⟩
    · simp only [e]
      exact ⟨h, rfl⟩
    · simp only [e]
      exact ⟨rfl, h⟩
  · obtain ⟨p1, q1, s1, l1⟩ := ht
    unfold DecTy.valid
    simp only [ne_eq, decide_not, Bool.and_eq_true, Bool.not_eq_true', decide_eq_false_iff_not, decide_eq_true_eq,
      Bool.and_eq_false_iff]
    exact ⟨⟨⟨by omega, by omega⟩, by omega⟩, .inr (by omega)⟩

example := C103_neg (.inr rfl) (t := ⟨38, 20⟩) ⟨by decide, by decide, by decide, by decide⟩ (demo_ok [some 3, none])

/-- C103 (restricted to scales whose sum is an `i8`, and at most 76 digits to drop): a product at a given scale is, slot
by slot, the number nearest to the exact product, or an error if an `i128` does not hold it. -/
theorem C103_fixed_partial {o : Overflow} {t1 t2 : DecTy} {required : Int} (h1 : t1.Ok decimal128)
    (h2 : t2.Ok decimal128) (hs : -128 ≤ t1.s + t2.s) (h : required ≤ t1.s + t2.s)
    (hk : t1.s + t2.s - required ≤ 76) (hr : required ≤ 38) :
    ∃ f : Int → Int → Except ArrowErr Int,
      (∀ a b, decimal128.native.Holds a → decimal128.native.Holds b → FixedRight (product t1 t2 required a b) (f a b)) ∧
      ∀ l r : Prim Int, l.Ok → r.Ok → l.slots.length = r.slots.length →
        decResult (multiplyChecked o l t1 r t2 required) =
          .ok ((collect (List.zipWith (strictTry₂ f) l.slots r.slots)).map (·, fixedType t1 t2 required)) :=
  fixed_checked h1 h2 hs h hk hr

/-- C103 (restricted in the same way): the one without the check wraps around. -/
theorem C103_fixed_wrapping_partial {o : Overflow} {t1 t2 : DecTy} {required : Int} (h1 : t1.Ok decimal128)
    (h2 : t2.Ok decimal128) (hs : -128 ≤ t1.s + t2.s) (h : required ≤ t1.s + t2.s)
    (hk : t1.s + t2.s - required ≤ 76) (hr : required ≤ 38) :
    ∃ f : Int → Int → Int,
      (∀ a b, decimal128.native.Holds a → decimal128.native.Holds b →
        decimal128.native.Holds (f a b) ∧ (2 : Int) ^ 128 ∣ f a b - near (product t1 t2 required a b)) ∧
      ∀ l r : Prim Int, l.Ok → r.Ok → l.slots.length = r.slots.length →
        decResult (multiplyFixedPoint o l t1 r t2 required) =
          .ok (.ok (List.zipWith (strict f) l.slots r.slots, fixedType t1 t2 required)) :=
  fixed_wrapping h1 h2 hs h hk hr

/-- C103: a scale that is greater than that of the exact product is refused. -/
theorem C103_fixed_scale {o : Overflow} {t1 t2 : DecTy} {required : Int} (h1 : t1.Ok decimal128)
    (h2 : t2.Ok decimal128) (hs : -128 ≤ t1.s + t2.s) (h : t1.s + t2.s < required) (l r : Prim Int) :
    multiplyChecked o l t1 r t2 required = .ok (.error .compute) ∧
      multiplyFixedPoint o l t1 r t2 required = .ok (.error .compute) := by
  have e38 : decimal128.max = 38 := rfl
  have i : fixedPointInfo o t1 t2 required = .ok (.error .compute) := by
    unfold fixedPointInfo
    rw [i8_ok hs (by have := h1.2; have := h2.2; have := h1.3; have := h2.3; omega)]
    simp only [Rs.ok_bind]
    exact if_pos h
  constructor
  · unfold multiplyChecked; rw [i]; rfl
  · unfold multiplyFixedPoint; rw [i]; rfl

/-! ### The tests of the repository (numeric.rs:1092-1165) meet the hypotheses -/

def testA : Datum Int := ⟨demo [some 15, some 0, some (-577), some 334, none, some 3], false⟩
def testB : Datum Int := ⟨demo [some 54, some 34, some (-356), some 3, some 6, some 745], false⟩

example : (⟨12, 3⟩ : DecTy).Ok decimal128 ∧ (⟨12, 1⟩ : DecTy).Ok decimal128 :=
  ⟨⟨by decide, by decide, by decide, by decide⟩, ⟨by decide, by decide, by decide, by decide⟩⟩
example : ∀ op : Op, op.Possible decimal128 ⟨12, 3⟩ ⟨12, 1⟩ := by intro op; cases op <;> (unfold Op.Possible; decide)
example : testA.Ok ∧ testB.Ok ∧ Match testA testB := by
  refine ⟨⟨demo_ok _, fun h => by cases h⟩, ⟨demo_ok _, fun h => by cases h⟩, fun _ => by decide⟩
example : (decimalOp .checked decimal128 .add testA ⟨12, 3⟩ testB ⟨12, 1⟩).map' (fun x => x.toOption.map fun y => (y.1.slots, y.2)) =
    .ok (some ([some 5415, some 3400, some (-36177), some 634, none, some 74503], ⟨15, 3⟩)) := by decide +kernel
example : (decimalOp .checked decimal128 .mul testA ⟨12, 3⟩ testB ⟨12, 1⟩).map' (fun x => x.toOption.map fun y => (y.1.slots, y.2)) =
    .ok (some ([some 810, some 0, some 205412, some 1002, none, some 2235], ⟨25, 4⟩)) := by decide +kernel
example : (decimalOp .checked decimal128 .div testA ⟨12, 3⟩ testB ⟨12, 1⟩).map' (fun x => x.toOption.map fun y => (y.1.slots, y.2)) =
    .ok (some ([some 27777, some 0, some 162078, some 11133333, none, some 402], ⟨17, 7⟩)) := by decide +kernel
example : (decimalOp .checked decimal128 .rem testA ⟨12, 3⟩ testB ⟨12, 1⟩).map' (fun x => x.toOption.map fun y => (y.1.slots, y.2)) =
    .ok (some ([some 15, some 0, some (-577), some 34, none, some 3], ⟨12, 3⟩)) := by decide +kernel
example : decimalOp .checked decimal128 .add ⟨demo [some 1], false⟩ ⟨3, -2⟩ ⟨demo [some 1], false⟩ ⟨37, 37⟩ =
    .ok (.error .overflow) := by rfl
example : (multiplyChecked .checked (demo [some 123456789, none, some 5, some (-5)]) ⟨10, 3⟩ (demo [some 10, some 1, some 1, some 1]) ⟨10, 2⟩ 4).map'
    (fun x => x.toOption.map fun y => (y.1.slots, y.2)) =
    .ok (some ([some 123456789, none, some 1, some (-1)], ⟨21, 4⟩)) := by decide +kernel

theorem of_option {r : Rs (Except ArrowErr (Prim Int × DecTy))} {y : List (Option Int) × DecTy}
    (h : r.map' (fun x => x.toOption.map fun y => (y.1.slots, y.2)) = .ok (some y)) : decResult r = .ok (.ok y) := by
  cases r with
  | panic => cases h
  | ok r =>
    cases r with
    | error e => cases h
    | ok a =>
      injection h with h
      injection h with h
      rw [← h]
      rfl

/-! ### What is not so -/

/-- C103, violated: arrays of such a type can exist, but adding them panics in a build that checks for overflow: the
digits before the point are counted with an `i8`. -/
theorem C103_violated_panic (l r : Datum Int) :
    (⟨38, -90⟩ : DecTy).Ok decimal128 ∧ Op.add.Possible decimal128 ⟨38, -90⟩ ⟨38, -90⟩ ∧
      decimalOp .checked decimal128 .add l ⟨38, -90⟩ r ⟨38, -90⟩ = .panic := by
  refine ⟨⟨by decide, by decide, by decide, by decide⟩, by unfold Op.Possible; decide, rfl⟩

/-- C103, violated: the product of 10¹⁰⁰ and 10¹⁰⁰ is given as 10¹²⁸: the scale stops at the least `i8`. -/
theorem C103_violated_product :
    (⟨1, -100⟩ : DecTy).Ok decimal128 ∧
    decResult (decimalOp .checked decimal128 .mul ⟨demo [some 1], false⟩ ⟨1, -100⟩ ⟨demo [some 1], false⟩ ⟨1, -100⟩) =
      .ok (.ok ([some 1], ⟨3, -128⟩)) ∧
    worth 1 (-128) ≠ worth 1 (-100) * worth 1 (-100) := by
  refine ⟨⟨by decide, by decide, by decide, by decide⟩, rfl, ?_⟩
  unfold worth
  norm_num

/-- C103, violated: the remainder of 10¹⁰ by 5·10⁻³⁸ is given as 3·10⁻³⁸: the power of ten between the scales wraps
around. -/
theorem C103_violated_remainder :
    (⟨1, -10⟩ : DecTy).Ok decimal128 ∧ (⟨38, 38⟩ : DecTy).Ok decimal128 ∧
    decResult (decimalOp .checked decimal128 .rem ⟨demo [some 1], false⟩ ⟨1, -10⟩ ⟨demo [some 5], false⟩ ⟨38, 38⟩) =
      .ok (.ok ([some 3], ⟨38, 38⟩)) ∧
    worth 1 (-10) = worth 5 38 * ((2 * 10 ^ 47 : Int) : ℚ) := by
  refine ⟨⟨by decide, by decide, by decide, by decide⟩, ⟨by decide, by decide, by decide, by decide⟩, rfl, ?_⟩
  unfold worth
  norm_num

/-- C103, violated: one divided by a number of 35 digits behind the point or more is always an error, though the
quotient can be as small as ten; and one divided by a number of a negative scale is refused, for its type has more
digits behind the point than digits. -/
theorem C103_violated_division :
    (decimalOp .checked decimal128 .div ⟨demo [some 1], false⟩ ⟨1, 0⟩ ⟨demo [some (10 ^ 37)], false⟩ ⟨38, 38⟩ =
      .ok (.error .overflow) ∧ worth 1 0 / worth (10 ^ 37) 38 = 10) ∧
    (decimalOp .checked decimal128 .div ⟨demo [some 8], false⟩ ⟨1, 0⟩ ⟨demo [some 2], false⟩ ⟨1, -4⟩ =
      .ok (.error .invalid) ∧ worth 8 0 / worth 2 (-4) = worth 4 4) := by
  refine ⟨⟨rfl, ?_⟩, rfl, ?_⟩ <;> (unfold worth; norm_num)

/-- C103, violated: a sum can have more digits than its type says, when that is the greatest precision. -/
theorem C103_violated_digits :
    |(99999999999999999999999999999999999999 : Int)| < 10 ^ 38 ∧ (100000000000000000000000000000000000000 : Int) = 10 ^ 38 ∧
    decResult (decimalOp .checked decimal128 .add ⟨demo [some 99999999999999999999999999999999999999], false⟩ ⟨38, 0⟩ ⟨demo [some 1], false⟩ ⟨38, 0⟩) =
      .ok (.ok ([some 100000000000000000000000000000000000000], ⟨38, 0⟩)) :=
  ⟨by rw [abs_of_nonneg] <;> norm_num, by norm_num, rfl⟩

/-- C103, violated: with 77 digits to drop, the product of zero and zero is given as ten. -/
theorem C103_violated_fixed :
    (⟨38, 38⟩ : DecTy).Ok decimal128 ∧
    decResult (multiplyChecked .checked (demo [some 0]) ⟨38, 38⟩ (demo [some 0]) ⟨38, 38⟩ (-1)) =
      .ok (.ok ([some 1], ⟨38, -1⟩)) ∧
    decResult (multiplyFixedPoint .checked (demo [some 0]) ⟨38, 38⟩ (demo [some 0]) ⟨38, 38⟩ (-1)) =
      .ok (.ok ([some 1], ⟨38, -1⟩)) ∧ worth 1 (-1) = 10 := by
  refine ⟨⟨by decide, by decide, by decide, by decide⟩, of_option (by decide +kernel), of_option (by decide +kernel), ?_⟩
  unfold worth
  norm_num

end Arrow
end Verif
