import Verif.Model.ArrowDecimal
import Verif.Spec.ArrowArity
import Mathlib.Data.Rat.Floor
/-! Specification for C103: arithmetic on decimals. -/
namespace Verif
namespace Arrow

/-- The number an element stands for in an array of this scale. -/
def worth (v s : Int) : ℚ := v * (10 : ℚ) ^ (-s)

/-- A number without what is behind the point. -/
def cut (q : ℚ) : Int := if 0 ≤ q then ⌊q⌋ else ⌈q⌉

/-- The nearest integer, the one away from zero if there are two. -/
def near (q : ℚ) : Int := if 0 ≤ q then ⌊q + 1 / 2⌋ else ⌈q - 1 / 2⌉

/-- The types `arrow` allows: a positive scale is at most the precision, a negative one is any `i8`. -/
structure DecTy.Ok (D : Decimal) (t : DecTy) : Prop where
  pos : 1 ≤ t.p
  top : t.p ≤ D.max
  scale : t.s ≤ t.p
  low : -128 ≤ t.s

/-- The value of the result of an operation at the scale `s`: sums, differences and products are exact, quotients have
no digits behind those of the scale, and a remainder is what is left after taking the divisor a whole number of times,
with the sign of the dividend. -/
def Op.decimal (op : Op) (t1 t2 : DecTy) (s : Int) (a b v : Int) : Prop :=
  match op with
  | .add | .addWrapping => worth v s = worth a t1.s + worth b t2.s
  | .sub | .subWrapping => worth v s = worth a t1.s - worth b t2.s
  | .mul | .mulWrapping => worth v s = worth a t1.s * worth b t2.s
  | .div => b ≠ 0 ∧ v = cut (worth a t1.s / worth b t2.s * 10 ^ s)
  | .rem => b ≠ 0 ∧ worth v s = worth a t1.s - worth b t2.s * cut (worth a t1.s / worth b t2.s)

/-- The scale of the result. -/
def Op.scale (D : Decimal) (op : Op) (t1 t2 : DecTy) : Int :=
  match op with
  | .add | .addWrapping | .sub | .subWrapping | .rem => max t1.s t2.s
  | .mul | .mulWrapping => t1.s + t2.s
  | .div => min (t1.s + 4) D.max

/-- The number of digits the result may need. -/
def Op.digits (D : Decimal) (op : Op) (t1 t2 : DecTy) : Int :=
  match op with
  | .add | .addWrapping | .sub | .subWrapping => max t1.s t2.s + max (t1.p - t1.s) (t2.p - t2.s) + 1
  | .mul | .mulWrapping => t1.p + t2.p + 1
  | .div => t1.p + (min (t1.s + 4) D.max - t1.s + t2.s)
  | .rem => max t1.s t2.s + min (t1.p - t1.s) (t2.p - t2.s)

/-- The type of the result: as many digits as it may need, if the type has so many. -/
def Op.type (D : Decimal) (op : Op) (t1 t2 : DecTy) : DecTy :=
  ⟨(min (op.digits D t1 t2) D.max).toNat, op.scale D t1 t2⟩

/-- The digits by which the operands of an operation are shifted before. -/
def Op.shifts (D : Decimal) (op : Op) (t1 t2 : DecTy) : Nat × Nat :=
  match op with
  | .add | .addWrapping | .sub | .subWrapping | .rem => ((t2.s - t1.s).toNat, (t1.s - t2.s).toNat)
  | .mul | .mulWrapping => (0, 0)
  | .div => ((min (t1.s + 4) D.max - t1.s + t2.s).toNat, (-(min (t1.s + 4) D.max - t1.s + t2.s)).toNat)

/-- An operation on decimals of these types can give results: the scales are not so far apart that a power of ten
between them is too large, that of a product exists, a quotient has room for its digits. -/
def Op.Possible (D : Decimal) (op : Op) (t1 t2 : DecTy) : Prop :=
  (op.shifts D t1 t2).1 ≤ D.max ∧ (op.shifts D t1 t2).2 ≤ D.max ∧
  -128 ≤ op.scale D t1 t2 ∧ op.scale D t1 t2 ≤ D.max ∧ 1 ≤ op.digits D t1 t2 ∧
  op.scale D t1 t2 ≤ op.digits D t1 t2

/-- The integers an operation needs: the shifted operands, and the result (for a remainder, the quotient). -/
def Op.numbers (D : Decimal) (op : Op) (t1 t2 : DecTy) (a b : Int) : List Int :=
  let x := a * 10 ^ (op.shifts D t1 t2).1
  let y := b * 10 ^ (op.shifts D t1 t2).2
  match op with
  | .add | .addWrapping => [x, y, x + y]
  | .sub | .subWrapping => [x, y, x - y]
  | .mul | .mulWrapping => [x * y]
  | .div | .rem => [x, y, x.tdiv y]

/-- What an operation may give for two elements: the right result, and then every integer it needs is one the type
holds; or an error, for a division by zero, or because one of these integers is none. -/
def DecRight (D : Decimal) (op : Op) (t1 t2 : DecTy) (a b : Int) : Except ArrowErr Int → Prop
  | .ok v => op.decimal t1 t2 (op.scale D t1 t2) a b v ∧ ∀ x ∈ op.numbers D t1 t2 a b, D.native.Holds x
  | .error e => (e = .divZero ∧ (op = .div ∨ op = .rem) ∧ b = 0) ∨
      (e = .overflow ∧ ∃ x ∈ op.numbers D t1 t2 a b, ¬ D.native.Holds x)

/-- A result as its slots and its type. -/
def decResult (r : Rs (Except ArrowErr (Prim Int × DecTy))) : Rs (Except ArrowErr (List (Option Int) × DecTy)) :=
  r.map' fun x => x.map fun y => (y.1.slots, y.2)

/-- The exact product of two elements, in units of the required scale. -/
def product (t1 t2 : DecTy) (required a b : Int) : ℚ := worth a t1.s * worth b t2.s * 10 ^ required

/-- What a product rounded to a scale may be: the nearest number, or an error if an `i128` does not hold it. -/
def FixedRight (q : ℚ) : Except ArrowErr Int → Prop
  | .ok v => v = near q ∧ decimal128.native.Holds v
  | .error e => e = .overflow ∧ ¬ decimal128.native.Holds (near q)

/-- The type of a product rounded to a scale. -/
def fixedType (t1 t2 : DecTy) (required : Int) : DecTy := ⟨min (t1.p + t2.p + 1) 38, required⟩

end Arrow
end Verif
