import Verif.Model.ArrowArity
/-!
Model of the arithmetic on decimals of the patched `arrow-arith` crate: `decimal_op` of
patches/arrow-arith/src/numeric.rs and patches/arrow-arith/src/arithmetic.rs.

The types, the check of precisions and scales and the arithmetic of the elements are those of `arrow-array`, from its
documentation.  A number in an array of a decimal type stands for itself divided by ten to the scale.
-/
namespace Verif
namespace Arrow

/-- `DecimalType`: how numbers are kept, and the greatest precision, which is also the greatest scale. -/
structure Decimal where
  native : Native
  max : Nat
  deriving DecidableEq, Repr

/-- `Decimal128Type` and `Decimal256Type`. -/
def decimal128 : Decimal := ⟨⟨true, 128⟩, 38⟩
def decimal256 : Decimal := ⟨⟨true, 256⟩, 76⟩

/-- The precision, a `u8`, and the scale, an `i8`, of an array. -/
structure DecTy where
  p : Nat
  s : Int
  deriving DecidableEq, Repr

/-- An `i8` result: in a build that checks for overflow it is a panic, otherwise it wraps around. -/
def i8 (o : Overflow) (x : Int) : Rs Int :=
  if -128 ≤ x ∧ x ≤ 127 then .ok x
  else match o with
    | .checked => .panic
    | .wrapping => .ok ((x + 128) % 256 - 128)

/-- `i8::saturating_add`. -/
def satAdd (x y : Int) : Int := max (-128) (min 127 (x + y))

/-- `as u8` and `as u32` of an `i8`. -/
def asU8 (x : Int) : Nat := (x % 256).toNat
def asU32 (x : Int) : Nat := (x % 4294967296).toNat

/-- `usize_as(10).pow_checked(k)` and `pow_wrapping`. -/
def Native.powChecked (N : Native) (k : Nat) : Except ArrowErr Int := N.check (10 ^ k)
def Native.powWrapping (N : Native) (k : Nat) : Int := N.wrap (10 ^ k)

/-- `validate_decimal_precision_and_scale` of `arrow-array`. -/
def DecTy.valid (D : Decimal) (t : DecTy) : Bool :=
  t.p ≠ 0 && decide (t.p ≤ D.max) && decide (t.s ≤ D.max) && !(decide (0 < t.s) && decide ((t.p : Int) < t.s))

/-- `with_precision_and_scale` of `arrow-array`. -/
def withType (D : Decimal) (t : DecTy) (r : Rs (Except ArrowErr (Prim Int))) : Rs (Except ArrowErr (Prim Int × DecTy)) :=
  r.map' fun
    | .error e => .error e
    | .ok a => if t.valid D then .ok (a, t) else .error .invalid

/-- The operations on two elements, once their factors are known (numeric.rs:756-767, 813-819, 834-840). -/
def scaled (N : Native) (f : Int → Int → Except ArrowErr Int) (lMul rMul x y : Int) : Except ArrowErr Int := do
  let x ← N.check (x * lMul)
  let y ← N.check (y * rMul)
  f x y

/-- Addition and subtraction (numeric.rs:738-772). -/
def decimalAdd (o : Overflow) (D : Decimal) (f : Int → Int → Int) (l r : Datum Int) (t1 t2 : DecTy) :
    Rs (Except ArrowErr (Prim Int × DecTy)) := do
  let s := max t1.s t2.s
  let d1 ← i8 o (t1.p - t1.s)
  let d2 ← i8 o (t2.p - t2.s)
  let p := min (min (asU8 (satAdd s (max d1 d2)) + 1) 255) D.max
  let k1 ← i8 o (s - t1.s)
  match D.native.powChecked (asU32 k1) with
  | .error e => .ok (.error e)
  | .ok m1 => do
    let k2 ← i8 o (s - t2.s)
    match D.native.powChecked (asU32 k2) with
    | .error e => .ok (.error e)
    | .ok m2 =>
      withType D ⟨p, s⟩ (tryOpMacro 0 l r (scaled D.native (fun x y => D.native.check (f x y)) m1 m2))

/-- Multiplication (numeric.rs:773-789). -/
def decimalMul (D : Decimal) (l r : Datum Int) (t1 t2 : DecTy) : Rs (Except ArrowErr (Prim Int × DecTy)) :=
  let p := min (min (t1.p + (t2.p + 1)) 255) D.max
  let s := satAdd t1.s t2.s
  if (D.max : Int) < s then .ok (.error .invalid)
  else withType D ⟨p, s⟩ (tryOpMacro 0 l r fun x y => D.native.check (x * y))

/-- The factors of a division (numeric.rs:800-810); `neg_wrapping` of an `i8`. -/
def divFactors (N : Native) (k : Int) : Except ArrowErr (Int × Int) :=
  if 0 < k then (N.powChecked (asU32 k)).map fun m => (m, 1)
  else if k = 0 then .ok (1, 1)
  else (N.powChecked (asU32 (if k = -128 then -128 else -k))).map fun m => (1, m)

/-- Division (numeric.rs:791-820). -/
def decimalDiv (o : Overflow) (D : Decimal) (l r : Datum Int) (t1 t2 : DecTy) :
    Rs (Except ArrowErr (Prim Int × DecTy)) := do
  let s := min (satAdd t1.s 4) D.max
  let k ← i8 o (s - t1.s)
  let k ← i8 o (k + t2.s)
  let p := min (asU8 (satAdd k t1.p)) D.max
  match divFactors D.native k with
  | .error e => .ok (.error e)
  | .ok (m1, m2) => withType D ⟨p, s⟩ (tryOpMacro 0 l r (scaled D.native D.native.divChecked m1 m2))

/-- The remainder (numeric.rs:822-841). -/
def decimalRem (o : Overflow) (D : Decimal) (l r : Datum Int) (t1 t2 : DecTy) :
    Rs (Except ArrowErr (Prim Int × DecTy)) := do
  let s := max t1.s t2.s
  let d1 ← i8 o (t1.p - t1.s)
  let d2 ← i8 o (t2.p - t2.s)
  let p := min (asU8 (satAdd s (min d1 d2))) D.max
  let k1 ← i8 o (s - t1.s)
  let k2 ← i8 o (s - t2.s)
  withType D ⟨p, s⟩ (tryOpMacro 0 l r (scaled D.native D.native.modChecked
    (D.native.powWrapping (asU32 k1)) (D.native.powWrapping (asU32 k2))))

/-- `decimal_op` (numeric.rs:718-845). -/
def decimalOp (o : Overflow) (D : Decimal) (op : Op) (l : Datum Int) (t1 : DecTy) (r : Datum Int) (t2 : DecTy) :
    Rs (Except ArrowErr (Prim Int × DecTy)) :=
  match op with
  | .add | .addWrapping => decimalAdd o D (· + ·) l r t1 t2
  | .sub | .subWrapping => decimalAdd o D (· - ·) l r t1 t2
  | .mul | .mulWrapping => decimalMul D l r t1 t2
  | .div => decimalDiv o D l r t1 t2
  | .rem => decimalRem o D l r t1 t2

/-- `neg` of a decimal array (numeric.rs:112-125). -/
def decimalNeg (D : Decimal) (a : Prim Int) (t : DecTy) : Rs (Except ArrowErr (Prim Int × DecTy)) :=
  withType D t (tryUnary 0 a fun x => D.native.check (-x))

/-! ### arithmetic.rs -/

/-- `divide_and_round` (arithmetic.rs:174-191), for a divisor that is not zero. -/
def divideAndRound (N : Native) (input div : Int) : Int :=
  let d := N.wrap (input.tdiv div)
  let r := N.wrap (input.tmod div)
  let half := N.wrap (div.tdiv 2)
  if 0 ≤ input then if half ≤ r then N.wrap (d + 1) else d
  else if r ≤ N.wrap (-half) then N.wrap (d - 1) else d

/-- `get_fixed_point_info` (arithmetic.rs:36-54): the precision and the scale of the product, and the divisor.  The
sum of two precisions of at most 38 does not overflow.  An exponent that wraps to a negative number is taken for one
above four thousand million: the divisor is zero, and dividing by it panics (here at once, in the code with the first
value). -/
def fixedPointInfo (o : Overflow) (t1 t2 : DecTy) (required : Int) : Rs (Except ArrowErr (Nat × Int × Int)) := do
  let s ← i8 o (t1.s + t2.s)
  let p := min (t1.p + t2.p + 1) 38
  if s < required then .ok (.error .compute)
  else do
    let k ← i8 o (s - required)
    if k < 0 then .panic
    else .ok (.ok (p, s, decimal256.native.powWrapping k.toNat))

/-- `multiply_fixed_point_checked` (arithmetic.rs:102-129). -/
def multiplyChecked (o : Overflow) (l : Prim Int) (t1 : DecTy) (r : Prim Int) (t2 : DecTy) (required : Int) :
    Rs (Except ArrowErr (Prim Int × DecTy)) := do
  match ← fixedPointInfo o t1 t2 required with
  | .error e => .ok (.error e)
  | .ok (p, s, div) =>
    if required = s then
      withType decimal128 ⟨p, required⟩
        (tryBinary 0 l.access r.access fun x y => decimal128.native.check (x * y))
    else
      withType decimal128 ⟨p, required⟩ (tryBinary 0 l.access r.access fun x y =>
        decimal128.native.check (divideAndRound decimal256.native (decimal256.native.wrap (x * y)) div))

/-- `multiply_fixed_point` (arithmetic.rs:146-171). -/
def multiplyFixedPoint (o : Overflow) (l : Prim Int) (t1 : DecTy) (r : Prim Int) (t2 : DecTy) (required : Int) :
    Rs (Except ArrowErr (Prim Int × DecTy)) := do
  match ← fixedPointInfo o t1 t2 required with
  | .error e => .ok (.error e)
  | .ok (p, s, div) =>
    if required = s then
      withType decimal128 ⟨p, required⟩ (binary l r fun x y => decimal128.native.wrap (x * y))
    else
      withType decimal128 ⟨p, required⟩ (binary l r fun x y =>
        decimal128.native.wrap (divideAndRound decimal256.native (decimal256.native.wrap (x * y)) div))

end Arrow
end Verif
