import Mathlib.Algebra.Order.Field.Rat
import Mathlib.Data.Rat.Floor
/-!
Binary floating point numbers (IEEE 754), as Rust's `f32` and `f64` use them: each operation gives the exact
result rounded to the nearest number of the format, ties to even.  A model of the hardware, not of code of
the repository.  Simplification: there is one zero, which counts as positive in a division; nothing modelled
over these numbers divides by a negative zero or looks at the sign of one.
-/
namespace Verif
namespace Fp

/-- A format: numbers `m * 2 ^ e` with `|m| < 2 ^ prec`, `emin ≤ e`, and less than `2 ^ emax` in magnitude. -/
structure Format where
  prec : Nat
  emin : Int
  emax : Int
  deriving DecidableEq, Repr

def f32 : Format := ⟨24, -149, 128⟩
def f64 : Format := ⟨53, -1074, 1024⟩

/-- A number, an infinity or NaN. -/
inductive Num
  | nan
  | inf (neg : Bool)
  | fin (q : Rat)
  deriving DecidableEq, Repr

/-- The nearest integer, the even one of two. -/
def nearest (x : Rat) : Int :=
  if x - (x.floor : Rat) < 1 / 2 then x.floor
  else if 1 / 2 < x - (x.floor : Rat) then x.floor + 1
  else if x.floor % 2 = 0 then x.floor
  else x.floor + 1

/-- A power of two. -/
def pow2 : Int → Rat
  | .ofNat n => ((2 ^ n : Nat) : Rat)
  | .negSucc n => 1 / ((2 ^ (n + 1) : Nat) : Rat)

/-- The position of the highest bit of a positive number. -/
def log2 (q : Rat) : Int :=
  let k := (q.num.natAbs.log2 : Int) - (q.den.log2 : Int)
  if pow2 k ≤ |q| then k else k - 1

/-- The exponent of the last bit of the numbers next to `q`. -/
def exponent (F : Format) (q : Rat) : Int := max F.emin (log2 q - F.prec + 1)

/-- The nearest number, if there were no greatest one. -/
def nearestTo (F : Format) (q : Rat) : Rat := (nearest (q / pow2 (exponent F q)) : Rat) * pow2 (exponent F q)

/-- The result of an operation whose exact result is `q`. -/
def round (F : Format) (q : Rat) : Num :=
  if q = 0 then .fin 0
  else if pow2 F.emax ≤ nearestTo F q then .inf false
  else if nearestTo F q ≤ -pow2 F.emax then .inf true
  else .fin (nearestTo F q)

def Num.neg : Num → Num
  | .nan => .nan
  | .inf b => .inf (!b)
  | .fin q => .fin (-q)

/-- Addition. -/
def Num.add (F : Format) : Num → Num → Num
  | .nan, _ => .nan
  | _, .nan => .nan
  | .inf a, .inf b => if a = b then .inf a else .nan
  | .inf a, .fin _ => .inf a
  | .fin _, .inf b => .inf b
  | .fin a, .fin b => round F (a + b)

def Num.sub (F : Format) (a b : Num) : Num := a.add F b.neg

/-- Multiplication. -/
def Num.mul (F : Format) : Num → Num → Num
  | .nan, _ => .nan
  | _, .nan => .nan
  | .inf a, .inf b => .inf (a != b)
  | .inf a, .fin q => if q = 0 then .nan else .inf (a != decide (q < 0))
  | .fin q, .inf a => if q = 0 then .nan else .inf (a != decide (q < 0))
  | .fin a, .fin b => round F (a * b)

/-- Division. -/
def Num.div (F : Format) : Num → Num → Num
  | .nan, _ => .nan
  | _, .nan => .nan
  | .inf _, .inf _ => .nan
  | .inf a, .fin q => .inf (a != decide (q < 0))
  | .fin _, .inf _ => .fin 0
  | .fin a, .fin b =>
    if b = 0 then if a = 0 then .nan else .inf (decide (a < 0))
    else round F (a / b)

/-- `<`: false if one of them is NaN. -/
def Num.lt : Num → Num → Bool
  | .nan, _ => false
  | _, .nan => false
  | .inf a, .inf b => a && !b
  | .inf a, .fin _ => a
  | .fin _, .inf b => !b
  | .fin a, .fin b => decide (a < b)

/-- `<=`. -/
def Num.le : Num → Num → Bool
  | .nan, _ => false
  | _, .nan => false
  | .inf a, .inf b => a || !b
  | .inf a, .fin _ => a
  | .fin _, .inf b => !b
  | .fin a, .fin b => decide (a ≤ b)

/-- `==`. -/
def Num.eq : Num → Num → Bool
  | .nan, _ => false
  | _, .nan => false
  | a, b => decide (a = b)

/-- `clamp`: `none` is the panic of the assertion that the bounds are ordered. -/
def Num.clamp (x lo hi : Num) : Option Num :=
  if !lo.le hi then none
  else if x.lt lo then some lo
  else if hi.lt x then some hi
  else some x

/-- A conversion from an integer type. -/
def ofInt (F : Format) (n : Int) : Num := round F n

/-- A conversion from another format. -/
def Num.convert (F : Format) : Num → Num
  | .nan => .nan
  | .inf a => .inf a
  | .fin q => round F q

end Fp
end Verif
