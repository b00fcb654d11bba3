import Verif.Model.PyView
/-! What a Python program relies on. -/
namespace Verif
namespace PyView
open Bincode

mutual
/-- Two values of the same Rust type, as far as the values tell. -/
def alike : Value → Value → Bool
  | .str _, .str _ | .u64 _, .u64 _ | .i64 _, .i64 _ | .f64 _, .f64 _ | .bool _, .bool _ | .time _, .time _
  | .bytes _, .bytes _ | .char _, .char _ | .i8 _, .i8 _ | .u8 _, .u8 _ | .i16 _, .i16 _ | .u16 _, .u16 _
  | .i32 _, .i32 _ | .u32 _, .u32 _ | .f32 _, .f32 _ | .unit, .unit => true
  | .opt a, .opt b => alikeOpt a b
  | .newtype a, .newtype b => alike a b
  | .seq a, .seq b => alikeSeq a b
  | .map a, .map b => alikeMap a b
  | _, _ => false
def alikeOpt : Option Value → Option Value → Bool
  | some a, some b => alike a b
  | _, _ => true
/-- Sequences may differ in length. -/
def alikeSeq : List Value → List Value → Bool
  | a :: l, b :: r => alike a b && alikeSeq l r
  | _, _ => true
def alikeMap : List (Value × Value) → List (Value × Value) → Bool
  | (a, x) :: l, (b, y) :: r => alike a b && (alike x y && alikeMap l r)
  | _, _ => true
end

/-- Values of type `()`, and `Option`s without value, also when wrapped. -/
def nothing : Value → Bool
  | .unit => true
  | .opt none => true
  | .opt (some v) => nothing v
  | .newtype v => nothing v
  | _ => false

/-- No two entries with keys that are equal for Python; all keys can be keys. -/
def distinct (f : Floats) : List (Py × Py) → Bool
  | [] => true
  | (k, _) :: l => k.hashable && (l.all fun e => !k.keyEq f e.1) && distinct f l

mutual
/-- Values Python can tell apart: numbers that are numbers, options whose value is something, maps whose keys
are different keys for Python too. -/
def plain (f : Floats) (nan : F32 → Bool) : Value → Bool
  | .f32 x => !nan x
  | .opt (some v) => !nothing v && plain f nan v
  | .newtype v => plain f nan v
  | .seq l => plainSeq f nan l
  | .map m =>
    plainMap f nan m && (match toPyEntries f m with | .ok l => distinct f l | .panic => false)
  | _ => true
def plainSeq (f : Floats) (nan : F32 → Bool) : List Value → Bool
  | [] => true
  | v :: l => plain f nan v && plainSeq f nan l
def plainMap (f : Floats) (nan : F32 → Bool) : List (Value × Value) → Bool
  | [] => true
  | (k, v) :: l => plain f nan k && (plain f nan v && plainMap f nan l)
end

end PyView
end Verif
