import Verif.Model.Params
/-!
Specification of the parameters: numbers have a value, types have a range, and a parameter has the
value that was last given to it.
-/
namespace Verif
namespace Params

/-- The integer a number is; floats are none. -/
def Number.integer? : Number → Option Int
  | .i8 n => some n.toInt
  | .i16 n => some n.toInt
  | .i32 n => some n.toInt
  | .i64 n => some n.toInt
  | .u8 n => some n.toNat
  | .u16 n => some n.toNat
  | .u32 n => some n.toNat
  | .u64 n => some n.toNat
  | .f32 _ => none
  | .f64 _ => none

def RonValue.integer? : RonValue → Option Int
  | .number n => n.integer?
  | _ => none

/-- The integers of a type. -/
def IntTy.Has : IntTy → Int → Prop
  | .u8, n => 0 ≤ n ∧ n < 2 ^ 8
  | .i8, n => -2 ^ 7 ≤ n ∧ n < 2 ^ 7
  | .u16, n => 0 ≤ n ∧ n < 2 ^ 16
  | .i16, n => -2 ^ 15 ≤ n ∧ n < 2 ^ 15
  | .u32, n => 0 ≤ n ∧ n < 2 ^ 32
  | .i32, n => -2 ^ 31 ≤ n ∧ n < 2 ^ 31
  | .u64, n => 0 ≤ n ∧ n < 2 ^ 64
  | .i64, n => -2 ^ 63 ≤ n ∧ n < 2 ^ 63

/-- The integer a program sets. -/
def Settable.integer? : Settable → Option Int
  | .i32 n => some n.toInt
  | .u32 n => some n.toNat
  | .u16 n => some n.toNat
  | .u8 n => some n.toNat
  | .f64 _ => none
  | .str _ => none

/-- What was last given to a parameter. -/
def lastSet (key : String) : List (String × Settable) → Option Settable
  | [] => none
  | (k, v) :: l => match lastSet key l with
    | some w => some w
    | none => if k = key then some v else none

/-- A task to which parameters are given one after the other. -/
def setAll (n : Config.Node ComponentConfig) (l : List (String × Settable)) : Config.Node ComponentConfig :=
  l.foldl (fun n e => setParam n e.1 e.2) n

/-- Two values that differ at most in the width in which an integer is held: what a text of a
configuration keeps of a value. -/
def SameText (a b : RonValue) : Prop :=
  a = b ∨ ∃ i, a.integer? = some i ∧ b.integer? = some i

end Params
end Verif
