import Verif.Model.LogEntry
import Verif.Model.ShowTime
/-!
The text of a dynamic value: `Display for Value` (core/cu29_value/src/lib.rs:48-102).
-/
namespace Verif
open Bincode

/-- How the standard library writes floats (external): some text, without braces or brackets. -/
structure Floats where
  f32 : F32 → Text
  f64 : F64 → Text
  f32_text : ∀ x, f32 x ≠ [] ∧ ∀ c ∈ f32 x, c ≠ '{' ∧ c ≠ '}' ∧ c ≠ ']'
  f64_text : ∀ x, f64 x ≠ [] ∧ ∀ c ∈ f64 x, c ≠ '{' ∧ c ≠ '}' ∧ c ≠ ']'

/-- `write!(f, "{}", n)` for an integer. -/
def showInt (n : Int) : Text := if n < 0 then '-' :: Nat.toDigits 10 n.natAbs else Nat.toDigits 10 n.natAbs

/-- `write!(f, "{:02x}", b)`. -/
def showHex (b : UInt8) : Text := [Nat.digitChar (b.toNat / 16), Nat.digitChar (b.toNat % 16)]

/-- The texts with a separator before each but the first (the loops of lib.rs:71-78, 81-88 and 91-98). -/
def separated (sep : Text) : List Text → Text
  | [] => []
  | [t] => t
  | t :: ts => t ++ sep ++ separated sep ts

/-- `Display for CuTime`, which is that of durations. -/
def showTime (t : UInt64) : Text := ShowTime.text ⟨t⟩

namespace Value
variable (fl : Floats)

mutual
/-- `fmt` (lib.rs:49-101). -/
def display : Value → Text
  | .bool b => (if b then "true" else "false").toList
  | .u8 v => Nat.toDigits 10 v.toNat
  | .u16 v => Nat.toDigits 10 v.toNat
  | .u32 v => Nat.toDigits 10 v.toNat
  | .u64 v => Nat.toDigits 10 v.toNat
  | .i8 v => showInt v.toInt
  | .i16 v => showInt v.toInt
  | .i32 v => showInt v.toInt
  | .i64 v => showInt v.toInt
  | .f32 v => fl.f32 v
  | .f64 v => fl.f64 v
  | .char c => [c]
  | .str s => s.toList
  | .unit => ['(', ')']
  | .opt o => displayOpt o
  | .newtype v => display v
  | .seq l => '[' :: separated [',', ' '] (displaySeq l) ++ [']']
  | .map l => '{' :: separated [',', ' '] (displayMap l) ++ ['}']
  | .bytes l => '[' :: separated [' '] (l.map showHex) ++ [']']
  | .time t => showTime t

/-- Options (lib.rs:65-68). -/
def displayOpt : Option Value → Text
  | none => "None".toList
  | some v => "Some(".toList ++ display v ++ [')']

/-- The elements of a sequence (lib.rs:76). -/
def displaySeq : List Value → List Text
  | [] => []
  | v :: l => display v :: displaySeq l

/-- The entries of a map (lib.rs:86). -/
def displayMap : List (Value × Value) → List Text
  | [] => []
  | (k, v) :: l => (display k ++ [':', ' '] ++ display v) :: displayMap l
end

end Value
end Verif
