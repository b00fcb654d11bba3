import Mathlib.Algebra.Order.Field.Rat
/-!
How a person reads the text of a duration.
-/
namespace Verif
namespace ShowTime

/-- The units, in nanoseconds. -/
def readUnit : List Char → Option Rat
  | ['d'] => some (24 * 60 * 60 * 1000000000)
  | ['h'] => some (60 * 60 * 1000000000)
  | ['m'] => some (60 * 1000000000)
  | ['s'] => some 1000000000
  | ['m', 's'] => some 1000000
  | ['µ', 's'] => some 1000
  | ['n', 's'] => some 1
  | _ => none

/-- A decimal number, then a space and a unit: the duration in nanoseconds. -/
def readTime (s : List Char) : Option Rat :=
  let whole : Rat := (Nat.ofDigitChars 10 (s.takeWhile Char.isDigit) 0 : Nat)
  match s.dropWhile Char.isDigit with
  | ' ' :: u => (readUnit u).map fun ns => whole * ns
  | '.' :: r =>
    let ds := r.takeWhile Char.isDigit
    match r.dropWhile Char.isDigit with
    | ' ' :: u => (readUnit u).map fun ns => (whole + (Nat.ofDigitChars 10 ds 0 : Nat) / 10 ^ ds.length) * ns
    | _ => none
  | _ => none

end ShowTime
end Verif
