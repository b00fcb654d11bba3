import Mathlib.Algebra.Order.Field.Rat
/-! How a person reads a decimal number. -/
namespace Verif
namespace ConsoleMon

/-- Digits, a point and digits. -/
def decimal (s : List Char) : Option ℚ :=
  match s.dropWhile Char.isDigit with
  | '.' :: r =>
    if r.all Char.isDigit then
      some ((Nat.ofDigitChars 10 (s.takeWhile Char.isDigit) 0 : Nat) + (Nat.ofDigitChars 10 r 0 : Nat) / 10 ^ r.length)
    else none
  | _ => none

end ConsoleMon
end Verif
