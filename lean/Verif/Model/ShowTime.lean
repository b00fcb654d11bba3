import Verif.Model.Fp
import Verif.Model.Clock
/-!
The text of a duration: `Display for CuDuration` (core/cu29_clock/src/lib.rs:188-207).
-/
namespace Verif
namespace ShowTime
open Fp Clock

/-- Three decimal digits. -/
def pad3 (n : Nat) : List Char := [Nat.digitChar (n / 100 % 10), Nat.digitChar (n / 10 % 10), Nat.digitChar (n % 10)]

/-- `{:.3}` of a number that is not negative: the standard library gives the nearest decimal number. -/
def fixed3 : Num → List Char
  | .nan => "NaN".toList
  | .inf _ => "inf".toList
  | .fin q => let k := (nearest (q * 1000)).toNat; Nat.toDigits 10 (k / 1000) ++ '.' :: pad3 (k % 1000)

/-- One of the lines of `fmt`: `write!(f, "{:.3} unit", nanos as f64 / d)`. -/
def showDiv (nanos : Nat) (d : Rat) (unit : List Char) : List Char :=
  fixed3 ((ofInt f64 nanos).div f64 (.fin d)) ++ ' ' :: unit

/-- `fmt` (lib.rs:189-206). -/
def text (a : CuDuration) : List Char :=
  let nanos := a.ns.toNat
  if nanos ≥ 86400000000000 then showDiv nanos 86400000000000 ['d']
  else if nanos ≥ 3600000000000 then showDiv nanos 3600000000000 ['h']
  else if nanos ≥ 60000000000 then showDiv nanos 60000000000 ['m']
  else if nanos ≥ 1000000000 then showDiv nanos 1000000000 ['s']
  else if nanos ≥ 1000000 then showDiv nanos 1000000 ['m', 's']
  else if nanos ≥ 1000 then showDiv nanos 1000 ['µ', 's']
  else Nat.toDigits 10 nanos ++ ' ' :: ['n', 's']

end ShowTime
end Verif
