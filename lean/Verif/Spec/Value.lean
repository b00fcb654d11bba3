import Verif.Model.Value
/-!
What a value may be, and what its numbers mean: the vocabulary of the properties of dynamic values.
-/
namespace Verif
open Bincode
namespace Value

mutual
/-- A value that can exist: sizes fit a machine word, and the keys of a map are distinct and in
order, as in any `BTreeMap`. -/
def Legal : Value → Prop
  | .str s => (strBytes s).length < 18446744073709551616
  | .bytes l => l.length < 18446744073709551616
  | .opt o => LegalOpt o
  | .newtype v => Legal v
  | .seq l => l.length < 18446744073709551616 ∧ LegalSeq l
  | .map l => l.length < 18446744073709551616
      ∧ l.Pairwise (fun p q => cmp p.1 q.1 = .lt) ∧ LegalMap l
  | _ => True

def LegalOpt : Option Value → Prop
  | none => True
  | some v => Legal v

def LegalSeq : List Value → Prop
  | [] => True
  | v :: l => Legal v ∧ LegalSeq l

def LegalMap : List (Value × Value) → Prop
  | [] => True
  | (k, v) :: l => Legal k ∧ Legal v ∧ LegalMap l
end

end Value

/-- The magnitude of a binary floating point number with `p` bits of fraction, from its bits
without the sign, in units of its smallest positive number.  (IEEE 754: below the first exponent
the fraction is the number; above, the fraction gets a leading one and the exponent doubles it.)
The bits of infinity give the first power of two that is too large, above every finite number. -/
def floatMag (p bits : Nat) : Nat :=
  if bits / 2 ^ p = 0 then bits % 2 ^ p
  else (2 ^ p + bits % 2 ^ p) * 2 ^ (bits / 2 ^ p - 1)

/-- The number an `f32` stands for, in units of 2^-149; none for NaN. -/
def F32num (x : F32) : Option Int :=
  let bits := x.bits.toNat
  let mag := bits % 2 ^ 31
  if 255 * 2 ^ 23 < mag then none
  else some (if bits < 2 ^ 31 then (floatMag 23 mag : Int) else -(floatMag 23 mag : Int))

/-- The number an `f64` stands for, in units of 2^-1074; none for NaN. -/
def F64num (x : F64) : Option Int :=
  let bits := x.bits.toNat
  let mag := bits % 2 ^ 63
  if 2047 * 2 ^ 52 < mag then none
  else some (if bits < 2 ^ 63 then (floatMag 52 mag : Int) else -(floatMag 52 mag : Int))

/-- The order of floating point numbers a map of values needs: numbers by their value, NaN equal to
NaN and after every number. -/
def floatOrder : Option Int → Option Int → Ordering
  | none, none => .eq
  | none, some _ => .gt
  | some _, none => .lt
  | some a, some b => compare a b

end Verif
