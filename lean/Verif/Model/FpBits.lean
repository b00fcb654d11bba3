import Verif.Model.Fp
import Verif.Model.Bincode
/-!
The bit patterns of single precision numbers (IEEE 754 binary32), which the codecs write (`f32::to_le_bytes`,
`f32::from_le_bytes` in the encoder of bincode).  A model of the hardware, not of code of the repository.
Simplification, as in `Model/Fp`: there is one zero and one NaN, so the sign of a zero and the payload of a NaN
are not distinguished.
-/
namespace Verif
namespace Fp
open Bincode

/-- The exponent field counts from the exponent of the smallest numbers; the leading bit of the significand of a
normal number is not stored, and adds one to the exponent field. -/
def magnitudeBits (q : Rat) : Nat :=
  (exponent f32 q + 149).toNat * 8388608 + (|q| / pow2 (exponent f32 q)).floor.toNat

/-- `f32::to_bits`. -/
def bitsNat : Num → Nat
  | .nan => 0x7fc00000
  | .inf neg => (if neg then 2147483648 else 0) + 0x7f800000
  | .fin q => if q = 0 then 0 else (if q < 0 then 2147483648 else 0) + magnitudeBits q

/-- The number with an exponent field and a significand field. -/
def ofFields (neg : Bool) (f k : Nat) : Num :=
  if f = 255 then if k = 0 then .inf neg else .nan
  else
    let v := if f = 0 then (k : Rat) * pow2 (-149) else ((8388608 + k : Nat) : Rat) * pow2 (f - 150)
    .fin (if neg then -v else v)

/-- `f32::from_bits`. -/
def ofBitsNat (b : Nat) : Num := ofFields (decide (2147483648 ≤ b)) (b / 8388608 % 256) (b % 8388608)

/-- The codec of an `f32`. -/
def codec : Codec Num where
  enc x := enc (F32.mk (UInt32.ofNat (bitsNat x)))
  dec := do
    let x ← (dec : Dec F32)
    pure (ofBitsNat x.bits.toNat)

end Fp
end Verif
