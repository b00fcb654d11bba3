import Verif.Model.Basic
/-!
The filter of the analog to digital converter: components/sources/cu_ads7883/src/lib.rs.
-/
namespace Verif
namespace Adc

/-- `read_adc` (lib.rs:70-88): the two bytes received. -/
def readAdc (b0 b1 : UInt8) : UInt16 := ((b0.toUInt16 <<< 8) ||| b1.toUInt16) >>> 2

/-- `start` (lib.rs:134-142): the integrated value.  `none`: the device could not be read, the value stays 0.
The value is a u64; `C49_bounded` shows that it stays far from overflow. -/
def start : Option UInt16 → Nat
  | none => 0
  | some v => v.toNat * 8

/-- `process` (lib.rs:143-166): integrated value and output. -/
def process (i : Nat) : Option UInt16 → Nat × Option UInt16
  | none => (i, none)
  | some v =>
    let i' := (i + v.toNat) * 8 / 9
    (i', some (UInt16.ofNat (i' / 8)))

/-- Successive iterations. -/
def run (i : Nat) : List (Option UInt16) → Nat × List (Option UInt16)
  | [] => (i, [])
  | r :: rs => ((run (process i r).1 rs).1, (process i r).2 :: (run (process i r).1 rs).2)

end Adc
end Verif
