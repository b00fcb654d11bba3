import Verif.Model.Devices
/-!
Specification for the properties of `Props/Devices`.
-/
namespace Verif
namespace Devices
open Clock

/-- The turns of the wheel: edges one way less edges the other way. -/
def turned : List (Bool × CuTime) → Int
  | [] => 0
  | (high, _) :: l => (if high then 1 else -1) + turned l

/-- The signed number of a register: two bytes, the least significant first. -/
def word (lo hi : UInt8) : Int :=
  if lo.toNat + hi.toNat * 256 < 32768 then lo.toNat + hi.toNat * 256 else lo.toNat + hi.toNat * 256 - 65536

/-- The bytes of register number `i` in what the device sends. -/
def register (buf : Vector UInt8 spanSize) (i : Fin 12) : Int :=
  word (buf[2 * i.val]'(by have := i.isLt; have : spanSize = 24 := rfl; omega))
    (buf[2 * i.val + 1]'(by have := i.isLt; have : spanSize = 24 := rfl; omega))

end Devices
end Verif
