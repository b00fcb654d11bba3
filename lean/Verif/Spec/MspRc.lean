import Verif.Model.MspRc
/-! Specification of the radio channels. -/
namespace Verif
namespace Msp

/-- The value a channel was last set to, 0 if never. -/
def lastSet (l : List (RcChannel × UInt16)) (c : RcChannel) : UInt16 :=
  ((l.filter (·.1 = c)).getLast?.map (·.2)).getD 0

/-- The order of the channels in `MSP_SET_RAW_RC` of a flight controller with the usual map AETR: roll (ailerons),
pitch (elevator), throttle, yaw (rudder), then the auxiliary ones. -/
def aetr : List RcChannel := [.roll, .pitch, .throttle, .yaw, .aux1, .aux2, .aux3, .aux4]

/-- Two bytes, the least significant one first. -/
def bytesLe (v : UInt16) : Bytes := [UInt8.ofNat (v.toNat % 256), UInt8.ofNat (v.toNat / 256)]

/-- A decimal number. -/
def Decimal (s : String) (n : Nat) : Prop := s = toString n

end Msp
end Verif
