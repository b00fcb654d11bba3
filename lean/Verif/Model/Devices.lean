import Verif.Model.Params
import Verif.Model.Message
/-!
Three small drivers: the encoder (components/sources/cu_rp_encoder/src/lib.rs), the output pin
(components/sinks/cu_rp_gpio/src/lib.rs) and the inertial sensor (components/sources/cu_wt901/src/lib.rs),
built for the hardware.
-/
namespace Verif
namespace Devices
open Clock

/-! ### Encoder -/

/-- The pins of `Encoder::new` (cu_rp_encoder/src/lib.rs:63-77): a missing one is an error, `none`. -/
def encoderPins (c : Option Params.ComponentConfig) : Rs (Option (Int × Int)) :=
  match c with
  | none => .ok none
  | some c =>
    match Params.ComponentConfig.get c (Params.asInt .u8) "clk_pin" with
    | .panic => .panic
    | .ok none => .ok none
    | .ok (some clk) =>
      match Params.ComponentConfig.get c (Params.asInt .u8) "dat_pin" with
      | .panic => .panic
      | .ok none => .ok none
      | .ok (some dat) => .ok (some (clk, dat))

/-- `InterruptData` (lib.rs:21-26) behind its lock; `poisoned`: a thread panicked while it held it. -/
structure Encoder where
  ticks : Int32
  tov : CuTime
  poisoned : Bool
  deriving DecidableEq, Repr

/-- `Encoder::new` (lib.rs:79-86). -/
def Encoder.new : Encoder := ⟨0, ⟨0⟩, false⟩

/-- `ticks += d`, an `i32`: `none` is a panic. -/
def addTicks (m : Overflow) (t d : Int32) : Option Int32 :=
  match m with
  | .checked => if -2147483648 ≤ t.toInt + d.toInt ∧ t.toInt + d.toInt < 2147483648 then some (t + d) else none
  | .wrapping => some (t + d)

/-- The interrupt on a falling edge of the clock (lib.rs:93-104), `high` is the level of the data pin.
A panic stays in the thread of the interrupt and poisons the lock, on which later interrupts panic. -/
def Encoder.edge (m : Overflow) (e : Encoder) (high : Bool) (now : CuTime) : Encoder :=
  if e.poisoned then e
  else
    match addTicks m e.ticks (if high then 1 else -1) with
    | none => { e with poisoned := true }
    | some t => { e with ticks := t, tov := now }

/-- `process` (lib.rs:108-114): `set_status` writes the ticks as text. -/
def Encoder.process (e : Encoder) (now : CuTime) (out : Msg Int32) : Rs (Msg Int32) :=
  if e.poisoned then .panic
  else .ok (({ out with md := { out.md with tov := .time now, statusTxt := toString e.ticks.toInt } }).setPayload e.ticks)

/-- Edges one after the other. -/
def Encoder.edges (m : Overflow) (e : Encoder) : List (Bool × CuTime) → Encoder
  | [] => e
  | (h, t) :: l => (e.edge m h t).edges m l

/-! ### Output pin -/

inductive Level where
  | low | high
  deriving DecidableEq, Repr

/-- `From<RPGpioPayload> for Level` (cu_rp_gpio/src/lib.rs:48-57). -/
def levelOf (on : Bool) : Level := if on then .low else .high
/-- `From<RPGpioPayload> for u8` (lib.rs:38-46). -/
def byteOf (on : Bool) : UInt8 := if on then 1 else 0

/-- `process` (lib.rs:87-90): the level written. -/
def gpioProcess (msg : Msg Bool) : Rs Level :=
  match msg.payload with
  | none => .panic
  | some on => .ok (levelOf on)

/-! ### Inertial sensor -/

/-- The twelve values of a reading (cu_wt901/src/lib.rs:65-79), as the numbers given to the quantities:
multiples of g, degrees per second, nanotesla and degrees. -/
structure Reading where
  acc : Fin 3 → Rat
  gyro : Fin 3 → Rat
  mag : Fin 3 → Rat
  angle : Fin 3 → Rat

/-- `Registers` (lib.rs:26-48): the number of a register from the first one. -/
inductive Register where
  | acc (i : Fin 3) | gyro (i : Fin 3) | mag (i : Fin 3) | angle (i : Fin 3)

def Register.address : Register → Nat
  | .acc i => 0x34 + i.val
  | .gyro i => 0x37 + i.val
  | .mag i => 0x3A + i.val
  | .angle i => 0x3D + i.val

/-- `offset` (lib.rs:50-55). -/
def Register.offset (r : Register) : Nat := (r.address - 0x34) * 2

/-- `REGISTER_SPAN_SIZE` (lib.rs:184). -/
def spanSize : Nat := ((Register.angle 2).address - (Register.acc 0).address) * 2 + 2

/-- `get_vec_i16` (lib.rs:251-253); an index out of the buffer is a panic. -/
def getI16 (buf : List UInt8) (offset : Nat) : Rs Int16 :=
  match buf[offset]?, buf[offset + 1]? with
  | some lo, some hi => .ok (UInt16.ofNat (lo.toNat + hi.toNat * 256)).toInt16
  | _, _ => .panic

/-- `convert_acc` (lib.rs:255-260).  Simplification: rationals instead of f32; divisions by 32768 and
multiplications by 16 are exact in f32. -/
def convertAcc (n : Int16) : Rat := (n.toInt : Rat) / 32768 * 16
/-- `convert_ang_vel` (lib.rs:262-267). -/
def convertAngVel (n : Int16) : Rat := (n.toInt : Rat) / 32768 * 2000
/-- `convert_mag` (lib.rs:269-274). -/
def convertMag (n : Int16) : Rat := (n.toInt : Rat) / 32768 * (8333 / 1000)
/-- `convert_angle` (lib.rs:276-280). -/
def convertAngle (n : Int16) : Rat := (n.toInt : Rat) / 32768 * 180

/-- Three registers. -/
def read3 (buf : List UInt8) (r : Fin 3 → Register) (f : Int16 → Rat) : Rs (Fin 3 → Rat) := do
  let x ← getI16 buf (r 0).offset
  let y ← getI16 buf (r 1).offset
  let z ← getI16 buf (r 2).offset
  pure fun i => if i = 0 then f x else if i = 1 then f y else f z

/-- `bulk_position_read` (lib.rs:187-213); `bus` is what the device answers, `none` an error. -/
def bulkRead (bus : Option (Vector UInt8 spanSize)) : Rs Reading :=
  match bus with
  | none => .panic
  | some buf => do
    let acc ← read3 buf.toList .acc convertAcc
    let gyro ← read3 buf.toList .gyro convertAngVel
    let mag ← read3 buf.toList .mag convertMag
    let angle ← read3 buf.toList .angle convertAngle
    pure ⟨acc, gyro, mag, angle⟩

/-- `process` (lib.rs:236-241). -/
def wt901Process (bus : Option (Vector UInt8 spanSize)) (out : Msg Reading) : Rs (Msg Reading) :=
  match bulkRead bus with
  | .panic => .panic
  | .ok r => .ok (out.setPayload r)

end Devices
end Verif
