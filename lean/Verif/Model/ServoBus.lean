import Verif.Model.Lewansoul
import Verif.Model.ReadingsFp
/-!
Questions to the servos of a bus: components/sinks/cu_lewansoul/src/lib.rs:94-156.  What arrives on the line in
consequence of a frame written to it is a parameter.
-/
namespace Verif
namespace Servo
open Fp ReadingsFp

/-- The serial port: the world behind it, and the bytes that have arrived and were not read. -/
structure Port (σ : Type) where
  st : σ
  line : Bytes

/-- The world behind a serial port: what arrives when a frame is written; `none` if writing fails. -/
abbrev Bus (σ : Type) := σ → Bytes → Option (σ × Bytes)

/-- The calls of the driver. -/
inductive Op
  | reassign (id newId : UInt8)
  | position (id : UInt8)
  | voltage (id : UInt8)
  | temperature (id : UInt8)
  | limits (id : UInt8)
  | ping (id : UInt8)
  deriving DecidableEq, Repr

/-- What they answer; `failed` is an error. -/
inductive Reading
  | done
  | angle (x : Num)
  | volts (x : Num)
  | degrees (t : UInt8)
  | range (lo hi : Num)
  | failed
  deriving DecidableEq, Repr

/-- `i16::from_le_bytes`. -/
def i16Of (a b : UInt8) : Int16 := Int16.ofNat (a.toNat + 256 * b.toNat)
/-- `u16::from_le_bytes`. -/
def u16Of (a b : UInt8) : UInt16 := UInt16.ofNat (a.toNat + 256 * b.toNat)

variable {σ : Type}

/-- `send_packet`, then `read_response`. -/
def ask (bus : Bus σ) (id command : UInt8) (data : Bytes) (p : Port σ) :
    Rs (Except Err (UInt8 × UInt8 × Bytes) × Port σ) :=
  match sendPacket id command data with
  | .panic => .panic
  | .ok f =>
    match bus p.st f with
    | none => .ok (.error .timeout, p)
    | some (st, more) =>
      match readResponse (p.line ++ more) with
      | .panic => .panic
      | .ok (r, rest) => .ok (r, ⟨st, rest⟩)

/-- What is made of the data of a response; indices that are not there are a panic. -/
def Op.reading : Op → Bytes → Rs Reading
  | .reassign _ _, _ => .ok .done
  | .position _, d0 :: d1 :: _ => .ok (.angle (servoAngle (i16Of d0 d1)))
  | .voltage _, d0 :: d1 :: _ => .ok (.volts (servoVoltage (u16Of d0 d1)))
  | .temperature _, d0 :: _ => .ok (.degrees d0)
  | .limits _, d0 :: d1 :: d2 :: d3 :: _ => .ok (.range (servoAngle (i16Of d0 d1)) (servoAngle (i16Of d2 d3)))
  | .ping id, d0 :: _ => .ok (if d0 = id then .done else .failed)
  | _, _ => .panic

/-- The frame of a call (lib.rs:16-46, 94-139): the servo, the command and its data. -/
def Op.request : Op → UInt8 × UInt8 × Bytes
  | .reassign id newId => (id, 13, [newId])
  | .position id => (id, 28, [])
  | .voltage id => (id, 0x1B, [])
  | .temperature id => (id, 0x1A, [])
  | .limits id => (id, 21, [])
  | .ping id => (id, 14, [])

/-- `reassign_servo_id`, `read_current_position`, `read_present_voltage`, `read_temperature`, `read_angle_limits` and
`ping` (lib.rs:94-156). -/
def call (bus : Bus σ) (op : Op) (p : Port σ) : Rs (Reading × Port σ) :=
  match ask bus op.request.1 op.request.2.1 op.request.2.2 p with
  | .panic => .panic
  | .ok (.error _, p) => .ok (.failed, p)
  | .ok (.ok (_, _, data), p) =>
    match op.reading data with
    | .panic => .panic
    | .ok r => .ok (r, p)

/-- Calls one after the other. -/
def calls (bus : Bus σ) : List Op → Port σ → Rs (List Reading × Port σ)
  | [], p => .ok ([], p)
  | op :: ops, p =>
    match call bus op p with
    | .panic => .panic
    | .ok (r, p) =>
      match calls bus ops p with
      | .panic => .panic
      | .ok (rs, p) => .ok (r :: rs, p)

end Servo
end Verif
