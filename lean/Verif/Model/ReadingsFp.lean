import Verif.Model.Fp
import Verif.Model.Basic
/-!
Conversions of raw readings to single precision.  The constructors of units (`Acceleration::new` and others of
the crate uom) are not modelled: the numbers are those given to them.
-/
namespace Verif
namespace ReadingsFp
open Fp

/-- `convert_acc` (components/sources/cu_wt901/src/lib.rs:255-260), in g. -/
def convertAcc (n : Int16) : Num := ((ofInt f32 n.toInt).div f32 (.fin 32768)).mul f32 (.fin 16)
/-- `convert_ang_vel` (lib.rs:262-267), in degrees per second. -/
def convertAngVel (n : Int16) : Num := ((ofInt f32 n.toInt).div f32 (.fin 32768)).mul f32 (.fin 2000)
/-- `convert_mag` (lib.rs:269-274), in nanoteslas; the literal 8.333 is rounded. -/
def convertMag (n : Int16) : Num := ((ofInt f32 n.toInt).div f32 (.fin 32768)).mul f32 (round f32 (8333 / 1000))
/-- `convert_angle` (lib.rs:276-280), in degrees. -/
def convertAngle (n : Int16) : Num := ((ofInt f32 n.toInt).div f32 (.fin 32768)).mul f32 (.fin 180)

/-- The ticks of an encoder as the measurement of a PID (components/sources/cu_rp_encoder/src/lib.rs:44-48). -/
def ticks (n : Int32) : Num := ofInt f32 n.toInt
/-- The reading of a converter as the measurement of a PID (components/sources/cu_ads7883/src/lib.rs:57-61). -/
def analog (n : UInt16) : Num := ofInt f32 n.toNat

/-- The intensity or reflectivity of a point (components/sources/cu_vlp16/src/lib.rs:84,
cu_hesai/src/parser.rs:226-228, cu_livox/src/parser.rs:195-197). -/
def reflectivity (n : UInt8) : Num := (ofInt f32 n.toNat).div f32 (.fin 255)
/-- The azimuth of a block in degrees (components/sources/cu_hesai/src/parser.rs:171-174). -/
def azimuth (n : UInt16) : Num := (ofInt f32 n.toNat).div f32 (.fin 100)
/-- The distance of a point in millimeters (parser.rs:223-225). -/
def distance (n : UInt16) : Num := (ofInt f32 n.toNat).mul f32 (.fin 4)
/-- A coordinate of a point in millimeters (components/sources/cu_livox/src/parser.rs:186-194). -/
def coordinate (n : Int32) : Num := ofInt f32 n.toInt

/-- The position of a servo in degrees (components/sinks/cu_lewansoul/src/lib.rs:104-108, 125-132). -/
def servoAngle (n : Int16) : Num := ((ofInt f32 n.toInt).mul f32 (.fin 240)).div f32 (.fin 1000)
/-- The voltage of a servo (lib.rs:110-115). -/
def servoVoltage (n : UInt16) : Num := (ofInt f32 n.toNat).div f32 (.fin 1000)

/-- Truncation towards zero. -/
def trunc (q : Rat) : Int := if 0 ≤ q then q.floor else -(-q).floor

/-- A cast `as i16`: truncates, saturates, 0 for NaN. -/
def castI16 : Num → Int
  | .nan => 0
  | .inf neg => if neg then -32768 else 32767
  | .fin q => max (-32768) (min 32767 (trunc q))

/-- `angle_to_position` (lib.rs:67-73) of an angle that is this number of degrees. -/
def angleToPosition (a : Num) : Int := castI16 ((a.mul f32 (.fin 1000)).div f32 (.fin 240))

/-- `MspBatteryState::cell_voltage` (components/common/cu_msp_lib/src/structs.rs:284-288): the product is one of
`u8`. -/
def cellVoltage (m : Overflow) (voltage cells : UInt8) : Rs Num :=
  if 10 * cells.toNat < 256 ∨ m = .wrapping then
    .ok ((ofInt f32 voltage.toNat).div f32 (ofInt f32 (10 * cells : UInt8).toNat))
  else .panic

end ReadingsFp
end Verif
