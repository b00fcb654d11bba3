import Verif.Model.Payload
import Verif.Model.MspTasks
import Verif.Model.ValueSerde
/-!
The codecs of the payloads that come with the components.  Quantities of the crate `uom` are their
`value`, an `f32` in the base unit of the international system: `new::<base unit>` is the identity.
-/
namespace Verif
namespace Payloads
open Bincode Payload

/-- `[T; n]`: the elements without a length. -/
def decArrayN (T : Type) [Codec T] (n : Nat) : Dec (Vector T n) := do
  let l ← decN (dec (α := T)) n
  if h : l.length = n then pure ⟨l.toArray, by simpa using h⟩ else Dec.fail .lengthMismatch
instance instCodecArray {T : Type} [Codec T] {n : Nat} : Codec (Vector T n) := ⟨encArray, decArrayN T n⟩

/-- `Transform3D` (components/payloads/cu_spatial_payloads/src/lib.rs:12-15), derived. -/
abbrev Pose (T : Type) := Vector (Vector T 4) 4

/-- `PointCloud` (components/payloads/cu_sensor_payloads/src/pointcloud.rs:81-89). -/
structure Point where
  tov : UInt64
  x : F32
  y : F32
  z : F32
  i : F32
  returnOrder : UInt8
  deriving DecidableEq, Repr

/-- `Encode for PointCloud` (pointcloud.rs:91-100): the reflectivity as its value, a ratio (l.22-27). -/
def encPoint (p : Point) : Bytes :=
  enc p.tov ++ (enc p.x ++ (enc p.y ++ (enc p.z ++ (enc p.i ++ enc p.returnOrder))))

/-- `Decode for PointCloud` (pointcloud.rs:102-119): the reflectivity as a percentage (l.30-35), which
`percent` turns into a ratio. -/
def decPoint (percent : F32 → F32) : Dec Point := do
  let tov ← (dec : Dec UInt64)
  let x ← (dec : Dec F32)
  let y ← (dec : Dec F32)
  let z ← (dec : Dec F32)
  let i ← (dec : Dec F32)
  let r ← (dec : Dec UInt8)
  pure ⟨tov, x, y, z, percent i, r⟩

/-- `PositionalReadingsPayload` (components/sources/cu_wt901/src/lib.rs:65-79). -/
structure Readings where
  accX : F32
  accY : F32
  accZ : F32
  gyroX : F32
  gyroY : F32
  gyroZ : F32
  magX : F32
  magY : F32
  magZ : F32
  roll : F32
  pitch : F32
  yaw : F32
  deriving DecidableEq, Repr

/-- `Encode for PositionalReadingsPayload` (cu_wt901/src/lib.rs:142-160). -/
def encReadings (r : Readings) : Bytes :=
  enc r.accX ++ (enc r.accY ++ (enc r.accZ ++ (enc r.gyroX ++ (enc r.gyroY ++ (enc r.gyroZ ++
    (enc r.magX ++ (enc r.magY ++ (enc r.magZ ++ (enc r.roll ++ (enc r.pitch ++ enc r.yaw))))))))))

/-- `Decode for PositionalReadingsPayload` (cu_wt901/src/lib.rs:162-180): in the base units. -/
def decReadings : Dec Readings := do
  let accX ← (dec : Dec F32)
  let accY ← (dec : Dec F32)
  let accZ ← (dec : Dec F32)
  let gyroX ← (dec : Dec F32)
  let gyroY ← (dec : Dec F32)
  let gyroZ ← (dec : Dec F32)
  let magX ← (dec : Dec F32)
  let magY ← (dec : Dec F32)
  let magZ ← (dec : Dec F32)
  let roll ← (dec : Dec F32)
  let pitch ← (dec : Dec F32)
  let yaw ← (dec : Dec F32)
  pure ⟨accX, accY, accZ, gyroX, gyroY, gyroZ, magX, magY, magZ, roll, pitch, yaw⟩

/-- `Serialize for PositionalReadingsPayload` (cu_wt901/src/lib.rs:100-117): a struct. -/
def Readings.data (r : Readings) : Serde.Data := .struct [
  ("acc_x", .prim (.f32 r.accX)), ("acc_y", .prim (.f32 r.accY)), ("acc_z", .prim (.f32 r.accZ)),
  ("gyro_x", .prim (.f32 r.gyroX)), ("gyro_y", .prim (.f32 r.gyroY)), ("gyro_z", .prim (.f32 r.gyroZ)),
  ("mag_x", .prim (.f32 r.magX)), ("mag_y", .prim (.f32 r.magY)), ("mag_z", .prim (.f32 r.magZ)),
  ("roll", .prim (.f32 r.roll)), ("pitch", .prim (.f32 r.pitch)), ("yaw", .prim (.f32 r.yaw))]

/-- What `Deserialize for PositionalReadingsPayload` (cu_wt901/src/lib.rs:119-121) asks for: an array of
12 numbers. -/
def readingsTy : Serde.Ty := .tuple (List.replicate 12 (.prim .f32))

/-- `AprilTagDetections` (components/tasks/cu_apriltag/src/lib.rs:105-110); `MAX_DETECTIONS` is 16. -/
structure Detections where
  ids : ArrayVec UInt64 16
  poses : ArrayVec (Pose F32) 16
  margins : ArrayVec F32 16
  deriving DecidableEq, Repr

/-- Derived `Encode`. -/
def encDetections (d : Detections) : Bytes := encVec d.ids ++ (encVec d.poses ++ encVec d.margins)

/-- `Decode for AprilTagDetections` (cu_apriltag/src/lib.rs:112-123). -/
def decDetections : Dec (Rs Detections) := do
  let ids ← decVec UInt64 16
  let poses ← decVec (Pose F32) 16
  let margins ← decVec F32 16
  pure (do
    let ids ← ids
    let poses ← poses
    let margins ← margins
    pure ⟨ids, poses, margins⟩)

/-- `ServoPositionsPayload` (components/sinks/cu_lewansoul/src/lib.rs:181-199): eight angles. -/
abbrev ServoPositions := Vector F32 8

/-- `PIDControlOutputPayload` (components/tasks/cu_pid/src/lib.rs:9-19): p, i, d, output; derived. -/
abbrev PidOutput := F32 × F32 × F32 × F32

/-- `EncoderPayload` (components/sources/cu_rp_encoder/src/lib.rs:38-41), `RPGpioPayload`
(components/sinks/cu_rp_gpio/src/lib.rs:27-30), `MotorPayload` (components/sinks/cu_rp_sn754410/src/lib.rs:25-28),
`ADSReadingPayload` (components/sources/cu_ads7883/src/lib.rs:39-48): one field, derived; `CuGstBuffer`
(components/sources/cu_gstreamer/src/cu_gstreamer_impl.rs:35-51): its bytes, as a slice. -/
abbrev EncoderTicks := Int32
abbrev Gpio := Bool
abbrev Motor := F32
abbrev AdsReading := UInt16
abbrev GstBuffer := List UInt8

/-- `MspRequest` (components/common/cu_msp_lib/src/structs.rs:945-954), derived: the number of the variant
as `u32`; `MspRc` is its 16 channels, an array.  `rc` is the content of the fourth variant. -/
def encRequest : Msp.Request → Bytes
  | .unknown => encVar 0
  | .batteryState => encVar 1
  | .rc => encVar 2
  | .setRawRc channels => encVar 3 ++ encAll channels
  | .rawImu => encVar 4

def decRequest : Dec Msp.Request := do
  let n ← decVar 4
  if n = 0 then pure .unknown
  else if n = 1 then pure .batteryState
  else if n = 2 then pure .rc
  else if n = 3 then do
    let l ← decN (dec (α := UInt16)) 16
    pure (.setRawRc l)
  else if n = 4 then pure .rawImu
  else Dec.fail .invalidVariant

/-- `MspRequestBatch` (components/sinks/cu_msp_sink/src/lib.rs:34-45): as a slice, read as a vector. -/
@[instance_reducible] def requestCodec : Codec Msp.Request := ⟨encRequest, decRequest⟩
def encBatch (b : List Msp.Request) : Bytes := @enc _ (@instCodecList _ requestCodec) b
def decBatch : Dec (List Msp.Request) := @dec _ (@instCodecList _ requestCodec)

end Payloads
end Verif
