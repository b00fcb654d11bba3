import Verif.Model.Params
import Verif.Model.FpBits
import Verif.Model.PidFp
import Verif.Model.MotorFp
/-!
How the components of the repository are made from their configurations: the `new` of every component that reads
parameters, but for the Velodyne (`Model/Velodyne`).  `.ok (some …)` is a component that was made, with what it
reads from its configuration; `.ok none` is an `Err`.  The texts of the errors are not kept.
-/
namespace Verif
namespace ComponentNew
open Params Fp

/-- The number with the bits of an `f64` (IEEE 754 binary64), as `Fp.ofBitsNat` for `f32`. -/
def num64 (b : UInt64) : Num :=
  let neg := decide (9223372036854775808 ≤ b.toNat)
  let f : Nat := b.toNat / 4503599627370496 % 2048
  let k : Nat := b.toNat % 4503599627370496
  if f = 2047 then if k = 0 then .inf neg else .nan
  else
    let v := if f = 0 then (k : Rat) * pow2 (-1074) else ((4503599627370496 + k : Nat) : Rat) * pow2 (f - 1075)
    .fin (if neg then -v else v)

/-- `From<Value> for f64` (config.rs:146-154), with `Number::into_f64` of ron, as a number. -/
def asNum : RonValue → Rs Num
  | .number (.f64 b) => .ok (num64 b)
  | .number (.f32 b) => .ok (ofBitsNat b.toNat)
  | .number (.i8 n) => .ok (ofInt f64 n.toInt)
  | .number (.i16 n) => .ok (ofInt f64 n.toInt)
  | .number (.i32 n) => .ok (ofInt f64 n.toInt)
  | .number (.i64 n) => .ok (ofInt f64 n.toInt)
  | .number (.u8 n) => .ok (ofInt f64 n.toNat)
  | .number (.u16 n) => .ok (ofInt f64 n.toNat)
  | .number (.u32 n) => .ok (ofInt f64 n.toNat)
  | .number (.u64 n) => .ok (ofInt f64 n.toNat)
  | _ => .panic

/-- `….ok_or(…)?`: without it, an error. -/
def need {α β : Type} (r : Rs (Option α)) (k : α → Rs (Option β)) : Rs (Option β) :=
  match r with
  | .panic => .panic
  | .ok none => .ok none
  | .ok (some a) => k a

/-- `….expect(…)`: without it, a panic. -/
def demand {α β : Type} (r : Rs (Option α)) (k : α → Rs (Option β)) : Rs (Option β) :=
  match r with
  | .panic => .panic
  | .ok none => .panic
  | .ok (some a) => k a

/-- `….unwrap_or(…)`. -/
def orElse {α β : Type} (r : Rs (Option α)) (d : α) (k : α → Rs (Option β)) : Rs (Option β) :=
  match r with
  | .panic => .panic
  | .ok none => k d
  | .ok (some a) => k a

/-- `getcfg` (cu_pid/src/lib.rs:288-294), and the reads `as f32` before it. -/
def single (c : ComponentConfig) (key : String) : Rs (Option Num) :=
  (ComponentConfig.get c asNum key).map' (Option.map (Num.convert f32))

/-- `GenericPIDTask::new` (cu_pid/src/lib.rs:146-211). -/
def pidNew (m : Overflow) : Option ComponentConfig → Rs (Option PidFp.Cfg)
  | none => .ok none
  | some c =>
    need (single c "setpoint") fun setpoint =>
    need (single c "cutoff") fun cutoff =>
    need (single c "kp") fun kp =>
    orElse (single c "pl") (.fin 2) fun pl =>
    orElse (single c "ki") (.fin 0) fun ki =>
    orElse (single c "il") (.fin 1) fun il =>
    orElse (single c "kd") (.fin 0) fun kd =>
    orElse (single c "dl") (.fin 2) fun dl =>
    orElse (single c "ol") (.fin 1) fun ol =>
    orElse (getMillis m c "sampling_ms") 0 fun sampling =>
    .ok (some ⟨kp, ki, kd, setpoint, pl, il, dl, ol, sampling.toNat, cutoff⟩)

/-- The windows of an aligner (ns). -/
structure AlignerSetup where
  window : Nat
  horizon : Nat
  deriving DecidableEq, Repr

/-- `new` of the tasks of `define_task!` (cu_aligner/src/lib.rs:32-46). -/
def alignerNew (m : Overflow) : Option ComponentConfig → Rs (Option AlignerSetup)
  | none => .ok none
  | some c =>
    need (getMillis m c "target_alignment_window_ms") fun w =>
    need (getMillis m c "stale_data_horizon_ms") fun h =>
    .ok (some ⟨w.toNat, h.toNat⟩)

/-- The buffers of the adaptive threshold, in bytes and in elements. -/
structure ThresholdSetup where
  width : Nat
  height : Nat
  radius : Nat
  /-- the size of the three buffers of its pool -/
  buffer : Nat
  integral : Nat
  deriving DecidableEq, Repr

/-- `a * b` in `u32`. -/
def mul32 (m : Overflow) (a b : Nat) : Rs Nat :=
  match m with
  | .checked => if a * b < 2 ^ 32 then .ok (a * b) else .panic
  | .wrapping => .ok (a * b % 2 ^ 32)

/-- `a + 1` in `u32`. -/
def succ32 (m : Overflow) (a : Nat) : Rs Nat :=
  match m with
  | .checked => if a + 1 < 2 ^ 32 then .ok (a + 1) else .panic
  | .wrapping => .ok ((a + 1) % 2 ^ 32)

/-- `DynThreshold::new` (cu_dynthreshold_impl.rs:121-142), where the name of the pool is short enough
(pool.rs:235). -/
def thresholdNew (m : Overflow) : Option ComponentConfig → Rs (Option ThresholdSetup)
  | none => .panic
  | some c =>
    demand (ComponentConfig.get c (asInt .u32) "width") fun w =>
    demand (ComponentConfig.get c (asInt .u32) "height") fun h =>
    demand (ComponentConfig.get c (asInt .u32) "block_radius") fun r => do
      let buffer ← mul32 m w.toNat h.toNat
      let w1 ← succ32 m w.toNat
      let h1 ← succ32 m h.toNat
      let integral ← mul32 m w1 h1
      .ok (some ⟨w.toNat, h.toNat, r.toNat, buffer, integral⟩)

/-- A servo bus: the device, and the ids of up to eight servos, 0 for those there are not. -/
structure ServoSetup where
  device : String
  ids : List Nat
  deriving DecidableEq, Repr

/-- The name of the parameter with the id of a servo (cu_lewansoul/src/lib.rs:221). -/
def servoKey (i : Nat) : String := "servo" ++ toString i

/-- The loop over the servos (lib.rs:219-232), at the one with number `i`, `n` being left. -/
def servoIds (c : ComponentConfig) : Nat → Nat → Rs (Option (List Nat))
  | _, 0 => .ok (some [])
  | i, n + 1 =>
    match c.lookup (servoKey i) with
    | none => if i = 0 then .ok none else .ok (some (List.replicate (n + 1) 0))
    | some v => do
      let id ← asInt .u8 v
      let l ← servoIds c (i + 1) n
      .ok (l.map (id.toNat :: ·))

/-- `Lewansoul::new` (cu_lewansoul/src/lib.rs:204-244); `opens` tells whether a serial port can be opened. -/
def servosNew (opens : String → Bool) : Option ComponentConfig → Rs (Option ServoSetup)
  | none => .ok none
  | some c =>
    demand (ComponentConfig.get c asString "serial_dev") fun dev =>
    need (servoIds c 0 8) fun ids =>
    if opens dev then .ok (some ⟨dev, ids⟩) else .ok none

/-- A serial port: the device and its speed. -/
structure PortSetup where
  device : String
  speed : Nat
  deriving DecidableEq, Repr

/-- `MSPSink::new` (cu_msp_sink/src/lib.rs:57-88) and `MSPSrc::new` (cu_msp_src/src/lib.rs:70-107): a port that
cannot be opened is an `unwrap`. -/
def mspNew (opens : String → Nat → Bool) : Option ComponentConfig → Rs (Option PortSetup)
  | none => .ok none
  | some c =>
    orElse (ComponentConfig.get c asString "device") "/dev/ttyUSB0" fun dev =>
    orElse (ComponentConfig.get c (asInt .u32) "baudrate") 115200 fun baud =>
    if opens dev baud.toNat then .ok (some ⟨dev, baud.toNat⟩) else .panic

/-- `ADS7883::new` (cu_ads7883/src/lib.rs:95-130) and `open_spi` (lib.rs:24-37). -/
def adsNew (opens : String → Nat → Bool) : Option ComponentConfig → Rs (Option PortSetup)
  | none => if opens "/dev/spidev0.0" 48000000 then .ok (some ⟨"/dev/spidev0.0", 48000000⟩) else .ok none
  | some c =>
    orElse (ComponentConfig.get c asString "spi_dev") "/dev/spidev0.0" fun dev =>
    orElse (ComponentConfig.get c (asInt .u32) "max_speed_hz") 48000000 fun hz =>
    if opens dev hz.toNat then .ok (some ⟨dev, hz.toNat⟩) else .ok none

/-- `RPGpio::new` (cu_rp_gpio/src/lib.rs:64-86); `has` tells which pins there are. -/
def gpioNew (has : Nat → Bool) : Option ComponentConfig → Rs (Option Nat)
  | none => .ok none
  | some c =>
    demand (ComponentConfig.get c (asInt .u8) "pin") fun pin => if has pin.toNat then .ok (some pin.toNat) else .ok none

/-- `Encoder::new` (cu_rp_encoder/src/lib.rs:63-88). -/
def encoderNew (has : Nat → Bool) : Option ComponentConfig → Rs (Option (Nat × Nat))
  | none => .ok none
  | some c =>
    need (ComponentConfig.get c (asInt .u8) "clk_pin") fun clk =>
    need (ComponentConfig.get c (asInt .u8) "dat_pin") fun dat =>
    if has clk.toNat ∧ has dat.toNat then .ok (some (clk.toNat, dat.toNat)) else .ok none

/-- `SN754410::new` (cu_rp_sn754410/src/lib.rs:134-166), where its two outputs are to be had. -/
def motorNew : Option ComponentConfig → Rs (Option MotorFp.Driver)
  | none => .ok (some (.new (.fin 0) false))
  | some c =>
    orElse (ComponentConfig.get c asNum "deadzone") (.fin 0) fun dead =>
    orElse (ComponentConfig.get c asBool "dryrun") false fun dry =>
    .ok (some (.new (dead.convert f32) dry))

/-- `IceoryxSink::new` (cu_iceoryx2_sink/src/lib.rs:29-60) and `IceoryxSrc::new` (cu_iceoryx2_src/src/lib.rs:27-60);
`valid` tells the names of services for which a node can be made. -/
def bridgeNew (valid : String → Bool) : Option ComponentConfig → Rs (Option String)
  | none => .ok none
  | some c => need (ComponentConfig.get c asString "service") fun s => if valid s then .ok (some s) else .ok none

/-- `CuGStreamer::new` (cu_gstreamer_impl.rs:66-145), where gstreamer could be initialised: `parses` tells the
pipelines that can be made, `accepts` the formats that such a one can be given. -/
def gstreamerNew (parses : String → Bool) (accepts : String → String → Bool) :
    Option ComponentConfig → Rs (Option (String × String))
  | none => .ok none
  | some c =>
    need (ComponentConfig.get c asString "pipeline") fun p =>
    if parses p then
      need (ComponentConfig.get c asString "caps") fun caps => if accepts p caps then .ok (some (p, caps)) else .ok none
    else .ok none

/-- `Xt32::new` (cu_hesai/src/lib.rs:64-86), with the default of 0.0.0.0:2368, and `Tele15::new`
(cu_livox/src/lib.rs:33-55), with that of 0.0.0.0:56001; `binds` tells the texts that are addresses a socket can be
bound to. -/
def lidarNew (dflt : String) (binds : String → Bool) : Option ComponentConfig → Rs (Option String)
  | none => if binds dflt then .ok (some dflt) else .panic
  | some c =>
    orElse (ComponentConfig.get c asString "socket_addr") dflt fun a => if binds a then .ok (some a) else .panic

/-- A size of the frames of a camera (`FrameSizeEnum` of the crate `v4l`). -/
inductive FrameSize where
  | discrete (w h : Nat)
  | stepwise
  deriving DecidableEq, Repr

/-- A camera that answers what it is asked; the code of a format is its four bytes. -/
structure V4lDevice where
  formats : List (List UInt8)
  sizes : List UInt8 → List FrameSize
  /-- what it makes of a format it is asked for -/
  setFormat : Nat → Nat → List UInt8 → Option (Nat × Nat)
  setFps : Nat → Bool

/-- What the camera source is made with. -/
structure CameraSetup where
  device : Nat
  fourcc : List UInt8
  /-- the size it asked for, and the one it got -/
  asked : Nat × Nat
  got : Nat × Nat
  fps : Option Nat
  buffers : Nat
  timeoutMs : Nat
  deriving DecidableEq, Repr

/-- The search for the size requested (cu_v4l/src/lib.rs:137-147). -/
def findSize (w h : Nat) : List FrameSize → Rs (Nat × Nat)
  | [] => .ok (0, 0)
  | .stepwise :: _ => .panic
  | .discrete a b :: l => if a = w ∧ b = h then .ok (a, b) else findSize w h l

/-- The first size (lib.rs:149-155). -/
def firstSize : List FrameSize → Rs (Nat × Nat)
  | .discrete a b :: _ => .ok (a, b)
  | _ => .panic

/-- The format (lib.rs:119-130): `none` is an error. -/
def chooseFourcc (formats : List (List UInt8)) : Option String → Option (List UInt8)
  | none => formats.head?
  | some s =>
    let b := s.toUTF8.toList
    if b.length = 4 ∧ b ∈ formats then some b else none

/-- The size to ask for (lib.rs:135-155). -/
def chooseSize (width height : Option Int) (sizes : List FrameSize) : Rs (Nat × Nat) :=
  match width, height with
  | some w, some h => findSize w.toNat h.toNat sizes
  | _, _ => firstSize sizes

/-- The negotiation with a camera that could be opened (lib.rs:110-215), where the queries of formats and sizes succeed
and the buffers can be had. -/
def negotiate (dev : V4lDevice) (device : Nat) (width height fps : Option Int) (name : Option String)
    (buffers timeout : Int) : Rs (Option CameraSetup) :=
  if dev.formats = [] then .ok none
  else
    match chooseFourcc dev.formats name with
    | none => .ok none
    | some fourcc =>
      match chooseSize width height (dev.sizes fourcc) with
      | .panic => .panic
      | .ok asked =>
        match dev.setFormat asked.1 asked.2 fourcc with
        | none => .ok none
        | some got =>
          match fps with
          | some f =>
            if dev.setFps f.toNat then
              .ok (some ⟨device, fourcc, asked, got, some f.toNat, buffers.toNat, timeout.toNat⟩)
            else .ok none
          | none => .ok (some ⟨device, fourcc, asked, got, none, buffers.toNat, timeout.toNat⟩)

/-- `V4l::new` (cu_v4l/src/lib.rs:71-215); `cams` tells the cameras there are. -/
def cameraNew (cams : Nat → Option V4lDevice) (config : Option ComponentConfig) : Rs (Option CameraSetup) :=
  let c := config.getD []
  orElse (ComponentConfig.get c (asInt .u32) "device") 0 fun device => do
  let width ← ComponentConfig.get c (asInt .u32) "width"
  let height ← ComponentConfig.get c (asInt .u32) "height"
  let fps ← ComponentConfig.get c (asInt .u32) "fps"
  let name ← ComponentConfig.get c asString "fourcc"
  orElse (ComponentConfig.get c (asInt .u32) "buffers") 4 fun buffers =>
  orElse (ComponentConfig.get c (asInt .u32) "timeout_ms") 500 fun timeout =>
  match cams device.toNat with
  | none => .ok none
  | some dev => negotiate dev device.toNat width height fps name buffers timeout

end ComponentNew
end Verif
