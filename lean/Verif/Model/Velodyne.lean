import Verif.Model.Params
import Verif.Model.Lidar
import Verif.Model.Message
/-!
The Velodyne lidar source (components/sources/cu_vlp16/src/lib.rs) and the tool that plays recorded packets
(components/testing/cu_udp_inject/src/lib.rs).  The packets are read by the external crate `velodyne_lidar`.
-/
namespace Verif
namespace Velodyne
open Bincode Clock

/-- The return type configured (lib.rs:38-45). -/
inductive Mode where
  | strongest
  | last
  | dual
  deriving DecidableEq, Repr

/-- A point of the crate `velodyne_lidar`: its time in the hour (ns), coordinates in meters, intensity. -/
structure Point where
  toh : Nat
  x : F64
  y : F64
  z : F64
  intensity : UInt8
  deriving DecidableEq, Repr

/-- One return, or the two of a dual packet. -/
inductive Return where
  | single (p : Point)
  | dual (strongest last : Point)
  deriving DecidableEq, Repr

/-- A point of the message (cu_sensor_payloads/src/pointcloud.rs:80-88); the reflectivity is a number, 1 for all
the light.  Simplification: exact, where the code has an `f32`. -/
structure CloudPoint where
  tov : CuTime
  x : F32
  y : F32
  z : F32
  reflectivity : Rat
  deriving DecidableEq

/-- The source. -/
structure Vlp where
  mode : Mode
  addr : String
  /-- the socket is open -/
  on : Bool
  deriving DecidableEq, Repr

/-- A parameter that has a default (lib.rs:34-38). -/
def textOr (c : Params.ComponentConfig) (key dflt : String) : Rs String :=
  match Params.ComponentConfig.get c Params.asString key with
  | .panic => .panic
  | .ok none => .ok dflt
  | .ok (some s) => .ok s

/-- `new` (lib.rs:29-52); `none` is an error. -/
def Vlp.new (c : Option Params.ComponentConfig) : Rs (Option Vlp) :=
  match c with
  | none => .panic
  | some c => do
    let addr ← textOr c "listen_addr" "0.0.0.0:2368"
    let kind ← textOr c "return_type" "last"
    let _ ← textOr c "test_mode" "false"
    if kind = "strongest" then .ok (some ⟨.strongest, addr, false⟩)
    else if kind = "last" then .ok (some ⟨.last, addr, false⟩)
    else if kind = "dual" then .ok (some ⟨.dual, addr, false⟩)
    else .ok none

/-- `start` (lib.rs:54-61): `bound` is whether the address could be bound. -/
def Vlp.start (v : Vlp) (bound : Bool) : Rs Vlp := if bound then .ok { v with on := true } else .panic

/-- `stop` (lib.rs:90-93). -/
def Vlp.stop (v : Vlp) : Vlp := { v with on := false }

/-- `PointCloud::new(tov, x, y, z, intensity / 255, None)` (lib.rs:78-83, pointcloud.rs:126-135): the last
number is taken as a percentage; `narrow` is `as f32`. -/
def cloudPoint (narrow : F64 → F32) (p : Point) : CloudPoint :=
  ⟨⟨UInt64.ofNat p.toh⟩, narrow p.x, narrow p.y, narrow p.z, p.intensity.toNat / 255 / 100⟩

/-- The loop over the points (lib.rs:75-85); 10000 is the capacity. -/
def pushPoints (narrow : F64 → F32) (c : List CloudPoint) : List Return → Rs (List CloudPoint)
  | [] => .ok c
  | .single p :: l => if c.length < 10000 then pushPoints narrow (c ++ [cloudPoint narrow p]) l else .panic
  | .dual _ _ :: _ => .panic

/-- `process` (lib.rs:63-88).  `parse` is the crate `velodyne_lidar`: the points of a datagram in a mode, or
nothing.  Each `unwrap` is a panic; a datagram is cut to the size of a data packet. -/
def Vlp.process (narrow : F64 → F32) (parse : Mode → Bytes → Option (List Return)) (v : Vlp) (r : Lidar.Recv)
    (out : Msg (List CloudPoint)) : Rs (Msg (List CloudPoint)) :=
  if v.on = false then .panic
  else
    match r with
    | .wouldBlock | .failure => .panic
    | .datagram d =>
      match parse v.mode (d.take 1206) with
      | none => .panic
      | some l =>
        match pushPoints narrow [] l with
        | .panic => .panic
        | .ok c => .ok (out.setPayload c)

/-! ### Recorded packets -/

/-- A packet of a capture: its bytes, its time (ns). -/
structure Packet where
  data : Bytes
  ts : Nat
  deriving DecidableEq, Repr

/-- `PcapStreamer` (cu_udp_inject/src/lib.rs:8-29): what is left of the capture, the time of the last packet. -/
structure Streamer where
  left : List Packet
  last : Option Nat
  deriving DecidableEq, Repr

/-- What `send_next` does. -/
inductive Sent where
  /-- `Ok(true)`: after waiting for so long (ns), these bytes -/
  | packet (wait : Nat) (payload : Bytes)
  /-- `Ok(false)` -/
  | finished
  /-- `Err(_)` -/
  | tooShort
  deriving DecidableEq, Repr

/-- `send_next::<PS>` (cu_udp_inject/src/lib.rs:34-71), `elapsed` after the streamer was made (ns). -/
def Streamer.sendNext (ps : Nat) (s : Streamer) (elapsed : Nat) : Streamer × Sent :=
  match s.left with
  | [] => (s, .finished)
  | p :: left =>
    if p.data.length < 42 + ps then ({ s with left := left }, .tooShort)
    else
      let wait := match s.last with
        | none => 0
        | some l => if p.ts > l then (if elapsed < p.ts - l then p.ts - l - elapsed else 0) else 0
      (⟨left, some p.ts⟩, .packet wait ((p.data.drop 42).take ps))

/-- Repeated calls, the first at `elapsed`, each as soon as the one before returns: when each packet is sent,
and its bytes. -/
def Streamer.play (ps : Nat) : Nat → Streamer → Nat → List (Nat × Bytes)
  | 0, _, _ => []
  | fuel + 1, s, elapsed =>
    match s.sendNext ps elapsed with
    | (s, .packet wait b) => (elapsed + wait, b) :: s.play ps fuel (elapsed + wait)
    | (s, .tooShort) => s.play ps fuel elapsed
    | (_, .finished) => []

end Velodyne
end Verif
