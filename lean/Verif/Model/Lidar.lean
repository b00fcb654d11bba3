import Verif.Model.Message
/-!
The two lidar drivers: components/sources/cu_livox (parser.rs, lib.rs) and components/sources/cu_hesai
(parser.rs, lib.rs).  Simplifications: a point keeps the integers of the datagram instead of the lengths, angles
and ratios computed from them in floating point; little endian machine; the calendar of chrono is the
proleptic Gregorian one.
-/
namespace Verif
open Clock
namespace Lidar

abbrev Bytes := List UInt8

/-- The little endian value of bytes. -/
def le : Bytes → Nat
  | [] => 0
  | b :: bs => b.toNat + 256 * le bs

/-- A u32 read as i32. -/
def asI32 (n : Nat) : Int := if n < 2 ^ 31 then n else (n : Int) - 2 ^ 32

/-- What a read of the socket gives. -/
inductive Recv
  | datagram (d : Bytes)
  | wouldBlock
  | failure

/-- The output message of a driver after `process`, and whether it returned `Ok`. -/
structure Out (P : Type) where
  payload : Option (List P)
  tov : Tov
  ok : Bool
  deriving DecidableEq

/-- `push` on a cloud of the given capacity (core/cu29_soa_derive/src/lib.rs:202-209: panics when full). -/
def pushAll {P : Type} (cap : Nat) (c : List P) : List P → Rs (List P)
  | [] => .ok c
  | p :: ps => if c.length < cap then pushAll cap (c ++ [p]) ps else .panic

/-! ### Livox Tele-15 -/

/-- `PointType2` (cu_livox/parser.rs:171-177), with the time of the cloud's point. -/
structure LPoint where
  tov : CuTime
  x : Int
  y : Int
  z : Int
  reflectivity : UInt8
  deriving DecidableEq, Repr

/-- The points of a frame, field by field (`LidarFrame`, `bytemuck::from_bytes`; cu_livox/parser.rs:268-273). -/
def readPoints (t : CuTime) : Nat → Bytes → List LPoint
  | 0, _ => []
  | n + 1, d =>
    let x := d.take 4; let d := d.drop 4
    let y := d.take 4; let d := d.drop 4
    let z := d.take 4; let d := d.drop 4
    let r := d.headD 0; let d := d.drop 1
    let d := d.drop 1 -- tag
    ⟨t, asI32 (le x), asI32 (le y), asI32 (le z), r⟩ :: readPoints t n d

/-- `parse_frame` (cu_livox/parser.rs:288-322) and the loop over the points (cu_livox/lib.rs:66-75): `none` is
an error. -/
def parseFrame (data : Bytes) : Rs (Option (List LPoint)) := do
  let b0 ← Rs.ofOption data[0]?
  if b0 ≠ 0x05 then .ok none
  else if data.length < 1362 then .ok none
  else if 1362 < data.length then .ok none
  else
    let d := data.drop 1      -- version
    let d := d.drop 1         -- slot_id
    let d := d.drop 1         -- lidar_id
    let d := d.drop 1         -- reserved
    let d := d.drop 4         -- status_code
    let d := d.drop 1         -- timestamp_type
    let ty := d.headD 0; let d := d.drop 1
    let ts := d.take 8; let d := d.drop 8
    if ty ≠ 0x02 then .ok none
    else .ok (some (readPoints ⟨UInt64.ofNat (le ts)⟩ 96 d))

/-- `process` (cu_livox/lib.rs:58-85); `tov` is the time found in the message. -/
def livox (r : Recv) (tov : Tov) : Rs (Out LPoint) :=
  match r with
  | .datagram d => do
    match ← parseFrame (d.take 1500) with
    | none => .ok ⟨some [], tov, false⟩
    | some ps => do
      let c ← pushAll 100 [] ps
      .ok ⟨some c, tov, true⟩
  | .wouldBlock => .ok ⟨none, tov, true⟩
  | .failure => .ok ⟨some [], tov, false⟩

/-! ### Hesai XT32 -/

/-- One channel of one block, with the time of the cloud's point; the azimuth and the elevation (the index of
the channel) give its direction (cu_hesai/lib.rs:107-122). -/
structure HPoint where
  tov : CuTime
  azimuth : Nat
  channel : Nat
  distance : Nat
  reflectivity : UInt8
  deriving DecidableEq, Repr

/-- A channel as read (cu_hesai/src/parser.rs:216-220). -/
structure Channel where
  distance : Nat
  reflectivity : UInt8
  deriving DecidableEq, Repr

/-- A block (cu_hesai/src/parser.rs:165-168). -/
structure Block where
  azimuth : Nat
  channels : List Channel
  deriving DecidableEq, Repr

def readChannels : Nat → Bytes → List Channel
  | 0, _ => []
  | n + 1, d =>
    let dist := d.take 2; let d := d.drop 2
    let r := d.headD 0; let d := d.drop 1
    let d := d.drop 1 -- reserved
    ⟨le dist, r⟩ :: readChannels n d

def readBlocks : Nat → Bytes → List Block
  | 0, _ => []
  | n + 1, d =>
    let a := d.take 2; let d := d.drop 2
    ⟨le a, readChannels 32 d⟩ :: readBlocks n (d.drop 128)

/-- The parts of `Packet` (cu_hesai/src/parser.rs:408-413) the driver uses: `returnNumber` of the header, the
blocks, `date_time` and `timestamp` of the tail. -/
structure Packet where
  returnNumber : UInt8
  blocks : List Block
  date : Bytes
  micros : Nat
  deriving DecidableEq, Repr

/-- `parse_packet` (cu_hesai/src/parser.rs:466-491) and `check_invariants` (l.101-127, 176-187, 457-463). -/
def parsePacket (data : Bytes) : Rs (Option Packet) := do
  let b0 ← Rs.ofOption data[0]?
  let b1 ← Rs.ofOption data[1]?
  if b0 ≠ 0xEE ∨ b1 ≠ 0xFF then .ok none
  else if data.length < 1076 then .ok none
  else if 1076 < data.length then .ok none
  else
    let d := data.drop 6      -- pre_header
    let laser := d.headD 0; let d := d.drop 1
    let block := d.headD 0; let d := d.drop 1
    let d := d.drop 1         -- first_block_return
    let unit := d.headD 0; let d := d.drop 1
    let ret := d.headD 0; let d := d.drop 1
    let seq := d.headD 0; let d := d.drop 1
    let blocks := readBlocks 8 d
    let d := d.drop 1040
    let d := d.drop 10        -- reserved
    let d := d.drop 1         -- return_mode
    let d := d.drop 2         -- motor_speed
    let date := d.take 6; let d := d.drop 6
    let ts := d.take 4
    if laser ≠ 0x20 then .ok none
    else if block ≠ 0x08 then .ok none
    else if unit ≠ 0x04 then .ok none
    else if seq ≠ 0x01 then .ok none
    else if blocks.any fun b => 36000 < b.azimuth then .ok none
    else .ok (some ⟨ret, blocks, date, le ts⟩)

def leap (y : Nat) : Bool := (y % 4 == 0 && y % 100 != 0) || y % 400 == 0

def monthDays (y m : Nat) : Nat :=
  match m with
  | 2 => if leap y then 29 else 28
  | 4 | 6 | 9 | 11 => 30
  | _ => 31

/-- Days from the first of January 1900 to the first of January of the year 1900 + n. -/
def yearStart : Nat → Nat
  | 0 => 0
  | n + 1 => yearStart n + if leap (1900 + n) then 366 else 365

/-- Days from the first of January to the first of the month `n + 1`. -/
def monthStart (y : Nat) : Nat → Nat
  | 0 => 0
  | n + 1 => monthStart y n + monthDays y (n + 1)

/-- `utc_tov` (cu_hesai/src/parser.rs:330-348): nanoseconds since 1900, `none` for a date that does not exist. -/
def utcTov (date : Bytes) (micros : Nat) : Option Nat :=
  match date with
  | [y, mo, d, h, mi, s] =>
    if 1 ≤ mo.toNat ∧ mo.toNat ≤ 12 ∧ 1 ≤ d.toNat ∧ d.toNat ≤ monthDays (1900 + y.toNat) mo.toNat ∧
        h.toNat < 24 ∧ mi.toNat < 60 ∧ s.toNat < 60 then
      let days := yearStart y.toNat + monthStart (1900 + y.toNat) (mo.toNat - 1) + (d.toNat - 1)
      some ((((days * 24 + h.toNat) * 60 + mi.toNat) * 60 + s.toNat) * 1000000000 + micros * 1000)
    else none
  | _ => none

/-- `RefTime` (cu_hesai/src/parser.rs:404): a UTC time in nanoseconds since 1900, and the robot time at it. -/
structure RefTime where
  utc : Int
  robot : CuTime
  deriving DecidableEq, Repr

/-- `tov` (cu_hesai/src/parser.rs:354-367): the difference must fit in an i64 of nanoseconds; it is cast to u64. -/
def tailTov (o : Overflow) (rt : RefTime) (utc : Nat) : Rs CuTime :=
  let elapsed := (utc : Int) - rt.utc
  if elapsed < -2 ^ 63 ∨ 2 ^ 63 ≤ elapsed then .panic
  else Rs.ofOption (rt.robot.add o ⟨UInt64.ofNat (elapsed % 2 ^ 64).toNat⟩)

/-- `DUAL_RETURN_OFFSETS`, `SINGLE_RETURN_OFFSETS` (cu_hesai/src/parser.rs:417-418), chosen by `is_dual_return` (l.93-95). -/
def offsets (returnNumber : UInt8) : List Int32 :=
  if returnNumber = 1 then [3, 3, 2, 2, 1, 1, 0, 0] else [7, 6, 5, 4, 3, 2, 1, 0]

/-- The start times of the blocks (cu_hesai/src/parser.rs:446-455, the `map`). -/
def blockTimes (o : Overflow) (t : CuTime) : List Int32 → Rs (List CuTime)
  | [] => .ok []
  | k :: ks => do
    let m ← Rs.ofOption (CuDuration.mulI32 o k ⟨50000⟩)
    let x ← Rs.ofOption (t.sub o m)
    let xs ← blockTimes o t ks
    .ok (x :: xs)

/-- `channel_time` (cu_hesai/lib.rs:53-59). -/
def channelTime (o : Overflow) (t6 : CuTime) (i : Nat) : Rs CuTime :=
  if i = 0 then do
    let a ← Rs.ofOption (t6.sub o ⟨1512⟩)
    Rs.ofOption (a.add o ⟨280⟩)
  else do
    let a ← Rs.ofOption (t6.add o ⟨UInt64.ofNat (1512 * (i - 1))⟩)
    Rs.ofOption (a.add o ⟨280⟩)

/-- The loop over the channels of a block (cu_hesai/lib.rs:109-124) with the running extreme times. -/
def channelLoop (o : Overflow) (t6 : CuTime) (azimuth : Nat) :
    Nat → List Channel → CuTime × CuTime × List HPoint → Rs (CuTime × CuTime × List HPoint)
  | _, [], s => .ok s
  | i, c :: cs, (lo, hi, ps) => do
    let t ← channelTime o t6 i
    let (lo, hi) := if t.ns < lo.ns then (t, hi) else if hi.ns < t.ns then (lo, t) else (lo, hi)
    if ps.length < 320 then channelLoop o t6 azimuth (i + 1) cs (lo, hi, ps ++ [⟨t, azimuth, i, c.distance, c.reflectivity⟩])
    else .panic

/-- The loop over the blocks (cu_hesai/lib.rs:107-125). -/
def blockLoop (o : Overflow) (t6 : CuTime) : List Block → CuTime × CuTime × List HPoint → Rs (CuTime × CuTime × List HPoint)
  | [], s => .ok s
  | b :: bs, s => do
    let s ← channelLoop o t6 b.azimuth 0 b.channels s
    blockLoop o t6 bs s

/-- What `process` does with a packet that was parsed (cu_hesai/lib.rs:97-132). -/
def hesaiPacket (o : Overflow) (rt : RefTime) (p : Packet) (tov : Tov) : Rs (Out HPoint) :=
  match utcTov p.date p.micros with
  | none => .ok ⟨some [], tov, false⟩
  | some utc => do
    let t ← tailTov o rt utc
    let t0 ← Rs.ofOption (t.add o ⟨5632⟩)
    let ts ← blockTimes o t0 (offsets p.returnNumber)
    let t6 ← Rs.ofOption ts[5]?
    let s ← blockLoop o t6 p.blocks (CuDuration.MAX, CuDuration.MIN, [])
    .ok ⟨some s.2.2, .range ⟨s.1, s.2.1⟩, true⟩

/-- `process` (cu_hesai/lib.rs:88-142); `tov` is the time found in the message. -/
def hesai (o : Overflow) (rt : RefTime) (r : Recv) (tov : Tov) : Rs (Out HPoint) :=
  match r with
  | .datagram d => do
    match ← parsePacket (d.take 1500) with
    | none => .ok ⟨some [], tov, false⟩
    | some p => hesaiPacket o rt p tov
  | .wouldBlock => .ok ⟨none, tov, true⟩
  | .failure => .ok ⟨some [], tov, false⟩

end Lidar
end Verif
