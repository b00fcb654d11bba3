import Verif.Model.Lidar
/-! The layouts of the datagrams as tables of offsets. -/
namespace Verif
open Clock
namespace Lidar

/-- `n` bytes from an offset. -/
def slice (d : Bytes) (o n : Nat) : Bytes := (d.drop o).take n
/-- The byte at an offset. -/
def u8 (d : Bytes) (o : Nat) : UInt8 := d.getD o 0

/-- A Livox frame: version 5, data type 2, header of 18 bytes and 96 points of 14 bytes. -/
def LivoxValid (d : Bytes) : Prop := d.length = 1362 ∧ u8 d 0 = 5 ∧ u8 d 9 = 2

instance (d : Bytes) : Decidable (LivoxValid d) := by unfold LivoxValid; infer_instance

/-- Two's complement on 32 bits: the top half of the range is negative. -/
def i32 (n : Nat) : Int := if 2 ^ 31 ≤ n then (n : Int) - 2 ^ 32 else n

/-- The point `k` of a frame: the time of the header, three coordinates in millimetres, the reflectivity. -/
def livoxPoint (d : Bytes) (k : Nat) : LPoint where
  tov := ⟨UInt64.ofNat (le (slice d 10 8))⟩
  x := i32 (le (slice d (18 + 14 * k) 4))
  y := i32 (le (slice d (18 + 14 * k + 4) 4))
  z := i32 (le (slice d (18 + 14 * k + 8) 4))
  reflectivity := u8 d (18 + 14 * k + 12)

/-- Leap years of the Gregorian calendar. -/
def IsLeap (y : Nat) : Prop := y % 4 = 0 ∧ (y % 100 = 0 → y % 400 = 0)

instance (y : Nat) : Decidable (IsLeap y) := by unfold IsLeap; infer_instance

/-- The lengths of the months. -/
def months (y : Nat) : List Nat := [31, if IsLeap y then 29 else 28, 31, 30, 31, 30, 31, 31, 30, 31, 30, 31]

/-- Days from the first of January 1900, that is before 460 leap years, to a date from then on. -/
def dayNumber (y m d : Nat) : Nat :=
  365 * (y - 1900) + ((y - 1) / 4 + (y - 1) / 400 - (y - 1) / 100 - 460) + ((months y).take (m - 1)).sum + (d - 1)

/-- Year since 1900, month, day, hour, minute and second of a date that exists, without leap seconds. -/
def DateExists (y mo d h mi s : Nat) : Prop :=
  1 ≤ mo ∧ mo ≤ 12 ∧ 1 ≤ d ∧ d ≤ (months (1900 + y)).getD (mo - 1) 0 ∧ h < 24 ∧ mi < 60 ∧ s < 60

/-- The UTC time of a Hesai packet. -/
def hesaiUtc (d : Bytes) : Option Nat := utcTov (slice d 1065 6) (le (slice d 1071 4))

/-- A Hesai packet: magic bytes, 32 channels, 8 blocks, unit of 4 mm, sequence 1, azimuths up to a full turn,
a date that exists. -/
def HesaiValid (d : Bytes) : Prop :=
  d.length = 1076 ∧ u8 d 0 = 0xEE ∧ u8 d 1 = 0xFF ∧ u8 d 6 = 0x20 ∧ u8 d 7 = 8 ∧ u8 d 9 = 4 ∧ u8 d 11 = 1 ∧
  (∀ b, b < 8 → le (slice d (12 + 130 * b) 2) ≤ 36000) ∧ hesaiUtc d ≠ none

/-- The channel `c` of the block `b` of a packet, counted from 0, at the given time. -/
def hesaiPoint (d : Bytes) (t : Nat) (b c : Nat) : HPoint where
  tov := ⟨UInt64.ofNat t⟩
  azimuth := le (slice d (12 + 130 * b) 2)
  channel := c
  distance := le (slice d (12 + 130 * b + 2 + 4 * c) 2)
  reflectivity := u8 d (12 + 130 * b + 2 + 4 * c + 2)

/-- The points of a packet, block by block, with the time of every channel. -/
def hesaiPoints (d : Bytes) (time : Nat → Nat) : List HPoint :=
  (List.range 8).flatMap fun b => (List.range 32).map fun c => hesaiPoint d (time c) b c

/-- The robot time of a packet, plus the firing offset. -/
def hesaiZero (rt : RefTime) (utc : Nat) : Int := rt.robot.ns.toNat + (utc - rt.utc) + 5632

/-- The time the code gives to channel `c`. -/
def codeTime (d : Bytes) (zero : Nat) (c : Nat) : Nat :=
  zero - 50000 * (if u8 d 10 = 1 then 1 else 2) + 1512 * c - 1232

/-- The time the protocol gives to channel `c` of block `b`, counted from 0 (parser.rs:414-441, lib.rs:47-52): two
returns take two blocks per firing. -/
def protocolTime (d : Bytes) (zero : Nat) (b c : Nat) : Nat :=
  zero - 50000 * (if u8 d 10 = 2 then (7 - b) / 2 else 7 - b) + 1512 * c + 280

end Lidar
end Verif
