import Verif.Proofs.Lidar
/-! C51: what the lidars send is decoded completely or refused. -/
namespace Verif
open Clock
namespace Lidar
deriving instance DecidableEq for Rs

/-- A datagram for the Livox driver with at least one byte is decoded completely if it is a frame of the
protocol, and refused with an error otherwise. -/
theorem C51_livox_partial (d : Bytes) (tov : Tov) (h : d ≠ []) :
    (LivoxValid d → livox (.datagram d) tov = .ok ⟨some ((List.range 96).map (livoxPoint d)), tov, true⟩) ∧
    (¬ LivoxValid d → livox (.datagram d) tov = .ok ⟨some [], tov, false⟩) :=
  livox_eq d tov h

/-- A datagram for the Hesai driver with at least two bytes that is not a packet of the protocol is refused
with an error. -/
theorem C51_hesai_reject_partial (o : Overflow) (rt : RefTime) (d : Bytes) (tov : Tov) (h : 2 ≤ d.length)
    (hv : ¬ HesaiValid d) : hesai o rt (.datagram d) tov = .ok ⟨some [], tov, false⟩ :=
  hesai_reject o rt d tov h hv

/-- A packet sent after the reference, at a robot time of at least 0.4 ms, is decoded completely in both builds,
with the times `codeTime`, and the message covers exactly these times. -/
theorem C51_hesai_partial (o : Overflow) (rt : RefTime) (d : Bytes) (tov : Tov) {utc zero : Nat} (hv : HesaiValid d)
    (hu : hesaiUtc d = some utc) (h0 : rt.utc ≤ utc) (h1 : (utc : Int) - rt.utc < 2 ^ 63)
    (hz : (zero : Int) = hesaiZero rt utc) (h2 : 400000 ≤ zero) (h3 : zero + 50000 < 2 ^ 64) :
    hesai o rt (.datagram d) tov = .ok ⟨some (hesaiPoints d (codeTime d zero)),
      .range ⟨⟨UInt64.ofNat (codeTime d zero 0)⟩, ⟨UInt64.ofNat (codeTime d zero 31)⟩⟩, true⟩ :=
  hesai_eq o rt d tov ((hesaiValid_iff d).mp hv).1 hu h0 h1 hz h2 h3

/-- In a release build every packet is decoded completely, whatever its date, when the reference lies between
the years 1900 and 2192; only its times can be wrong. -/
theorem C51_hesai_release_partial (rt : RefTime) (d : Bytes) (tov : Tov) (hv : HesaiValid d)
    (h0 : 0 ≤ rt.utc) (h1 : rt.utc < 2 ^ 63) :
    ∃ time lo hi, hesai .wrapping rt (.datagram d) tov =
      .ok ⟨some (hesaiPoints d time), .range ⟨lo, hi⟩, true⟩ := by
  obtain ⟨hs, hu⟩ := (hesaiValid_iff d).mp hv
  obtain ⟨utc, hu⟩ := Option.ne_none_iff_exists'.mp hu
  exact hesai_release rt d tov hs hu h0 h1

/-- The UTC time of a packet is the one of its date in the Gregorian calendar, counted from 1900, and there is
none for a date that does not exist. -/
theorem C51_utc (d : Bytes) {y mo dd h mi s : UInt8} (hd : slice d 1065 6 = [y, mo, dd, h, mi, s]) :
    (DateExists y.toNat mo.toNat dd.toNat h.toNat mi.toNat s.toNat →
      hesaiUtc d = some ((((dayNumber (1900 + y.toNat) mo.toNat dd.toNat * 24 + h.toNat) * 60 + mi.toNat) * 60 +
        s.toNat) * 1000000000 + le (slice d 1071 4) * 1000)) ∧
    (¬ DateExists y.toNat mo.toNat dd.toNat h.toNat mi.toNat s.toNat → hesaiUtc d = none) := by
  unfold hesaiUtc
  rw [hd]
  exact utcTov_eq y mo dd h mi s _

/-- The first of March 2024, the 45350th day. -/
example : dayNumber 2024 3 1 = 45350 ∧ dayNumber 1900 3 1 = 59 ∧ dayNumber 2000 3 1 = 36584 := by decide

/-- Without a datagram the message carries no payload. -/
theorem C51_idle (o : Overflow) (rt : RefTime) (tov : Tov) :
    livox .wouldBlock tov = .ok ⟨none, tov, true⟩ ∧ hesai o rt .wouldBlock tov = .ok ⟨none, tov, true⟩ := ⟨rfl, rfl⟩

/-- When the socket cannot be read the drivers report an error, with an empty cloud. -/
theorem C51_failure (o : Overflow) (rt : RefTime) (tov : Tov) :
    livox .failure tov = .ok ⟨some [], tov, false⟩ ∧ hesai o rt .failure tov = .ok ⟨some [], tov, false⟩ := ⟨rfl, rfl⟩

/-- Datagrams of no byte, or of one for the Hesai driver, make the drivers panic. -/
theorem C51_violated_empty (o : Overflow) (rt : RefTime) (tov : Tov) (b : UInt8) :
    livox (.datagram []) tov = .panic ∧ hesai o rt (.datagram []) tov = .panic ∧
    hesai o rt (.datagram [b]) tov = .panic := ⟨rfl, rfl, rfl⟩

/-- A packet with the given return number, and the date 2 January 1900. -/
def packet (ret : UInt8) : Bytes :=
  [0xEE, 0xFF, 0, 0, 0, 0, 0x20, 8, 0, 4, ret, 1] ++ List.replicate 1040 7 ++ List.replicate 10 0 ++ [0, 0, 0] ++
    [0, 1, 2, 0, 0, 0] ++ [0, 0, 0, 0] ++ [0]

/-- A frame with points that differ. -/
def lframe : Bytes := [5, 0, 0, 0, 0, 0, 0, 0, 0, 2, 1, 2, 0, 0, 0, 0, 0, 0] ++ (List.range 1344).map UInt8.ofNat

theorem packet_valid : HesaiValid (packet 1) ∧ HesaiValid (packet 2) := by
  unfold HesaiValid
  decide +kernel

example : LivoxValid lframe := by decide +kernel
example : livoxPoint lframe 1 = ⟨⟨513⟩, 0x11100F0E, 0x15141312, 0x19181716, 26⟩ := by decide +kernel
example : ¬ HesaiValid (List.replicate 1076 0) ∧ ¬ LivoxValid [5] := by
  unfold HesaiValid
  decide +kernel

/-- One day after a reference at robot time 7. -/
def ref1900 : RefTime := ⟨0, ⟨7⟩⟩

example : hesaiUtc (packet 1) = some 86400000000000 := by decide +kernel
example : hesai .checked ref1900 (.datagram (packet 1)) .none =
    .ok ⟨some (hesaiPoints (packet 1) (codeTime (packet 1) 86400000005639)),
      .range ⟨⟨86399999954407⟩, ⟨86400000001279⟩⟩, true⟩ := by
  have := C51_hesai_partial .checked ref1900 (packet 1) .none (utc := 86400000000000) (zero := 86400000005639)
    packet_valid.1 (by decide +kernel) (by decide) (by decide) (by decide) (by decide) (by decide)
  have e0 : codeTime (packet 1) 86400000005639 0 = 86399999954407 := by decide +kernel
  have e1 : codeTime (packet 1) 86400000005639 31 = 86400000001279 := by decide +kernel
  rw [e0, e1] at this
  exact this

/-- The times are not those of the protocol: every block gets the time of one of them, the test for two returns
is inverted and the channels are one slot early.  With two returns the first block is stamped 48 µs late and
the last one 101 µs early, with one return 298 µs late and 51 µs early. -/
theorem C51_violated_time (zero : Nat) (h : 400000 ≤ zero) :
    protocolTime (packet 2) zero 0 0 + 48488 = codeTime (packet 2) zero 0 ∧
    protocolTime (packet 2) zero 7 0 = codeTime (packet 2) zero 0 + 101512 ∧
    protocolTime (packet 1) zero 0 0 + 298488 = codeTime (packet 1) zero 0 ∧
    protocolTime (packet 1) zero 7 0 = codeTime (packet 1) zero 0 + 51512 := by
  have e1 : u8 (packet 1) 10 = 1 := by decide +kernel
  have e2 : u8 (packet 2) 10 = 2 := by decide +kernel
  unfold protocolTime codeTime
  rw [e1, e2]
  simp only [if_pos, if_neg, (by decide : ¬ (2 : UInt8) = 1), (by decide : ¬ (1 : UInt8) = 2), if_false]
  omega

/-- A packet from before the reference makes a debug build panic. -/
theorem C51_violated_past :
    hesai .checked ⟨86400000000001, ⟨1000000000⟩⟩ (.datagram (packet 1)) .none = .panic := by decide +kernel

/-- So does a packet in the first 0.3 ms of the robot. -/
theorem C51_violated_early :
    hesai .checked ⟨86400000000000, ⟨0⟩⟩ (.datagram (packet 2)) .none = .panic := by decide +kernel

end Lidar
end Verif
