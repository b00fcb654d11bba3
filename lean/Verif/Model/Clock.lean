import Verif.Model.Basic
import Verif.Model.Bincode
/-!
Model of core/cu29_clock/src/lib.rs.
-/
namespace Verif
open Bincode
namespace Clock

/-- `CuDuration(pub u64)`, `CuTime` (core/cu29_clock/src/lib.rs:20-23, 209). -/
structure CuDuration where
  ns : UInt64
  deriving DecidableEq, Repr

abbrev CuTime := CuDuration

/-- `NONE_VALUE` (lib.rs:215). -/
def NONE_VALUE : UInt64 := 0xFFFFFFFFFFFFFFFF
/-- `CuDuration::MIN` (lib.rs:27). -/
def CuDuration.MIN : CuDuration := ⟨0⟩
/-- `CuDuration::MAX` (lib.rs:29). -/
def CuDuration.MAX : CuDuration := ⟨NONE_VALUE - 1⟩

/-- `CuDuration::max` (lib.rs:30-34). -/
def CuDuration.max (a b : CuDuration) : CuDuration := if a.ns ≤ b.ns then b else a
/-- `CuDuration::min` (lib.rs:36-40). -/
def CuDuration.min (a b : CuDuration) : CuDuration := if a.ns ≤ b.ns then a else b

/-- `From<Duration> for CuDuration`: `as_nanos() as u64` (lib.rs:49-53).  A `Duration` is
represented by its (u128) number of nanoseconds. -/
def CuDuration.fromDuration (nanos : Nat) : CuDuration := ⟨UInt64.ofNat nanos⟩
/-- `From<CuDuration> for Duration` (lib.rs:55-60). -/
def CuDuration.toDuration (d : CuDuration) : Nat := d.ns.toNat

/-- Rust's primitive `u64` arithmetic: the exact result if it is representable, otherwise a
panic (`none`) or the result modulo 2^64, depending on the profile. -/
def u64Arith (o : Overflow) (r : Int) : Option UInt64 :=
  if 0 ≤ r ∧ r < 18446744073709551616 then some (UInt64.ofNat r.toNat)
  else match o with
    | .checked => none
    | .wrapping => some (UInt64.ofNat (r % 18446744073709551616).toNat)

/-- `Sub for CuDuration` (lib.rs:75-83) and `SubAssign` (101-107). -/
def CuDuration.sub (o : Overflow) (a b : CuDuration) : Option CuDuration :=
  (u64Arith o ((a.ns.toNat : Int) - b.ns.toNat)).map CuDuration.mk
/-- `Add for CuDuration` (lib.rs:85-93) and `AddAssign` (95-101). -/
def CuDuration.add (o : Overflow) (a b : CuDuration) : Option CuDuration :=
  (u64Arith o ((a.ns.toNat : Int) + b.ns.toNat)).map CuDuration.mk
/-- `Div<T: Into<u64>> for CuDuration` (lib.rs:111-122): division by zero panics. -/
def CuDuration.div (a : CuDuration) (k : UInt64) : Option CuDuration :=
  if k = 0 then none else some ⟨a.ns / k⟩
/-- `Mul<T: Into<u64>> for CuDuration`, `Mul<CuDuration> for u64`/`u32` (lib.rs:127-157). -/
def CuDuration.mul (o : Overflow) (a : CuDuration) (k : UInt64) : Option CuDuration :=
  (u64Arith o ((a.ns.toNat : Int) * k.toNat)).map CuDuration.mk
/-- `Mul<CuDuration> for i32`: `self as u64 * nanos` (lib.rs:160-167); the cast sign-extends. -/
def CuDuration.mulI32 (o : Overflow) (k : Int32) (a : CuDuration) : Option CuDuration :=
  (u64Arith o ((k.toInt % 18446744073709551616) * a.ns.toNat)).map CuDuration.mk

/-- `Encode`/`Decode` for `CuDuration` (lib.rs:169-186); `BorrowDecode` is the same. -/
instance : Codec CuDuration where
  enc d := enc d.ns
  dec := do
    let n ← (dec : Dec UInt64)
    pure ⟨n⟩

/-- The units of `Display for CuDuration`. -/
inductive TimeUnit where
  | d | h | m | s | ms | us | ns
  deriving DecidableEq, Repr

/-- Which unit `Display for CuDuration` prints (lib.rs:188-207).  The decimal digits
(`f64` formatting) are not modelled. -/
def CuDuration.displayUnit (a : CuDuration) : TimeUnit :=
  let nanos := a.ns.toNat
  if nanos ≥ 86400000000000 then .d
  else if nanos ≥ 3600000000000 then .h
  else if nanos ≥ 60000000000 then .m
  else if nanos ≥ 1000000000 then .s
  else if nanos ≥ 1000000 then .ms
  else if nanos ≥ 1000 then .us
  else .ns

/-- `OptionCuTime(CuTime)` (lib.rs:212-213). -/
structure OptionCuTime where
  inner : CuTime
  deriving DecidableEq, Repr

/-- lib.rs:218-222 -/
def OptionCuTime.isNone (o : OptionCuTime) : Bool := o.inner.ns == NONE_VALUE
/-- lib.rs:224-227 and `Default` (lib.rs:248-252) -/
def OptionCuTime.none : OptionCuTime := ⟨⟨NONE_VALUE⟩⟩
/-- `OptionCuTime::unwrap` (lib.rs:229-235): `none` is the panic. -/
def OptionCuTime.unwrap (o : OptionCuTime) : Option CuTime :=
  if o.isNone then Option.none else some o.inner
/-- `From<Option<CuTime>> for OptionCuTime` (lib.rs:254-262). -/
def OptionCuTime.ofOption : Option CuTime → OptionCuTime
  | some d => ⟨d⟩
  | Option.none => ⟨⟨NONE_VALUE⟩⟩
/-- `From<OptionCuTime> for Option<CuTime>` (lib.rs:264-274). -/
def OptionCuTime.toOption (o : OptionCuTime) : Option CuTime :=
  if o.inner.ns = NONE_VALUE then Option.none else some o.inner
/-- `From<CuTime> for OptionCuTime` (lib.rs:276-281). -/
def OptionCuTime.ofTime (t : CuTime) : OptionCuTime := OptionCuTime.ofOption (some t)

/-- derived `Encode`/`Decode` of `OptionCuTime` (lib.rs:212). -/
instance : Codec OptionCuTime where
  enc o := enc o.inner
  dec := do
    let t ← (dec : Dec CuDuration)
    pure ⟨t⟩

/-- `CuTimeRange` (lib.rs:284-288). -/
structure CuTimeRange where
  start : CuTime
  stop : CuTime          -- `end` in the code
  deriving DecidableEq, Repr

instance : Codec CuTimeRange where
  enc r := enc r.start ++ enc r.stop
  dec := do
    let a ← (dec : Dec CuDuration)
    let b ← (dec : Dec CuDuration)
    pure ⟨a, b⟩

/-- `iter().min()` of the standard library: a left fold keeping the first of equal minima. -/
def minTime : List CuTime → Option CuTime
  | [] => Option.none
  | a :: l => some (l.foldl (fun m t => if t.ns < m.ns then t else m) a)
/-- `iter().max()`: a left fold keeping the last of equal maxima. -/
def maxTime : List CuTime → Option CuTime
  | [] => Option.none
  | a :: l => some (l.foldl (fun m t => if m.ns ≤ t.ns then t else m) a)

/-- `From<&[CuTime]> for CuTimeRange` (lib.rs:292-299): `none` is the `expect` panic. -/
def CuTimeRange.ofSlice (l : List CuTime) : Option CuTimeRange :=
  match minTime l, maxTime l with
  | some a, some b => some ⟨a, b⟩
  | _, _ => Option.none

/-- `PartialCuTimeRange` (lib.rs:302-306). -/
structure PartialCuTimeRange where
  start : OptionCuTime
  stop : OptionCuTime
  deriving DecidableEq, Repr

/-- derived `Default`: both `none`. -/
def PartialCuTimeRange.default : PartialCuTimeRange := ⟨.none, .none⟩

instance : Codec PartialCuTimeRange where
  enc r := enc r.start ++ enc r.stop
  dec := do
    let a ← (dec : Dec OptionCuTime)
    let b ← (dec : Dec OptionCuTime)
    pure ⟨a, b⟩

/-- `Tov` (lib.rs:310-316). -/
inductive Tov where
  | none
  | time (t : CuTime)
  | range (r : CuTimeRange)
  deriving DecidableEq, Repr

/-- `From<Option<CuDuration>> for Tov` (lib.rs:318-325). -/
def Tov.ofOption : Option CuDuration → Tov
  | some d => .time d
  | Option.none => .none

/-- derived `Encode`/`Decode`: variant index as `u32`, then the fields. -/
instance : Codec Tov where
  enc
    | .none => encVar 0
    | .time t => encVar 1 ++ enc t
    | .range r => encVar 2 ++ enc r
  dec := do
    let v ← decVar 4
    if v = 0 then pure .none
    else if v = 1 then do
      let t ← (dec : Dec CuDuration)
      pure (.time t)
    else if v = 2 then do
      let r ← (dec : Dec CuTimeRange)
      pure (.range r)
    else Dec.fail .invalidVariant

/-- A `quanta::Clock`/`Mock` counter (external crate): an atomic `u64` of nanoseconds. -/
structure Mock where
  value : UInt64
  deriving DecidableEq, Repr

/-- `RobotClockMock::increment` (lib.rs:348-352): atomic add. -/
def Mock.increment (m : Mock) (amount : UInt64) : Mock := ⟨m.value + amount⟩
/-- `RobotClockMock::decrement` (lib.rs:355-360): atomic sub. -/
def Mock.decrement (m : Mock) (amount : UInt64) : Mock := ⟨m.value - amount⟩
/-- `RobotClockMock::set_value` (lib.rs:373-382). -/
def Mock.setValue (m : Mock) (value : UInt64) : Mock :=
  if m.value < value then m.increment (value - m.value) else m.decrement (m.value - value)

/-- `RobotClock` (lib.rs:334-339): the reference instant; the counter is external. -/
structure RobotClock where
  refTime : UInt64
  deriving DecidableEq, Repr

/-- `RobotClock::now` (lib.rs:424-428).  `quanta::Instant - Instant` is
`duration_since`, which is zero when the earlier instant is later. -/
def RobotClock.now (c : RobotClock) (counter : UInt64) : CuTime :=
  ⟨UInt64.ofNat (counter.toNat - c.refTime.toNat)⟩

/-- `RobotClock::new` (lib.rs:388-395), when the counter is at `counter`. -/
def RobotClock.new (counter : UInt64) : RobotClock := ⟨counter⟩

/-- `RobotClock::from_ref_time` (lib.rs:398-405): `quanta::Instant - Duration` panics below zero, here `none`. -/
def RobotClock.fromRefTime (refTimeNs : UInt64) (counter : UInt64) : Option RobotClock :=
  if refTimeNs ≤ counter then some ⟨counter - refTimeNs⟩ else none

/-- `RobotClock::recent` (lib.rs:432-434).  `published` is the value of the counter that `quanta` last published for
the whole process (`quanta::Upkeep`, `quanta::set_recent`): 0 until something does, and nothing in the repository
does.  Of a mock it is the value of the counter itself. -/
def RobotClock.recent (c : RobotClock) (published : UInt64) : CuTime := c.now published

/-- `RobotClock::mock` (lib.rs:407-417): a counter at 0 and a clock whose reference is 0. -/
def RobotClock.mock : RobotClock × Mock := (⟨0⟩, ⟨0⟩)

/-- Operations a test or simulation can apply to a mocked clock. -/
inductive MockOp where
  | increment (a : UInt64)
  | decrement (a : UInt64)
  | setValue (v : UInt64)
  deriving DecidableEq, Repr

def Mock.apply (m : Mock) : MockOp → Mock
  | .increment a => m.increment a
  | .decrement a => m.decrement a
  | .setValue v => m.setValue v

end Clock
end Verif
