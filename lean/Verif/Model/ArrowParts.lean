import Verif.Model.ArrowArity
/-!
Model of the extraction of parts of dates and times of the patched `arrow-arith` crate:
patches/arrow-arith/src/temporal.rs.

The arrays, `unary_opt` and the conversions of numbers to dates and times (`temporal_conversions`) are those of
`arrow-array`, the calendar is that of `chrono`, both from their documentation: the proleptic Gregorian calendar, from
the year -262143 to the year 262142, without leap seconds.  A time zone is the number of seconds it is ahead of UTC at
each second of UTC.
-/
namespace Verif
namespace Arrow
variable {A O : Type}

/-- `DatePart` (temporal.rs:43-73). -/
inductive Part
  | quarter | year | month | week | day | dayOfWeekSunday0 | dayOfWeekMonday0 | dayOfYear
  | hour | minute | second | millisecond | microsecond | nanosecond
  deriving DecidableEq, Repr

/-! ### The calendar of `chrono` -/

/-- The year beginning in March, counted from 0000-03-01, and the day in it, for a day of four hundred years. -/
def marchYear (doe : Int) : Int × Int :=
  let c := min (doe / 36524) 3
  let r := doe - 36524 * c
  let q := r / 1461
  let r := r - 1461 * q
  let y := min (r / 365) 3
  (100 * c + 4 * q + y, r - 365 * y)

/-- A date: year, month from 1, day from 1. -/
structure Date where
  year : Int
  month : Int
  day : Int
  deriving DecidableEq, Repr

/-- The date of a day, counted from 1970-01-01. -/
def dateOf (n : Int) : Date :=
  let z := n + 719468
  let (yoe, doy) := marchYear (z % 146097)
  let mp := (5 * doy + 2) / 153
  let m := if mp < 10 then mp + 3 else mp - 9
  ⟨yoe + 400 * (z / 146097) + (if m ≤ 2 then 1 else 0), m, doy - (153 * mp + 2) / 5 + 1⟩

/-- `Datelike::ordinal`: from the first of March on, or before it. -/
def ordinalOf (n : Int) : Int :=
  let z := n + 719468
  let (yoe, doy) := marchYear (z % 146097)
  if 306 ≤ doy then doy - 305
  else
    let y := yoe + 400 * (z / 146097)
    doy + 60 + (if y % 4 = 0 ∧ (y % 100 ≠ 0 ∨ y % 400 = 0) then 1 else 0)

/-- `Weekday::num_days_from_monday` and `num_days_from_sunday`: the first of January 1970 was a Thursday. -/
def fromMonday (n : Int) : Int := (n + 3) % 7
def fromSunday (n : Int) : Int := (n + 4) % 7

/-- `IsoWeek::week`: that of the Thursday between Monday and Sunday. -/
def isoWeek (n : Int) : Int := (ordinalOf (n - fromMonday n + 3) - 1) / 7 + 1

/-- `NaiveDateTime`, or a `DateTime` in its zone: seconds since 1970, and nanoseconds in the second. -/
structure Moment where
  secs : Int
  nanos : Int
  deriving DecidableEq, Repr

def Moment.days (m : Moment) : Int := m.secs / 86400

/-- `DateTime::from_timestamp`: none out of the years of the calendar. -/
def fromTimestamp (secs nanos : Int) : Option Moment :=
  let y := (dateOf (secs / 86400)).year
  if -262143 ≤ y ∧ y ≤ 262142 then some ⟨secs, nanos⟩ else none

/-- `get_date_time_part_extract_fn` (temporal.rs:85-105). -/
def extract (p : Part) (m : Moment) : Int :=
  match p with
  | .quarter => ((dateOf m.days).month - 1) / 3 + 1
  | .year => (dateOf m.days).year
  | .month => (dateOf m.days).month
  | .week => isoWeek m.days
  | .day => (dateOf m.days).day
  | .dayOfWeekSunday0 => fromSunday m.days
  | .dayOfWeekMonday0 => fromMonday m.days
  | .dayOfYear => ordinalOf m.days
  | .hour => m.secs % 86400 / 3600
  | .minute => m.secs % 86400 / 60 % 60
  | .second => m.secs % 60
  | .millisecond => m.nanos / 1000000
  | .microsecond => m.nanos / 1000
  | .nanosecond => m.nanos

/-! ### Arrays -/

/-- `TimeUnit`. -/
inductive TimeUnit
  | second | millisecond | microsecond | nanosecond
  deriving DecidableEq, Repr

/-- `MILLISECONDS`, `MICROSECONDS`, `NANOSECONDS` of `temporal_conversions`: units in a second. -/
def TimeUnit.base : TimeUnit → Int
  | .second => 1
  | .millisecond => 1000
  | .microsecond => 1000000
  | .nanosecond => 1000000000

/-- `IntervalDayTime` and `IntervalMonthDayNano`. -/
structure DayTime where
  days : Int
  ms : Int
  deriving DecidableEq, Repr, Inhabited
structure MonthDayNano where
  months : Int
  days : Int
  nanos : Int
  deriving DecidableEq, Repr, Inhabited

/-- The bits of `unary_opt`: those of the array, less those for which there is no result. -/
def optBits (op : A → Option O) : List A → List Bool → List Bool
  | [], _ => []
  | _ :: _, [] => []
  | v :: vs, b :: bs => (b && (op v).isSome) :: optBits op vs bs

/-- `PrimitiveArray::unary_opt`: of the values that are not null, null if there is no result. -/
def unaryOpt (a : Prim A) (op : A → Option Int) : Prim Int :=
  let valid := match a.nulls with
    | none => List.replicate a.values.length true
    | some n => (n.bits.drop n.off).take n.len
  ⟨List.zipWith (fun v b => if b then (op v).getD 0 else 0) a.values valid, some ⟨optBits op a.values valid, 0, a.values.length⟩⟩

/-- `Int32Array::new(vec![0; self.len()].into(), self.nulls().cloned())`. -/
def zeros (a : Prim A) : Rs (Prim Int) := Prim.new (List.replicate a.values.length 0) a.nulls

/-- `try_into().ok()` from an `i64` to an `i32`, and `checked_mul`. -/
def toI32 (x : Int) : Option Int := if (⟨true, 32⟩ : Native).has x then some x else none
def mulI64 (x k : Int) : Option Int := if (⟨true, 64⟩ : Native).has (x * k) then some (x * k) else none

/-- `range_check(..).then_some(..)` of the times of a day (temporal.rs:212-331), with `base` units in a second; the
constants are `i32` or `i64`, and nothing overflows for a time of the day. -/
def timePart (base : Int) (p : Part) : Option (Int → Option Int) :=
  let check (f : Int → Int) := fun v => if 0 ≤ v ∧ v < 86400 * base then some (f v) else none
  match p with
  | .hour => some (check fun v => v / 3600 / base)
  | .minute => some (check fun v => v / 60 / base % 60)
  | .second => some (check fun v => v / base % 60)
  | .millisecond => some (check fun v => if 1000 ≤ base then v % base / (base / 1000) else 0)
  | .microsecond => some (check fun v => if 1000000 ≤ base then v % base / (base / 1000000) else v % base * (1000000 / base))
  | .nanosecond => some (check fun v => v % base * (1000000000 / base))
  | _ => none

/-- The parts of an `IntervalYearMonth` (temporal.rs:423-445). -/
def yearMonthPart : Part → Option (Int → Option Int)
  | .year => some fun v => some (v.tdiv 12)
  | .month => some fun v => some (v.tmod 12)
  | _ => none

/-- `checked_mul` of an `i32`. -/
def mulI32 (x k : Int) : Option Int := if (⟨true, 32⟩ : Native).has (x * k) then some (x * k) else none

/-- The parts of an `IntervalDayTime` (temporal.rs:447-469). -/
def dayTimePart : Part → Option (DayTime → Option Int)
  | .week => some fun d => some (d.days.tdiv 7)
  | .day => some fun d => some d.days
  | .hour => some fun d => some (d.ms.tdiv (60 * 60 * 1000))
  | .minute => some fun d => some (d.ms.tdiv (60 * 1000))
  | .second => some fun d => some (d.ms.tdiv 1000)
  | .millisecond => some fun d => some d.ms
  | .microsecond => some fun d => mulI32 d.ms 1000
  | .nanosecond => some fun d => mulI32 d.ms 1000000
  | _ => none

/-- The parts of an `IntervalMonthDayNano` (temporal.rs:471-504). -/
def monthDayNanoPart : Part → Option (MonthDayNano → Option Int)
  | .year => some fun d => some (d.months.tdiv 12)
  | .month => some fun d => some d.months
  | .week => some fun d => some (d.days.tdiv 7)
  | .day => some fun d => some d.days
  | .hour => some fun d => toI32 (d.nanos.tdiv (60 * 60 * 1000000000))
  | .minute => some fun d => toI32 (d.nanos.tdiv (60 * 1000000000))
  | .second => some fun d => toI32 (d.nanos.tdiv 1000000000)
  | .millisecond => some fun d => toI32 (d.nanos.tdiv 1000000)
  | .microsecond => some fun d => toI32 (d.nanos.tdiv 1000)
  | .nanosecond => some fun d => toI32 d.nanos
  | _ => none

/-- The parts of a `DurationSecond` (temporal.rs:506-534). -/
def durationSecondPart : Part → Option (Int → Option Int)
  | .week => some fun d => toI32 (d.tdiv (60 * 60 * 24 * 7))
  | .day => some fun d => toI32 (d.tdiv (60 * 60 * 24))
  | .hour => some fun d => toI32 (d.tdiv (60 * 60))
  | .minute => some fun d => toI32 (d.tdiv 60)
  | .second => some fun d => toI32 d
  | .millisecond => some fun d => (mulI64 d 1000).bind toI32
  | .microsecond => some fun d => (mulI64 d 1000000).bind toI32
  | .nanosecond => some fun d => (mulI64 d 1000000000).bind toI32
  | _ => none

/-- The parts of a `DurationMillisecond` (temporal.rs:536-565). -/
def durationMillisecondPart : Part → Option (Int → Option Int)
  | .week => some fun d => toI32 (d.tdiv (1000 * 60 * 60 * 24 * 7))
  | .day => some fun d => toI32 (d.tdiv (1000 * 60 * 60 * 24))
  | .hour => some fun d => toI32 (d.tdiv (1000 * 60 * 60))
  | .minute => some fun d => toI32 (d.tdiv (1000 * 60))
  | .second => some fun d => toI32 (d.tdiv 1000)
  | .millisecond => some fun d => toI32 d
  | .microsecond => some fun d => (mulI64 d 1000).bind toI32
  | .nanosecond => some fun d => (mulI64 d 1000000).bind toI32
  | _ => none

/-- The parts of a `DurationMicrosecond` (temporal.rs:567-596). -/
def durationMicrosecondPart : Part → Option (Int → Option Int)
  | .week => some fun d => toI32 (d.tdiv (1000000 * 60 * 60 * 24 * 7))
  | .day => some fun d => toI32 (d.tdiv (1000000 * 60 * 60 * 24))
  | .hour => some fun d => toI32 (d.tdiv (1000000 * 60 * 60))
  | .minute => some fun d => toI32 (d.tdiv (1000000 * 60))
  | .second => some fun d => toI32 (d.tdiv 1000000)
  | .millisecond => some fun d => toI32 (d.tdiv 1000)
  | .microsecond => some fun d => toI32 d
  | .nanosecond => some fun d => (mulI64 d 1000).bind toI32
  | _ => none

/-- The parts of a `DurationNanosecond` (temporal.rs:598-627). -/
def durationNanosecondPart : Part → Option (Int → Option Int)
  | .week => some fun d => toI32 (d.tdiv (1000000000 * 60 * 60 * 24 * 7))
  | .day => some fun d => toI32 (d.tdiv (1000000000 * 60 * 60 * 24))
  | .hour => some fun d => toI32 (d.tdiv (1000000000 * 60 * 60))
  | .minute => some fun d => toI32 (d.tdiv (1000000000 * 60))
  | .second => some fun d => toI32 (d.tdiv 1000000000)
  | .millisecond => some fun d => toI32 (d.tdiv 1000000)
  | .microsecond => some fun d => toI32 (d.tdiv 1000)
  | .nanosecond => some fun d => toI32 d
  | _ => none

def durationPart : TimeUnit → Part → Option (Int → Option Int)
  | .second => durationSecondPart
  | .millisecond => durationMillisecondPart
  | .microsecond => durationMicrosecondPart
  | .nanosecond => durationNanosecondPart

/-- `date32_to_datetime`, `date64_to_datetime` and `timestamp_*_to_datetime` of `temporal_conversions`. -/
def date32Moment (v : Int) : Option Moment := fromTimestamp (v * 86400) 0
def stampMoment (u : TimeUnit) (v : Int) : Option Moment :=
  fromTimestamp (v / u.base) (v % u.base * (1000000000 / u.base))

/-- `Utc.from_utc_datetime(&c).with_timezone(&tz)`. -/
def Moment.shift (m : Moment) (zone : Int → Int) : Moment := ⟨m.secs + zone m.secs, m.nanos⟩

/-- An array of a type `date_part` knows; the zone of an array of timestamps is a text. -/
inductive Temporal
  | date32 (a : Prim Int)
  | date64 (a : Prim Int)
  | time (u : TimeUnit) (a : Prim Int)
  | timestamp (u : TimeUnit) (zone : Option String) (a : Prim Int)
  | yearMonth (a : Prim Int)
  | dayTime (a : Prim DayTime)
  | monthDayNano (a : Prim MonthDayNano)
  | duration (u : TimeUnit) (a : Prim Int)
  deriving DecidableEq, Repr

/-- An error for a part the type does not have. -/
def byPart (a : Prim A) (f : Option (A → Option Int)) : Rs (Except ArrowErr (Prim Int)) :=
  match f with
  | none => .ok (.error .compute)
  | some f => .ok (.ok (unaryOpt a f))

/-- The parts of the second. -/
def Part.subsecond : Part → Bool
  | .millisecond | .microsecond | .nanosecond => true
  | _ => false

/-- The parts of the day. -/
def Part.time : Part → Bool
  | .hour | .minute | .second | .millisecond | .microsecond | .nanosecond => true
  | _ => false

/-- The extraction from timestamps (temporal.rs:359-421); `parse` is that of `Tz`. -/
def stampPart (parse : String → Option (Int → Int)) (u : TimeUnit) (zone : Option String) (a : Prim Int) (p : Part) :
    Rs (Except ArrowErr (Prim Int)) :=
  if u = .second ∧ p.subsecond = true then (zeros a).map' .ok
  else
    match zone with
    | none => .ok (.ok (unaryOpt a fun v => (stampMoment u v).map (extract p)))
    | some t =>
      match parse t with
      | none => .ok (.error .compute)
      | some z => .ok (.ok (unaryOpt a fun v => ((stampMoment u v).map fun m => m.shift z).map (extract p)))

/-- `date_part` (temporal.rs:135-188), on arrays that are no dictionaries; an error of the parser of zones is one of
`compute` here. -/
def datePart (parse : String → Option (Int → Int)) (t : Temporal) (p : Part) : Rs (Except ArrowErr (Prim Int)) :=
  match t with
  | .date32 a =>
    if p.time then (zeros a).map' .ok else .ok (.ok (unaryOpt a fun v => (date32Moment v).map (extract p)))
  | .date64 a => .ok (.ok (unaryOpt a fun v => (stampMoment .millisecond v).map (extract p)))
  | .time u a => byPart a (timePart u.base p)
  | .timestamp u zone a => stampPart parse u zone a p
  | .yearMonth a => byPart a (yearMonthPart p)
  | .dayTime a => byPart a (dayTimePart p)
  | .monthDayNano a => byPart a (monthDayNanoPart p)
  | .duration u a => byPart a (durationPart u p)

/-- `date_part` on a dictionary: of its values (temporal.rs:179-185). -/
def datePartDict (parse : String → Option (Int → Int)) (keys : Prim Nat) (t : Temporal) (p : Part) :
    Rs (Except ArrowErr (Dict Int)) :=
  (datePart parse t p).map' fun r => r.map fun v => ⟨keys, v⟩

end Arrow
end Verif
