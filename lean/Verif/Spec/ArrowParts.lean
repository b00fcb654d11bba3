import Verif.Model.ArrowParts
import Verif.Spec.ArrowArity
/-! Specification for C104: the calendar, and the parts of a time. -/
namespace Verif
namespace Arrow
variable {A : Type}

/-! ### The calendar -/

/-- A leap year of the Gregorian calendar. -/
def LeapYear (y : Int) : Prop := y % 4 = 0 ∧ (y % 100 ≠ 0 ∨ y % 400 = 0)
instance (y : Int) : Decidable (LeapYear y) := inferInstanceAs (Decidable (_ ∧ _))

/-- The days of a month. -/
def monthDays (y m : Int) : Int :=
  if m = 2 then (if LeapYear y then 29 else 28) else if m = 4 ∨ m = 6 ∨ m = 9 ∨ m = 11 then 30 else 31

/-- A date of the calendar. -/
def Date.Valid (d : Date) : Prop := 1 ≤ d.month ∧ d.month ≤ 12 ∧ 1 ≤ d.day ∧ d.day ≤ monthDays d.year d.month

/-- The next day. -/
def Date.next (d : Date) : Date :=
  if d.day < monthDays d.year d.month then ⟨d.year, d.month, d.day + 1⟩
  else if d.month < 12 then ⟨d.year, d.month + 1, 1⟩ else ⟨d.year + 1, 1, 1⟩

/-- The calendar: the date of each day, counted from the first of January 1970. -/
structure Calendar (cal : Int → Date) : Prop where
  valid : ∀ n, (cal n).Valid
  epoch : cal 0 = ⟨1970, 1, 1⟩
  next : ∀ n, cal (n + 1) = (cal n).next

/-- Nanoseconds in a day, and the day of a time in nanoseconds. -/
def dayNs : Int := 24 * 60 * 60 * 1000000000
def dayOf (t : Int) : Int := t / dayNs

/-- `x` is the part `p` of the time `t`, in nanoseconds since the beginning of 1970.  The first of January 1970 was a
Thursday.  A week of the year has the number of its Thursday among those of the year. -/
def PartOf (cal : Int → Date) (p : Part) (t x : Int) : Prop :=
  let n := dayOf t
  match p with
  | .year => x = (cal n).year
  | .quarter => 3 * x - 2 ≤ (cal n).month ∧ (cal n).month ≤ 3 * x
  | .month => x = (cal n).month
  | .day => x = (cal n).day
  | .dayOfYear => cal (n - (x - 1)) = ⟨(cal n).year, 1, 1⟩
  | .dayOfWeekSunday0 => 0 ≤ x ∧ x ≤ 6 ∧ (n - x) % 7 = 3
  | .dayOfWeekMonday0 => 0 ≤ x ∧ x ≤ 6 ∧ (n - x) % 7 = 4
  | .week => ∃ th, th % 7 = 0 ∧ n - 3 ≤ th ∧ th ≤ n + 3 ∧ 1 ≤ x ∧
      (cal (th - 7 * (x - 1))).year = (cal th).year ∧ (cal (th - 7 * x)).year ≠ (cal th).year
  | .hour => x = t / (60 * 60 * 1000000000) % 24
  | .minute => x = t / (60 * 1000000000) % 60
  | .second => x = t / 1000000000 % 60
  | .millisecond => x = t % 1000000000 / 1000000
  | .microsecond => x = t % 1000000000 / 1000
  | .nanosecond => x = t % 1000000000

/-- The values a part can have. -/
def Part.Range : Part → Int → Prop
  | .year, _ => True
  | .quarter, x => 1 ≤ x ∧ x ≤ 4
  | .month, x => 1 ≤ x ∧ x ≤ 12
  | .day, x => 1 ≤ x ∧ x ≤ 31
  | .dayOfYear, x => 1 ≤ x ∧ x ≤ 366
  | .dayOfWeekSunday0, x | .dayOfWeekMonday0, x => 0 ≤ x ∧ x ≤ 6
  | .week, x => 1 ≤ x ∧ x ≤ 53
  | .hour, x => 0 ≤ x ∧ x ≤ 23
  | .minute, x | .second, x => 0 ≤ x ∧ x ≤ 59
  | .millisecond, x => 0 ≤ x ∧ x ≤ 999
  | .microsecond, x => 0 ≤ x ∧ x ≤ 999999
  | .nanosecond, x => 0 ≤ x ∧ x ≤ 999999999

/-! ### What is extracted -/

/-- Nanoseconds in a unit. -/
def TimeUnit.ns : TimeUnit → Int
  | .second => 1000000000
  | .millisecond => 1000000
  | .microsecond => 1000
  | .nanosecond => 1

/-- The parts of the day, and those of the second. -/
def Part.OfDay (p : Part) : Prop :=
  p = .hour ∨ p = .minute ∨ p = .second ∨ p = .millisecond ∨ p = .microsecond ∨ p = .nanosecond
def Part.OfSecond (p : Part) : Prop := p = .millisecond ∨ p = .microsecond ∨ p = .nanosecond

/-- A time whose year is one of those of the calendar. -/
def InYears (cal : Int → Date) (t : Int) : Prop := -262143 ≤ (cal (dayOf t)).year ∧ (cal (dayOf t)).year ≤ 262142

/-- A slot of an array and that of the part extracted from it: null stays null; the part of the time in its zone, if
there is one, and null otherwise. -/
def Extracted (cal : Int → Date) (p : Part) (time : Int → Int) (there : Int → Prop) : Option Int → Option Int → Prop
  | none, y => y = none
  | some v, y => (there v → ∃ x, y = some x ∧ PartOf cal p (time v) x) ∧ (¬ there v → y = none)

/-- Nanoseconds a part of a duration counts. -/
def Part.ns : Part → Option Int
  | .week => some (7 * dayNs)
  | .day => some dayNs
  | .hour => some (60 * 60 * 1000000000)
  | .minute => some (60 * 1000000000)
  | .second => some 1000000000
  | .millisecond => some 1000000
  | .microsecond => some 1000
  | .nanosecond => some 1
  | _ => none

/-- An exact number, if it is one of 32 bits. -/
def exact32 (x : Int) : Option Int := if -2 ^ 31 ≤ x ∧ x < 2 ^ 31 then some x else none

/-- Whole units of a part in a duration, towards zero. -/
def wholeOf (ns : Int) (p : Part) : Option Int := p.ns.map fun k => ns.tdiv k

/-- Parts of an interval of months: the years, and the months left. -/
def yearMonthExact (v : Int) : Part → Option Int
  | .year => some (v.tdiv 12)
  | .month => some (v.tmod 12)
  | _ => none

/-- Parts of an interval of days and milliseconds: weeks and days are those of the days alone, the others are those
of the milliseconds alone. -/
def dayTimeExact (v : DayTime) (p : Part) : Option Int :=
  if p = .week ∨ p = .day then wholeOf (v.days * dayNs) p else wholeOf (v.ms * 1000000) p

/-- Parts of an interval of months, days and nanoseconds: the months are all of them, those in the years too. -/
def monthDayNanoExact (v : MonthDayNano) (p : Part) : Option Int :=
  if p = .year then some (v.months.tdiv 12)
  else if p = .month then some v.months
  else if p = .week ∨ p = .day then wholeOf (v.days * dayNs) p
  else wholeOf v.nanos p

/-- What is extracted from an array whose values have the exact parts given: an error if the values have no such part;
otherwise slot by slot, null if the number is none of 32 bits. -/
def Amounts (a : Prim A) (exact : A → Option Int) (supported : Prop) (r : Rs (Except ArrowErr (Prim Int))) : Prop :=
  (supported → ∃ b, r = .ok (.ok b) ∧ b.Ok ∧ b.slots = a.slots.map fun s => (s.bind exact).bind exact32) ∧
  (¬ supported → r = .ok (.error .compute))

/-- Intervals that can exist: their fields are of 32 bits. -/
def DayTime.Holds (v : DayTime) : Prop := (⟨true, 32⟩ : Native).Holds v.days ∧ (⟨true, 32⟩ : Native).Holds v.ms
def MonthDayNano.Holds (v : MonthDayNano) : Prop :=
  (⟨true, 32⟩ : Native).Holds v.months ∧ (⟨true, 32⟩ : Native).Holds v.days ∧ (⟨true, 64⟩ : Native).Holds v.nanos

end Arrow
end Verif
