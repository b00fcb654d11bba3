import Verif.Model.ArrowTime
import Verif.Spec.ArrowParts
/-! Specification for C105: which sums and differences of dates, times, durations and intervals there are. -/
namespace Verif
namespace Arrow

/-- The type of an array. -/
inductive Kind
  | date32 | date64
  | time (u : TimeUnit)
  | timestamp (u : TimeUnit) (zone : Option String)
  | yearMonth | dayTime | monthDayNano
  | duration (u : TimeUnit)
  deriving DecidableEq, Repr

/-- An element. -/
inductive Val
  | num (x : Int)
  | dayTime (v : DayTime)
  | monthDayNano (v : MonthDayNano)
  deriving DecidableEq, Repr

def Temporal.kind : Temporal → Kind
  | .date32 _ => .date32
  | .date64 _ => .date64
  | .time u _ => .time u
  | .timestamp u z _ => .timestamp u z
  | .yearMonth _ => .yearMonth
  | .dayTime _ => .dayTime
  | .monthDayNano _ => .monthDayNano
  | .duration u _ => .duration u

/-- What the slots of an array hold. -/
def Temporal.slots : Temporal → List (Option Val)
  | .date32 a | .date64 a | .time _ a | .timestamp _ _ a | .yearMonth a | .duration _ a => a.slots.map (Option.map .num)
  | .dayTime a => a.slots.map (Option.map .dayTime)
  | .monthDayNano a => a.slots.map (Option.map .monthDayNano)

/-- What lies in an array, under nulls too. -/
def Temporal.stored : Temporal → List Val
  | .date32 a | .date64 a | .time _ a | .timestamp _ _ a | .yearMonth a | .duration _ a => a.values.map .num
  | .dayTime a => a.values.map .dayTime
  | .monthDayNano a => a.values.map .monthDayNano

/-- An array that can exist, whose dates in days are of 32 bits. -/
def Temporal.Ok : Temporal → Prop
  | .date32 a => a.Ok ∧ ∀ v, some v ∈ a.slots → -2 ^ 31 ≤ v ∧ v < 2 ^ 31
  | .date64 a | .time _ a | .timestamp _ _ a | .yearMonth a | .duration _ a => a.Ok
  | .dayTime a => a.Ok
  | .monthDayNano a => a.Ok

/-- An array, or a single value, which has one slot. -/
def ScalarOk (t : Temporal) (s : Bool) : Prop := t.Ok ∧ (s = true → t.slots.length = 1)

/-- What an operation does, if it adds or subtracts. -/
def signOf : Op → Option Sign
  | .add | .addWrapping => some .plus
  | .sub | .subWrapping => some .minus
  | .mul | .mulWrapping | .div | .rem => none

def Sign.exact : Sign → Int → Int → Int
  | .plus, x, y => x + y
  | .minus, x, y => x - y

/-- A number of so many bits, or an overflow. -/
def fit (bits : Nat) (x : Int) : Except ArrowErr Int :=
  if -2 ^ (bits - 1) ≤ x ∧ x < 2 ^ (bits - 1) then .ok x else .error .overflow

/-- Sums and differences of numbers, and of intervals field by field. -/
def numbers (bits : Nat) (s : Sign) : Val → Val → Except ArrowErr Val
  | .num x, .num y => (fit bits (s.exact x y)).map .num
  | _, _ => .error .invalid
def fields (s : Sign) : Val → Val → Except ArrowErr Val
  | .dayTime x, .dayTime y => do
    let d ← fit 32 (s.exact x.days y.days)
    let m ← fit 32 (s.exact x.ms y.ms)
    .ok (.dayTime ⟨d, m⟩)
  | .monthDayNano x, .monthDayNano y => do
    let m ← fit 32 (s.exact x.months y.months)
    let d ← fit 32 (s.exact x.days y.days)
    let n ← fit 64 (s.exact x.nanos y.nanos)
    .ok (.monthDayNano ⟨m, d, n⟩)
  | _, _ => .error .invalid

/-- The interval of an element. -/
def Val.delta : Val → Delta
  | .num v => .yearMonth v
  | .dayTime v => .dayTime v
  | .monthDayNano v => .monthDayNano v

/-- A timestamp moved by an interval, or a date. -/
def movedStamp (sh : Moves) (s : Sign) (u : TimeUnit) (zone : Int → Int) : Val → Val → Except ArrowErr Val
  | .num x, d =>
    match sh.stamp s u zone x d.delta with
    | none => .error .compute
    | some v => .ok (.num v)
  | _, _ => .error .invalid
def movedDate (shift : Sign → Int → Delta → Rs Int) (s : Sign) : Val → Val → Except ArrowErr Val
  | .num x, d =>
    match shift s x d.delta with
    | .panic => .error .invalid
    | .ok v => .ok (.num v)
  | _, _ => .error .invalid

/-- The seconds between two days. -/
def secondsBetween : Val → Val → Except ArrowErr Val
  | .num x, .num y => .ok (.num ((x - y) * 86400))
  | _, _ => .error .invalid

/-- What comes of an operation on arrays of two types: it is refused, or done slot by slot, with results of a type. -/
inductive Outcome
  | refused (e : ArrowErr)
  | each (k : Kind) (f : Val → Val → Except ArrowErr Val)

def Kind.interval : Kind → Bool
  | .yearMonth | .dayTime | .monthDayNano => true
  | _ => false

/-- With a date or a timestamp on the left. -/
def pointOutcome (sh : Moves) (parse : String → Option (Int → Int)) (s : Option Sign) (l r : Kind) : Outcome :=
  match l with
  | .timestamp u zone =>
    match parse (zone.getD "+00:00") with
    | none => .refused .compute
    | some z =>
      match s, r with
      | some .minus, .timestamp u' _ => if u' = u then .each (.duration u) (numbers 64 .minus) else .refused .invalid
      | some s, .duration u' => if u' = u then .each (.timestamp u zone) (numbers 64 s) else .refused .invalid
      | some s, r => if r.interval then .each (.timestamp u zone) (movedStamp sh s u z) else .refused .invalid
      | none, _ => .refused .invalid
  | .date32 =>
    match s, r with
    | some .minus, .date32 => .each (.duration .second) secondsBetween
    | some s, r => if r.interval then .each .date32 (movedDate sh.date32 s) else .refused .invalid
    | none, _ => .refused .invalid
  | .date64 =>
    match s, r with
    | some .minus, .date64 => .each (.duration .millisecond) (numbers 64 .minus)
    | some s, r => if r.interval then .each .date64 (movedDate sh.date64 s) else .refused .invalid
    | none, _ => .refused .invalid
  | _ => .refused .invalid

def Outcome.flip : Outcome → Outcome
  | .refused e => .refused e
  | .each k f => .each k fun x y => f y x

def Kind.point : Kind → Bool
  | .date32 | .date64 | .timestamp _ _ => true
  | _ => false

/-- The whole table: durations of the same unit and intervals of the same kind have sums and differences; a duration or
an interval can be added to a date or a timestamp from the left as well. -/
def outcome (sh : Moves) (parse : String → Option (Int → Int)) (op : Op) (l r : Kind) : Outcome :=
  if l.point then pointOutcome sh parse (signOf op) l r
  else
    match signOf op, l, r with
    | some s, .duration u, .duration u' => if u = u' then .each (.duration u) (numbers 64 s) else .refused .invalid
    | some s, .yearMonth, .yearMonth => .each .yearMonth (numbers 32 s)
    | some s, .dayTime, .dayTime => .each .dayTime (fields s)
    | some s, .monthDayNano, .monthDayNano => .each .monthDayNano (fields s)
    | some .plus, .time _, _ => .refused .invalid
    | some .plus, l, r => if r.point then (pointOutcome sh parse (some .plus) r l).flip else .refused .invalid
    | _, _, _ => .refused .invalid

/-- A single value as often as the other operand has slots. -/
def spreadOut (scalar : Bool) (slots : List (Option Val)) (n : Nat) : List (Option Val) :=
  if scalar then List.replicate n (slots.headD none) else slots

/-- What the slots of the result are: an error if two arrays, or two single values, differ in length. -/
def want (l : List (Option Val)) (ls : Bool) (r : List (Option Val)) (rs : Bool) (f : Val → Val → Except ArrowErr Val) :
    Except ArrowErr (List (Option Val)) :=
  if ls = rs ∧ l.length ≠ r.length then .error .compute
  else
    let n := if ls then r.length else l.length
    collect (List.zipWith (strictTry₂ f) (spreadOut ls l n) (spreadOut rs r n))

/-- The result is an array of a type with the slots wanted, or the error. -/
def Gives (r : Rs (Except ArrowErr Temporal)) (k : Kind) (w : Except ArrowErr (List (Option Val))) : Prop :=
  match w with
  | .error e => r = .ok (.error e)
  | .ok s => ∃ t, r = .ok (.ok t) ∧ t.kind = k ∧ t.slots = s

/-- What an operation gives is what comes of it. -/
def Does (m : Rs (Except ArrowErr Temporal)) (l : List (Option Val)) (ls : Bool) (r : List (Option Val)) (rs : Bool) :
    Outcome → Prop
  | .refused e => m = .ok (.error e)
  | .each k f => Gives m k (want l ls r rs f)

/-- No date lying in an array, under a null or not, panics when moved by an interval lying in the other. -/
def Calm (sh : Moves) (l r : Temporal) : Prop :=
  (l.kind = .date32 → ∀ s x d, .num x ∈ l.stored → d ∈ r.stored → sh.date32 s x d.delta ≠ .panic) ∧
  (l.kind = .date64 → ∀ s x d, .num x ∈ l.stored → d ∈ r.stored → sh.date64 s x d.delta ≠ .panic)

/-- The negative of an element. -/
def negated : Kind → Option (Val → Except ArrowErr Val)
  | .duration _ => some fun v => numbers 64 .minus (.num 0) v
  | .yearMonth => some fun v => numbers 32 .minus (.num 0) v
  | .dayTime => some fun v => fields .minus (.dayTime ⟨0, 0⟩) v
  | .monthDayNano => some fun v => fields .minus (.monthDayNano ⟨0, 0, 0⟩) v
  | _ => none

/-- The operation on two floats. -/
def Floats.op {F : Type} (fl : Floats F) : Op → F → F → F
  | .add | .addWrapping => fl.add
  | .sub | .subWrapping => fl.sub
  | .mul | .mulWrapping => fl.mul
  | .div => fl.div
  | .rem => fl.rem

end Arrow
end Verif
