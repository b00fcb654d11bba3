import Verif.Model.ArrowParts
/-!
Model of the arithmetic on dates, timestamps, durations and intervals of the patched `arrow-arith` crate:
patches/arrow-arith/src/numeric.rs.

What it takes from `arrow-array` to move a date or a timestamp by an interval (`add_year_months`, `add_day_time`,
`add_month_day_nano` and the functions that subtract) is a parameter: for timestamps it can have no result, for dates it
can panic.  Errors of the parser of zones are of the kind `compute` here.
-/
namespace Verif
namespace Arrow
variable {A B O : Type}

/-- The patterns `Op::Add | Op::AddWrapping` and `Op::Sub | Op::SubWrapping`. -/
inductive Sign
  | plus
  | minus
  deriving DecidableEq, Repr

def Op.sign : Op → Option Sign
  | .add | .addWrapping => some .plus
  | .sub | .subWrapping => some .minus
  | _ => none

/-- An element of an array of intervals. -/
inductive Delta
  | yearMonth (v : Int)
  | dayTime (v : DayTime)
  | monthDayNano (v : MonthDayNano)
  deriving DecidableEq, Repr

/-- `TimestampOp` and `DateOp` (numeric.rs:341-388, 504-545). -/
structure Moves where
  stamp : Sign → TimeUnit → (Int → Int) → Int → Delta → Option Int
  date32 : Sign → Int → Delta → Rs Int
  date64 : Sign → Int → Delta → Rs Int

def i64 : Native := ⟨true, 64⟩
def i32 : Native := ⟨true, 32⟩

/-- `Ok(Arc::new(array))`, as an array of the type. -/
def asArray (K : Prim O → Temporal) (r : Rs (Except ArrowErr (Prim O))) : Rs (Except ArrowErr Temporal) :=
  r.map' fun e => e.map K

/-- `InvalidArgumentError`. -/
def refuse : Rs (Except ArrowErr Temporal) := .ok (.error .invalid)

/-- `.ok_or(ArrowError::ComputeError(..))`. -/
def orCompute (v : Option Int) : Except ArrowErr Int :=
  match v with
  | none => .error .compute
  | some v => .ok v

/-- `timestamp_op` (numeric.rs:391-502). -/
def timestampOp (sh : Moves) (parse : String → Option (Int → Int)) (op : Op) (u : TimeUnit) (tz : Option String)
    (l : Prim Int) (ls : Bool) (r : Temporal) (rs : Bool) : Rs (Except ArrowErr Temporal) :=
  match parse (tz.getD "+00:00") with
  | none => .ok (.error .compute)
  | some z =>
    match op.sign, r with
    | some .minus, .timestamp u' _ b =>
      if u' = u then asArray (.duration u) (tryOpMacro 0 ⟨l, ls⟩ ⟨b, rs⟩ fun x y => i64.check (x - y)) else refuse
    | some .plus, .duration u' b =>
      if u' = u then asArray (.timestamp u tz) (tryOpMacro 0 ⟨l, ls⟩ ⟨b, rs⟩ fun x y => i64.check (x + y)) else refuse
    | some .minus, .duration u' b =>
      if u' = u then asArray (.timestamp u tz) (tryOpMacro 0 ⟨l, ls⟩ ⟨b, rs⟩ fun x y => i64.check (x - y)) else refuse
    | some s, .yearMonth b =>
      asArray (.timestamp u tz) (tryOpMacro 0 ⟨l, ls⟩ ⟨b, rs⟩ fun x y => orCompute (sh.stamp s u z x (.yearMonth y)))
    | some s, .dayTime b =>
      asArray (.timestamp u tz) (tryOpMacro 0 ⟨l, ls⟩ ⟨b, rs⟩ fun x y => orCompute (sh.stamp s u z x (.dayTime y)))
    | some s, .monthDayNano b =>
      asArray (.timestamp u tz) (tryOpMacro 0 ⟨l, ls⟩ ⟨b, rs⟩ fun x y => orCompute (sh.stamp s u z x (.monthDayNano y)))
    | _, _ => refuse

/-- A sum or difference, checked. -/
def Sign.check (s : Sign) (N : Native) (x y : Int) : Except ArrowErr Int :=
  match s with
  | .plus => N.check (x + y)
  | .minus => N.check (x - y)

/-- `IntervalOp` of `IntervalDayTimeType` (numeric.rs:565-581). -/
def Sign.dayTime (s : Sign) (l r : DayTime) : Except ArrowErr DayTime :=
  match s.check i32 l.days r.days with
  | .error e => .error e
  | .ok d =>
    match s.check i32 l.ms r.ms with
    | .error e => .error e
    | .ok m => .ok ⟨d, m⟩

/-- `IntervalOp` of `IntervalMonthDayNanoType` (numeric.rs:583-601). -/
def Sign.monthDayNano (s : Sign) (l r : MonthDayNano) : Except ArrowErr MonthDayNano :=
  match s.check i32 l.months r.months with
  | .error e => .error e
  | .ok m =>
    match s.check i32 l.days r.days with
    | .error e => .error e
    | .ok d =>
      match s.check i64 l.nanos r.nanos with
      | .error e => .error e
      | .ok n => .ok ⟨m, d, n⟩

/-- `interval_op` (numeric.rs:604-622) and `duration_op` (numeric.rs:624-642): `f` adds or subtracts. -/
def signedOp [Inhabited A] (zero : A) (K : Prim A → Temporal) (op : Op) (f : Sign → A → A → Except ArrowErr A)
    (l : Prim A) (ls : Bool) (r : Prim A) (rs : Bool) : Rs (Except ArrowErr Temporal) :=
  match op.sign with
  | some s => asArray K (tryOpMacro zero ⟨l, ls⟩ ⟨r, rs⟩ (f s))
  | none => refuse

/-- All the results, if none of them panics. -/
def force : List (Rs O) → Rs (List O)
  | [] => .ok []
  | .panic :: _ => .panic
  | .ok v :: l => (force l).map' (v :: ·)

/-- `op_ref!` (numeric.rs:266-271) of an operation that can panic. -/
def opForced (zero : O) (l : Datum A) (r : Datum B) (op : A → B → Rs O) : Rs (Except ArrowErr (Prim O)) :=
  match opMacro (.ok zero) l r op with
  | .panic => .panic
  | .ok (.error e) => .ok (.error e)
  | .ok (.ok c) => (force c.values).map' fun v => .ok ⟨v, c.nulls⟩

/-- The part of `date_op` with intervals (numeric.rs:680-714). -/
def dateShift (shift : Sign → Int → Delta → Rs Int) (K : Prim Int → Temporal) (op : Op) (l : Prim Int) (ls : Bool)
    (r : Temporal) (rs : Bool) : Rs (Except ArrowErr Temporal) :=
  match op.sign, r with
  | some s, .yearMonth b => asArray K (opForced 0 ⟨l, ls⟩ ⟨b, rs⟩ fun x y => shift s x (.yearMonth y))
  | some s, .dayTime b => asArray K (opForced 0 ⟨l, ls⟩ ⟨b, rs⟩ fun x y => shift s x (.dayTime y))
  | some s, .monthDayNano b => asArray K (opForced 0 ⟨l, ls⟩ ⟨b, rs⟩ fun x y => shift s x (.monthDayNano y))
  | _, _ => refuse

/-- `date_op` (numeric.rs:645-715). -/
def date32Op (sh : Moves) (op : Op) (l : Prim Int) (ls : Bool) (r : Temporal) (rs : Bool) :
    Rs (Except ArrowErr Temporal) :=
  match op.sign, r with
  | some .minus, .date32 b => asArray (.duration .second) (opMacro 0 ⟨l, ls⟩ ⟨b, rs⟩ fun x y => i64.wrap ((x - y) * 86400))
  | _, _ => dateShift sh.date32 .date32 op l ls r rs
def date64Op (sh : Moves) (op : Op) (l : Prim Int) (ls : Bool) (r : Temporal) (rs : Bool) :
    Rs (Except ArrowErr Temporal) :=
  match op.sign, r with
  | some .minus, .date64 b => asArray (.duration .millisecond) (tryOpMacro 0 ⟨l, ls⟩ ⟨b, rs⟩ fun x y => i64.check (x - y))
  | _, _ => dateShift sh.date64 .date64 op l ls r rs

/-- `arithmetic_op` (numeric.rs:204-246), for a date or a timestamp on the left. -/
def pointOp (sh : Moves) (parse : String → Option (Int → Int)) (op : Op) (l : Temporal) (ls : Bool) (r : Temporal)
    (rs : Bool) : Rs (Except ArrowErr Temporal) :=
  match l with
  | .timestamp u tz a => timestampOp sh parse op u tz a ls r rs
  | .date32 a => date32Op sh op a ls r rs
  | .date64 a => date64Op sh op a ls r rs
  | _ => refuse

/-- `Date32 | Date64 | Timestamp(_, _)` (numeric.rs:238), `Duration(_) | Interval(_)`. -/
def Temporal.isPoint : Temporal → Bool
  | .date32 _ | .date64 _ | .timestamp _ _ _ => true
  | _ => false
def Temporal.isSpan : Temporal → Bool
  | .duration _ _ | .yearMonth _ | .dayTime _ | .monthDayNano _ => true
  | _ => false

/-- `Op::commutative` (numeric.rs:199-201). -/
def Op.commutative : Op → Bool
  | .add | .addWrapping => true
  | _ => false

/-- `arithmetic_op` (numeric.rs:204-246) on dates, times, durations and intervals. -/
def timeOp (sh : Moves) (parse : String → Option (Int → Int)) (op : Op) (l : Temporal) (ls : Bool) (r : Temporal)
    (rs : Bool) : Rs (Except ArrowErr Temporal) :=
  if l.isPoint then pointOp sh parse op l ls r rs
  else
    match l, r with
    | .duration u a, .duration u' b =>
      if u = u' then signedOp 0 (.duration u) op (fun s => s.check i64) a ls b rs else refuse
    | .yearMonth a, .yearMonth b => signedOp 0 .yearMonth op (fun s => s.check i32) a ls b rs
    | .dayTime a, .dayTime b => signedOp ⟨0, 0⟩ .dayTime op Sign.dayTime a ls b rs
    | .monthDayNano a, .monthDayNano b => signedOp ⟨0, 0, 0⟩ .monthDayNano op Sign.monthDayNano a ls b rs
    | l, r => if l.isSpan ∧ r.isPoint ∧ op.commutative = true then pointOp sh parse op r rs l ls else refuse

/-- The arithmetic of a type of floats: `add_wrapping`, `sub_wrapping`, `mul_wrapping`, `div_wrapping`, `mod_wrapping`
and `neg_wrapping` of `ArrowNativeTypeOp`. -/
structure Floats (F : Type) where
  zero : F
  add : F → F → F
  sub : F → F → F
  mul : F → F → F
  div : F → F → F
  rem : F → F → F
  neg : F → F

/-- `float_op` (numeric.rs:322-338). -/
def floatOp {F : Type} (fl : Floats F) (op : Op) (l r : Datum F) : Rs (Except ArrowErr (Prim F)) :=
  match op with
  | .addWrapping | .add => opMacro fl.zero l r fl.add
  | .subWrapping | .sub => opMacro fl.zero l r fl.sub
  | .mulWrapping | .mul => opMacro fl.zero l r fl.mul
  | .div => opMacro fl.zero l r fl.div
  | .rem => opMacro fl.zero l r fl.rem

/-- `neg` of floats (numeric.rs:88-95, 109-111). -/
def floatNeg {F : Type} (fl : Floats F) (a : Prim F) : Rs (Except ArrowErr (Prim F)) := (unary a fl.neg).map' .ok

/-- `neg` of durations and intervals (numeric.rs:126-154), `neg_wrapping` of them (numeric.rs:163-168). -/
def timeNeg (t : Temporal) : Rs (Except ArrowErr Temporal) :=
  match t with
  | .duration u a => asArray (.duration u) (tryUnary 0 a fun x => i64.check (-x))
  | .yearMonth a => asArray .yearMonth (tryUnary 0 a fun x => i32.check (-x))
  | .dayTime a => asArray .dayTime (tryUnary ⟨0, 0⟩ a fun x => Sign.minus.dayTime ⟨0, 0⟩ x)
  | .monthDayNano a => asArray .monthDayNano (tryUnary ⟨0, 0, 0⟩ a fun x => Sign.minus.monthDayNano ⟨0, 0, 0⟩ x)
  | _ => refuse

end Arrow
end Verif
