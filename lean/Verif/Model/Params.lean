import Verif.Model.Config
/-!
The parameters of tasks and monitors: core/cu29_runtime/src/config.rs:20-64, 73-195, 208-262.  The
values are those of the crate `ron`; floats are their bits.
-/
namespace Verif
namespace Params

/-- `ron::Number`. -/
inductive Number where
  | i8 (n : Int8)
  | i16 (n : Int16)
  | i32 (n : Int32)
  | i64 (n : Int64)
  | u8 (n : UInt8)
  | u16 (n : UInt16)
  | u32 (n : UInt32)
  | u64 (n : UInt64)
  | f32 (bits : UInt32)
  | f64 (bits : UInt64)
  deriving DecidableEq, Repr

/-- `Value` (config.rs:75): a `ron::Value`.  `other` stands for the kinds that no parameter can be
read as: characters, maps, options, bytes, sequences and unit. -/
inductive RonValue where
  | bool (b : Bool)
  | number (n : Number)
  | str (s : String)
  | other (text : String)
  deriving DecidableEq, Repr

/-- The values a program can set (config.rs:77-105, 164-168). -/
inductive Settable where
  | i32 (n : Int32)
  | u32 (n : UInt32)
  | u16 (n : UInt16)
  | u8 (n : UInt8)
  | f64 (bits : UInt64)
  | str (s : String)
  deriving DecidableEq, Repr

/-- The `From<…> for Value` (config.rs:77-105, 164-168). -/
def Settable.toValue : Settable → RonValue
  | .i32 n => .number (.i32 n)
  | .u32 n => .number (.u64 n.toUInt64)
  | .u16 n => .number (.u64 n.toUInt64)
  | .u8 n => .number (.u64 n.toUInt64)
  | .f64 b => .number (.f64 b)
  | .str s => .str s

/-- The integer types a parameter can be read as (config.rs:144). -/
inductive IntTy where
  | u8 | i8 | u16 | i16 | u32 | i32 | u64 | i64
  deriving DecidableEq, Repr

/-- `n as $target`: the bits of the integer that the type has room for. -/
def IntTy.cast : IntTy → Int → Int
  | .u8, n => (UInt8.ofInt n).toNat
  | .i8, n => (Int8.ofInt n).toInt
  | .u16, n => (UInt16.ofInt n).toNat
  | .i16, n => (Int16.ofInt n).toInt
  | .u32, n => (UInt32.ofInt n).toNat
  | .i32, n => (Int32.ofInt n).toInt
  | .u64, n => (UInt64.ofInt n).toNat
  | .i64, n => (Int64.ofInt n).toInt

/-- `From<Value>` for the integer types (config.rs:116-144). -/
def asInt (t : IntTy) : RonValue → Rs Int
  | .number num =>
    match num with
    | .i8 n => .ok (t.cast n.toInt)
    | .i16 n => .ok (t.cast n.toInt)
    | .i32 n => .ok (t.cast n.toInt)
    | .i64 n => .ok (t.cast n.toInt)
    | .u8 n => .ok (t.cast n.toNat)
    | .u16 n => .ok (t.cast n.toNat)
    | .u32 n => .ok (t.cast n.toNat)
    | .u64 n => .ok (t.cast n.toNat)
    | .f32 _ | .f64 _ => .panic
  | _ => .panic

/-- The conversions of the machine to `f64`. -/
structure Fpu where
  ofInt : Int → UInt64
  ofF32 : UInt32 → UInt64

/-- `From<Value> for f64` (config.rs:146-154), with `Number::into_f64` of ron. -/
def asF64 (fc : Fpu) : RonValue → Rs UInt64
  | .number num =>
    match num with
    | .i8 n => .ok (fc.ofInt n.toInt)
    | .i16 n => .ok (fc.ofInt n.toInt)
    | .i32 n => .ok (fc.ofInt n.toInt)
    | .i64 n => .ok (fc.ofInt n.toInt)
    | .u8 n => .ok (fc.ofInt n.toNat)
    | .u16 n => .ok (fc.ofInt n.toNat)
    | .u32 n => .ok (fc.ofInt n.toNat)
    | .u64 n => .ok (fc.ofInt n.toNat)
    | .f32 b => .ok (fc.ofF32 b)
    | .f64 b => .ok b
  | _ => .panic

/-- `From<Value> for bool` (config.rs:107-115). -/
def asBool : RonValue → Rs Bool
  | .bool b => .ok b
  | _ => .panic

/-- `From<Value> for String` (config.rs:170-178). -/
def asString : RonValue → Rs String
  | .str s => .ok s
  | _ => .panic

/-- `ComponentConfig` (config.rs:27-28): a `HashMap`, as the list of its entries. -/
abbrev ComponentConfig := List (String × RonValue)

/-- `ComponentConfig::set` (config.rs:59-63). -/
def ComponentConfig.set (c : ComponentConfig) (key : String) (v : Settable) : ComponentConfig :=
  (key, v.toValue) :: c.filter (fun e => e.1 != key)

/-- `ComponentConfig::get` (config.rs:52-56); `f` is the `From<Value>` of the type asked for. -/
def ComponentConfig.get {α : Type} (c : ComponentConfig) (f : RonValue → Rs α) (key : String) : Rs (Option α) :=
  match c.lookup key with
  | none => .ok none
  | some v => (f v).map' some

/-- `Node::get_param` (config.rs:247-253). -/
def getParam {α : Type} (n : Config.Node ComponentConfig) (f : RonValue → Rs α) (key : String) : Rs (Option α) :=
  match n.config with
  | none => .ok none
  | some c => ComponentConfig.get c f key

/-- `Node::set_param` (config.rs:255-261). -/
def setParam (n : Config.Node ComponentConfig) (key : String) (v : Settable) : Config.Node ComponentConfig :=
  match n.config with
  | none => { n with config := some (ComponentConfig.set [] key v) }
  | some c => { n with config := some (ComponentConfig.set c key v) }

/-- A parameter in milliseconds, as the aligner (cu_aligner/src/lib.rs:37-43) and the PID
(cu_pid/src/lib.rs:178-182) read it: a `u32`, times 10⁶ in `u64`, nanoseconds. -/
def getMillis (m : Overflow) (c : ComponentConfig) (key : String) : Rs (Option UInt64) :=
  match ComponentConfig.get c (asInt .u32) key with
  | .panic => .panic
  | .ok none => .ok none
  | .ok (some n) =>
    match m with
    | .checked => if n.toNat * 1000000 < 2 ^ 64 then .ok (some (UInt64.ofNat n.toNat * 1000000)) else .panic
    | .wrapping => .ok (some (UInt64.ofNat n.toNat * 1000000))

end Params
end Verif
