import Verif.Model.Export
/-!
The Python view of structured logs: core/cu29_export/src/lib.rs:152-310, with the objects of Python it makes
(the external crate `pyo3` and the Python interpreter).
-/
namespace Verif
namespace PyView
open Bincode

/-! ### Values -/

/-- Objects of Python.  A `dict` is its entries in the order of insertion. -/
inductive Py where
  | none
  | bool (b : Bool)
  | int (i : Int)
  | float (x : F64)
  | str (s : String)
  | bytes (b : Bytes)
  | list (l : List Py)
  | dict (d : List (Py × Py))

/-- The floating point operations used: the conversion of an `f32`, `==` of Python between floats, and between
a float and an integer. -/
structure Floats where
  widen : F32 → F64
  eq : F64 → F64 → Bool
  eqInt : F64 → Int → Bool

/-- Python: what can be the key of a `dict`. -/
def Py.hashable : Py → Bool
  | .list _ | .dict _ => false
  | _ => true

/-- The number an object is for `==`, if it is an integer or a boolean. -/
def Py.intOf : Py → Option Int
  | .bool b => some (if b then 1 else 0)
  | .int i => some i
  | _ => Option.none

/-- `==` of Python on keys: numbers are compared by value whatever their type. -/
def Py.keyEq (f : Floats) (a b : Py) : Bool :=
  match a, b with
  | .none, .none => true
  | .str x, .str y => x == y
  | .bytes x, .bytes y => x == y
  | .float x, .float y => f.eq x y
  | .float x, b => match b.intOf with | some i => f.eqInt x i | Option.none => false
  | a, .float y => match a.intOf with | some i => f.eqInt y i | Option.none => false
  | a, b => match a.intOf, b.intOf with | some i, some j => i == j | _, _ => false

/-- `d[k] = v` for a key that can be hashed: an equal key keeps its place and gets the value. -/
def insertPy (f : Floats) (k v : Py) : List (Py × Py) → List (Py × Py)
  | [] => [(k, v)]
  | (k', v') :: d => if k'.keyEq f k then (k', v) :: d else (k', v') :: insertPy f k v d

/-- `for (k, v) in entries { dict.set_item(k, v).unwrap() }` (lib.rs:283-285): a key that cannot be hashed is a
`TypeError`, so a panic. -/
def setItems (f : Floats) (d : List (Py × Py)) : List (Py × Py) → Rs (List (Py × Py))
  | [] => .ok d
  | (k, v) :: l => if k.hashable then setItems f (insertPy f k v d) l else .panic

mutual
/-- `value_to_py` (lib.rs:264-309). -/
def toPy (f : Floats) : Value → Rs Py
  | .str s => .ok (.str s)
  | .u64 n => .ok (.int n.toNat)
  | .i64 n => .ok (.int n.toInt)
  | .f64 x => .ok (.float x)
  | .bool b => .ok (.bool b)
  | .time t => .ok (.int t.toNat)
  | .bytes b => .ok (.bytes b)
  | .char c => .ok (.str (String.singleton c))
  | .i8 n => .ok (.int n.toInt)
  | .u8 n => .ok (.int n.toNat)
  | .i16 n => .ok (.int n.toInt)
  | .u16 n => .ok (.int n.toNat)
  | .i32 n => .ok (.int n.toInt)
  | .u32 n => .ok (.int n.toNat)
  | .map m =>
    match toPyEntries f m with
    | .panic => .panic
    | .ok l => (setItems f [] l).map' .dict
  | .f32 x => .ok (.float (f.widen x))
  | .opt Option.none => .ok .none
  | .opt (some v) => toPy f v
  | .unit => .ok .none
  | .newtype v => toPy f v
  | .seq l => (toPyList f l).map' .list
/-- The elements of a sequence. -/
def toPyList (f : Floats) : List Value → Rs (List Py)
  | [] => .ok []
  | v :: l =>
    match toPy f v, toPyList f l with
    | .ok p, .ok ps => .ok (p :: ps)
    | _, _ => .panic
/-- The keys and values of a map, in its order. -/
def toPyEntries (f : Floats) : List (Value × Value) → Rs (List (Py × Py))
  | [] => .ok []
  | (k, v) :: l =>
    match toPy f k, toPy f v, toPyEntries f l with
    | .ok p, .ok q, .ok ps => .ok ((p, q) :: ps)
    | _, _, _ => .panic
end

/-! ### Times -/

/-- A `timedelta`, which Python does not normalize here (the last argument of `PyDelta::new` is false). -/
structure Delta where
  days : Int32
  seconds : Int32
  micros : Int32
  deriving DecidableEq, Repr

/-- `timedelta / timedelta(microseconds=1)`: its length. -/
def Delta.total (d : Delta) : Int := (d.days.toInt * 86400 + d.seconds.toInt) * 1000000 + d.micros.toInt

/-- `<` of two `timedelta`s: days, then seconds, then microseconds. -/
def Delta.lt (a b : Delta) : Bool :=
  a.days < b.days || (a.days == b.days && (a.seconds < b.seconds || (a.seconds == b.seconds && a.micros < b.micros)))

/-- `ts` (lib.rs:223-232). -/
def ts (ns : UInt64) : Delta :=
  ⟨(ns / 86400000000000).toUInt32.toInt32, (ns / 1000000000).toUInt32.toInt32,
    ((ns % 1000000000) / 1000).toUInt32.toInt32⟩

/-! ### The iterator -/

/-- What a call of `__next__` gives. -/
inductive Next where
  /-- an entry; the bytes left -/
  | entry (e : LogEntry) (rest : Bytes)
  /-- `StopIteration`; the bytes left, if the end was an entry -/
  | stop (rest : Option Bytes)
  /-- an `IOError` -/
  | raised

/-- `__next__` (lib.rs:176-193). -/
def next (bs : Bytes) : Next :=
  match (dec : Dec LogEntry) bs with
  | .ok (e, rest) => if e.msgIndex = 0 then .stop (some rest) else .entry e rest
  | .error .unexpectedEnd => .stop Option.none
  | .error _ => .raised

/-- `for entry in iterator:` the entries, and whether it ended without exception.  Each entry takes a byte. -/
def forLoop : Nat → Bytes → List LogEntry × Bool
  | 0, _ => ([], false)
  | fuel + 1, bs =>
    match next bs with
    | .entry e rest => ((e :: (forLoop fuel rest).1), (forLoop fuel rest).2)
    | .stop _ => ([], true)
    | .raised => ([], false)

def entries (bs : Bytes) : List LogEntry × Bool := forLoop (bs.length + 1) bs

end PyView
end Verif
