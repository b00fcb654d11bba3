import Verif.Model.Value
/-!
Model of the conversion of Rust values to dynamic values and back: core/cu29_value/src/ser.rs and
de.rs.  The serde crate and its derive macros are external: a Rust value is the tree of calls its
`Serialize` makes, a type is the calls its `Deserialize` makes and the visitors it passes.
-/
namespace Verif
namespace Serde
open Bincode

/-! ### Rust values and types -/

/-- The types without parts. -/
inductive PrimTy where
  | bool | u8 | u16 | u32 | u64 | i8 | i16 | i32 | i64 | f32 | f64 | char | str | bytes | unit
  deriving DecidableEq, Repr

/-- Their values.  `bytes` is what calls `serialize_bytes`; `unit` is `()` and unit structs. -/
inductive Prim where
  | bool (v : Bool)
  | u8 (v : UInt8)
  | u16 (v : UInt16)
  | u32 (v : UInt32)
  | u64 (v : UInt64)
  | i8 (v : Int8)
  | i16 (v : Int16)
  | i32 (v : Int32)
  | i64 (v : Int64)
  | f32 (v : F32)
  | f64 (v : F64)
  | char (v : Char)
  | str (v : String)
  | bytes (v : Bytes)
  | unit
  deriving DecidableEq

/-- The four forms of a variant of an enum. -/
inductive Form where
  | unit | newtype | tuple | struct
  deriving DecidableEq, Repr

/-- A Rust value, as its `Serialize` presents it.  A map is the list of its entries in the order it
is iterated; a tuple struct is a tuple; the content of a variant is `unit`, any value, a tuple or a
struct according to its form. -/
inductive Data where
  | prim (p : Prim)
  | none
  | some (d : Data)
  | newtype (name : String) (d : Data)
  | seq (l : List Data)
  | tuple (l : List Data)
  | map (l : List (Data × Data))
  | struct (l : List (String × Data))
  | variant (name : String) (form : Form) (d : Data)

/-- A Rust type, as its `Deserialize` presents it. -/
inductive Ty where
  | prim (p : PrimTy)
  | opt (t : Ty)
  | newtype (name : String) (t : Ty)
  | seq (t : Ty)
  | tuple (l : List Ty)
  | map (k v : Ty)
  | struct (l : List (String × Ty))
  | enum (l : List (String × Form × Ty))

/-! ### To a dynamic value -/

/-- `serialize_bool` to `serialize_bytes`, `serialize_unit` (ser.rs:89-163). -/
def Prim.toValue : Prim → Value
  | .bool v => .bool v
  | .u8 v => .u8 v
  | .u16 v => .u16 v
  | .u32 v => .u32 v
  | .u64 v => .u64 v
  | .i8 v => .i8 v
  | .i16 v => .i16 v
  | .i32 v => .i32 v
  | .i64 v => .i64 v
  | .f32 v => .f32 v
  | .f64 v => .f64 v
  | .char v => .char v
  | .str v => .str v
  | .bytes v => .bytes v
  | .unit => .unit

/-- `serialize_newtype_struct` (ser.rs:176-193): the two clock types are times. -/
def newtypeValue (name : String) (v : Value) : Value :=
  if name = "CuDuration" ∨ name = "CuTime" then
    match v with
    | .u64 n => .time n
    | v => v
  else .newtype v

/-- Insertion of entries one after the other in a `BTreeMap`. -/
def insertAll (m : List (Value × Value)) (l : List (Value × Value)) : List (Value × Value) :=
  l.foldl (fun m e => Value.insertKey e.1 e.2 m) m

/-- `serialize_unit_variant` (ser.rs:167-174), the other forms (ser.rs:195-207, 333-351, 402-432). -/
def variantValue (name : String) (form : Form) (v : Value) : Value :=
  match form with
  | .unit => .str name
  | _ => .map [(.str name, v)]

mutual
/-- `to_value` (ser.rs:73-75) with the `Serializer` (ser.rs:79-432). -/
def Data.toValue : Data → Value
  | .prim p => p.toValue
  | .none => .opt none
  | .some d => .opt (some d.toValue)
  | .newtype name d => newtypeValue name d.toValue
  | .seq l => .seq (toValues l)
  | .tuple l => .seq (toValues l)
  | .map l => .map (insertAll [] (toEntries l))
  | .struct l => .map (insertAll [] (toFields l))
  | .variant name form d => variantValue name form d.toValue

/-- The elements of `SerializeSeq`, `SerializeTuple` and `SerializeTupleStruct` (ser.rs:268-331). -/
def toValues : List Data → List Value
  | [] => []
  | d :: l => d.toValue :: toValues l

/-- The entries of `SerializeMap` (ser.rs:353-381). -/
def toEntries : List (Data × Data) → List (Value × Value)
  | [] => []
  | (k, v) :: l => (k.toValue, v.toValue) :: toEntries l

/-- The entries of `SerializeStruct` and `SerializeStructVariant` (ser.rs:383-432). -/
def toFields : List (String × Data) → List (Value × Value)
  | [] => []
  | (n, v) :: l => (.str n, v.toValue) :: toFields l
end

/-! ### Back to a Rust type

`none` is an error.  The conversions between numbers the visitors of the `f32` and `f64` types make
are a parameter. -/

/-- The conversions to floating point numbers (`as` of the Rust language). -/
structure Floats where
  ofInt32 : Int → F32
  ofInt64 : Int → F64
  narrow : F64 → F32
  widen : F32 → F64

/-- The integer a value is passed to a visitor as (de.rs:358-366, 381-384). -/
def intOf : Value → Option Int
  | .u8 v => some v.toNat
  | .u16 v => some v.toNat
  | .u32 v => some v.toNat
  | .u64 v => some v.toNat
  | .i8 v => some v.toInt
  | .i16 v => some v.toInt
  | .i32 v => some v.toInt
  | .i64 v => some v.toInt
  | .time v => some v.toNat
  | _ => none

/-- An integer type takes any integer it can hold (visitors of serde). -/
def intIn (lo hi : Int) (v : Value) : Option Int :=
  match intOf v with
  | some n => if lo ≤ n ∧ n < hi then some n else none
  | none => none

/-- Each element as an `u8`. -/
def bytesOf : List Value → Option Bytes
  | [] => some []
  | v :: l =>
    match intIn 0 256 v, bytesOf l with
    | some n, some r => some (UInt8.ofNat n.toNat :: r)
    | _, _ => none

/-- The text of UTF-8 bytes. -/
def textOf (b : Bytes) : Option String := String.fromUTF8? ⟨b.toArray⟩

/-- What the types without parts make of `deserialize_any` (de.rs:353-385). -/
def Prim.de (fc : Floats) (p : PrimTy) (v : Value) : Option Prim :=
  match p with
  | .bool => match v with | .bool b => some (.bool b) | _ => none
  | .u8 => (intIn 0 (2 ^ 8) v).map fun n => .u8 (UInt8.ofNat n.toNat)
  | .u16 => (intIn 0 (2 ^ 16) v).map fun n => .u16 (UInt16.ofNat n.toNat)
  | .u32 => (intIn 0 (2 ^ 32) v).map fun n => .u32 (UInt32.ofNat n.toNat)
  | .u64 => (intIn 0 (2 ^ 64) v).map fun n => .u64 (UInt64.ofNat n.toNat)
  | .i8 => (intIn (-2 ^ 7) (2 ^ 7) v).map fun n => .i8 (Int8.ofInt n)
  | .i16 => (intIn (-2 ^ 15) (2 ^ 15) v).map fun n => .i16 (Int16.ofInt n)
  | .i32 => (intIn (-2 ^ 31) (2 ^ 31) v).map fun n => .i32 (Int32.ofInt n)
  | .i64 => (intIn (-2 ^ 63) (2 ^ 63) v).map fun n => .i64 (Int64.ofInt n)
  | .f32 =>
    match v with
    | .f32 x => some (.f32 x)
    | .f64 x => some (.f32 (fc.narrow x))
    | v => (intOf v).map fun n => .f32 (fc.ofInt32 n)
  | .f64 =>
    match v with
    | .f64 x => some (.f64 x)
    | .f32 x => some (.f64 (fc.widen x))
    | v => (intOf v).map fun n => .f64 (fc.ofInt64 n)
  | .char =>
    match v with
    | .char c => some (.char c)
    | .str s => match s.toList with | [c] => some (.char c) | _ => none
    | _ => none
  | .str =>
    match v with
    | .str s => some (.str s)
    | .char c => some (.str (String.singleton c))
    | .bytes b => (textOf b).map .str
    | _ => none
  | .bytes =>
    match v with
    | .bytes b => some (.bytes b)
    | .str s => some (.bytes (strBytes s))
    | .char c => some (.bytes (strBytes (String.singleton c)))
    | .seq l => (bytesOf l).map .bytes
    | _ => none
  | .unit => match v with | .unit => some .unit | _ => none

/-- The name or the position of a field or a variant (visitors of the derive macros, on
`deserialize_identifier`, de.rs:410-414).  The outer `none` is an error, the inner one a name that
is not in the list. -/
def identOf (names : List String) (v : Value) : Option (Option Nat) :=
  match v with
  | .str s => some (names.findIdx? (· == s))
  | .char c => some (names.findIdx? (· == String.singleton c))
  | .bytes b => some (names.findIdx? (strBytes · == b))
  | .u8 n => some (if n.toNat < names.length then some n.toNat else none)
  | .u16 n => some (if n.toNat < names.length then some n.toNat else none)
  | .u32 n => some (if n.toNat < names.length then some n.toNat else none)
  | .u64 n => some (if n.toNat < names.length then some n.toNat else none)
  | .time n => some (if n.toNat < names.length then some n.toNat else none)
  | _ => none

/-- The values of the entries for the field number `i`. -/
def valuesFor (names : List String) (i : Nat) (m : List (Value × Value)) : List Value :=
  (m.filter fun e => identOf names e.1 == some (some i)).map (·.2)

/-- Whether every key can be the name of a field. -/
def keysOk (names : List String) (m : List (Value × Value)) : Bool :=
  m.all fun e => (identOf names e.1).isSome

/-- A field that is missing is an error, except an option. -/
def missing : Ty → Option Data
  | .opt _ => some .none
  | _ => none

/-- The number of elements a tuple takes. -/
def arity : Ty → Nat
  | .tuple l => l.length
  | _ => 0

/-- The elements of a sequence, each read with `f`. -/
def readAll (f : Value → Option Data) : List Value → Option (List Data)
  | [] => some []
  | v :: l =>
    match f v, readAll f l with
    | some d, some r => some (d :: r)
    | _, _ => none

/-- The entries of a map, keys read with `f` and values with `g`. -/
def readEntries (f g : Value → Option Data) : List (Value × Value) → Option (List (Data × Data))
  | [] => some []
  | (k, v) :: l =>
    match f k, g v, readEntries f g l with
    | some d, some e, some r => some ((d, e) :: r)
    | _, _, _ => none

/-- The name of the variant and its content in `deserialize_enum` (de.rs:387-424). -/
def variantOf : Value → Option (Value × Option Value)
  | .map [(k, v)] => some (k, some v)
  | .str s => some (.str s, none)
  | _ => none

/-- `VariantAccess` (de.rs:535-609), with `f` to read the content. -/
def readVariant (f : Value → Option Data) (form : Form) (n : Nat) (v : Option Value) : Option Data :=
  match form, v with
  | .unit, none => some (.prim .unit)
  | .unit, some .unit => some (.prim .unit)
  | .newtype, some v => f v
  | .tuple, some (.seq l) => if l.length ≤ n then f (.seq l) else none
  | .struct, some (.map m) => f (.map m)
  | _, _ => none

mutual
/-- `deserialize_into` (lib.rs:252-254) with the `Deserializer` (de.rs:347-433).  What the entries
of a map are collected in, that keeps the last of those with equal keys, is not modelled. -/
def de (fc : Floats) : Ty → Value → Option Data
  | .prim p, v => (Prim.de fc p v).map .prim
  | .opt t, v =>
    match v with
    | .opt none => some .none
    | .opt (some w) => (de fc t w).map .some
    | .unit => some .none
    | w => (de fc t w).map .some
  | .newtype name t, v =>
    match v with
    | .newtype w => (de fc t w).map (.newtype name)
    | w => (de fc t w).map (.newtype name)
  | .seq t, v =>
    match v with
    | .seq l => (readAll (de fc t) l).map .seq
    | _ => none
  | .tuple ts, v =>
    match v with
    | .seq l => (deTuple fc ts l).map .tuple
    | _ => none
  | .map k t, v =>
    match v with
    | .map m => (readEntries (de fc k) (de fc t) m).map .map
    | _ => none
  | .struct fs, v =>
    match v with
    | .map m =>
      if keysOk (fs.map (·.1)) m then (deFields fc (fs.map (·.1)) 0 fs m).map .struct else none
    | .seq l => (deStructSeq fc fs l).map .struct
    | _ => none
  | .enum vs, v =>
    match variantOf v with
    | none => none
    | some (k, w) =>
      match identOf (vs.map (·.1)) k with
      | some (some i) => deVariant fc vs i w
      | _ => none

/-- The elements of a tuple, one of each type; what follows is left (de.rs:373-375: the access is
not asked whether it is at its end). -/
def deTuple (fc : Floats) : List Ty → List Value → Option (List Data)
  | [], _ => some []
  | _ :: _, [] => none
  | t :: ts, v :: l =>
    match de fc t v, deTuple fc ts l with
    | some d, some r => some (d :: r)
    | _, _ => none

/-- The fields of a struct in a map, from the field number `i` on: once each. -/
def deFields (fc : Floats) (names : List String) :
    Nat → List (String × Ty) → List (Value × Value) → Option (List (String × Data))
  | _, [], _ => some []
  | i, (n, t) :: fs, m =>
    match (match valuesFor names i m with
      | [] => missing t
      | [v] => de fc t v
      | _ => none), deFields fc names (i + 1) fs m with
    | some d, some r => some ((n, d) :: r)
    | _, _ => none

/-- The fields of a struct in a sequence. -/
def deStructSeq (fc : Floats) : List (String × Ty) → List Value → Option (List (String × Data))
  | [], _ => some []
  | _ :: _, [] => none
  | (n, t) :: fs, v :: l =>
    match de fc t v, deStructSeq fc fs l with
    | some d, some r => some ((n, d) :: r)
    | _, _ => none

/-- The variant number `i`. -/
def deVariant (fc : Floats) : List (String × Form × Ty) → Nat → Option Value → Option Data
  | [], _, _ => none
  | (n, form, t) :: _, 0, v => (readVariant (de fc t) form (arity t) v).map (.variant n form)
  | _ :: vs, i + 1, v => deVariant fc vs i v
end

/-! ### Dynamic values as Rust values -/

/-- A pair of the discriminant and the content (ser.rs:35-69). -/
def tagged (v : Value) (d : Data) : Data :=
  .newtype "Value" (.tuple [.prim (.u8 (UInt8.ofNat v.discriminant)), d])

mutual
/-- `Serialize for Value` (ser.rs:33-71).  A `Vec<u8>` is a sequence of numbers for serde. -/
def ofValue : Value → Data
  | .bool v => tagged (.bool v) (.prim (.bool v))
  | .u8 v => tagged (.u8 v) (.prim (.u8 v))
  | .u16 v => tagged (.u16 v) (.prim (.u16 v))
  | .u32 v => tagged (.u32 v) (.prim (.u32 v))
  | .u64 v => tagged (.u64 v) (.prim (.u64 v))
  | .i8 v => tagged (.i8 v) (.prim (.i8 v))
  | .i16 v => tagged (.i16 v) (.prim (.i16 v))
  | .i32 v => tagged (.i32 v) (.prim (.i32 v))
  | .i64 v => tagged (.i64 v) (.prim (.i64 v))
  | .f32 v => tagged (.f32 v) (.prim (.f32 v))
  | .f64 v => tagged (.f64 v) (.prim (.f64 v))
  | .char v => tagged (.char v) (.prim (.char v))
  | .str v => tagged (.str v) (.prim (.str v))
  | .bytes v => tagged (.bytes v) (.seq (v.map fun b => .prim (.u8 b)))
  | .unit => tagged .unit (.prim .unit)
  | .opt none => tagged (.opt none) (.prim .unit)
  | .opt (some v) => tagged (.opt (some v)) (ofValue v)
  | .newtype v => tagged (.newtype v) (ofValue v)
  | .seq l => .seq (ofValues l)
  | .map l => .map (ofEntries l)
  | .time v => tagged (.time v) (.newtype "CuDuration" (.prim (.u64 v)))

def ofValues : List Value → List Data
  | [] => []
  | v :: l => ofValue v :: ofValues l

def ofEntries : List (Value × Value) → List (Data × Data)
  | [] => []
  | (k, v) :: l => (ofValue k, ofValue v) :: ofEntries l
end

mutual
/-- `Deserialize for Value` (de.rs:203-316) from a dynamic value. -/
def reread : Value → Value
  | .opt none => .opt none
  | .opt (some v) => .opt (some (reread v))
  | .newtype v => .newtype (reread v)
  | .seq l => .seq (rereads l)
  | .map l => .map (insertAll [] (rereadEntries l))
  | .time v => .u64 v
  | v => v

def rereads : List Value → List Value
  | [] => []
  | v :: l => reread v :: rereads l

def rereadEntries : List (Value × Value) → List (Value × Value)
  | [] => []
  | (k, v) :: l => (reread k, reread v) :: rereadEntries l
end

end Serde
end Verif
