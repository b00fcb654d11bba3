import Verif.Model.BincodeText
/-!
Model of dynamic values: core/cu29_value/src/lib.rs (type, equality, order, hash),
benc.rs (encoder) and bdec.rs (the two decoders).
-/
namespace Verif
open Bincode

/-- `Value` (lib.rs:20-46).  A `BTreeMap` is the list of its entries in the order of its keys
(`Value.Legal` below says they are sorted); boxes are transparent; a `CuTime` is its nanoseconds. -/
inductive Value where
  | bool (v : Bool)
  | u8 (v : UInt8)
  | u16 (v : UInt16)
  | u32 (v : UInt32)
  | u64 (v : UInt64)
  | i8 (v : Int8)
  | i16 (v : Int16)
  | i32 (v : Int32)
  | i64 (v : Int64)
  | f32 (v : F32)
  | f64 (v : F64)
  | char (v : Char)
  | str (v : String)
  | unit
  | opt (v : Option Value)
  | newtype (v : Value)
  | seq (v : List Value)
  | map (v : List (Value × Value))
  | bytes (v : Bytes)
  | time (v : UInt64)

namespace Value

/-- `Value::discriminant` (lib.rs:196-219). -/
def discriminant : Value → Nat
  | .bool _ => 0
  | .u8 _ => 1
  | .u16 _ => 2
  | .u32 _ => 3
  | .u64 _ => 4
  | .i8 _ => 5
  | .i16 _ => 6
  | .i32 _ => 7
  | .i64 _ => 8
  | .f32 _ => 9
  | .f64 _ => 10
  | .char _ => 11
  | .str _ => 12
  | .unit => 13
  | .opt _ => 14
  | .newtype _ => 15
  | .seq _ => 16
  | .map _ => 17
  | .bytes _ => 18
  | .time _ => 32

/-! ### Order -/

/-- Position of a number in sign and magnitude form among the others. -/
def signMag (neg : Bool) (mag : Nat) : Int := if neg then -(mag : Int) else mag

/-- Position of an `f32` in the order of `OrderedFloat` (external crate): the usual order of
numbers, both zeros equal, all NaN equal and above everything. -/
def f32Key (x : F32) : Int :=
  let mag := x.bits.toNat % 2147483648
  if 2139095040 < mag then 2147483648 else signMag (2147483648 ≤ x.bits.toNat) mag

/-- Same for an `f64`. -/
def f64Key (x : F64) : Int :=
  let mag := x.bits.toNat % 9223372036854775808
  if 9218868437227405312 < mag then 9223372036854775808
  else signMag (9223372036854775808 ≤ x.bits.toNat) mag

/-- `bool::cmp`. -/
def cmpBool (a b : Bool) : Ordering := compare a.toNat b.toNat

/-- `Vec<u8>::cmp`, `String::cmp`: lexicographic on the bytes. -/
def cmpBytes : Bytes → Bytes → Ordering
  | [], [] => .eq
  | [], _ :: _ => .lt
  | _ :: _, [] => .gt
  | a :: l, b :: m => (compare a.toNat b.toNat).then (cmpBytes l m)

mutual
/-- `Ord::cmp` (lib.rs:167-193). -/
def cmp : Value → Value → Ordering
  | .bool a, .bool b => cmpBool a b
  | .u8 a, .u8 b => compare a.toNat b.toNat
  | .u16 a, .u16 b => compare a.toNat b.toNat
  | .u32 a, .u32 b => compare a.toNat b.toNat
  | .u64 a, .u64 b => compare a.toNat b.toNat
  | .i8 a, .i8 b => compare a.toInt b.toInt
  | .i16 a, .i16 b => compare a.toInt b.toInt
  | .i32 a, .i32 b => compare a.toInt b.toInt
  | .i64 a, .i64 b => compare a.toInt b.toInt
  | .f32 a, .f32 b => compare (f32Key a) (f32Key b)
  | .f64 a, .f64 b => compare (f64Key a) (f64Key b)
  | .char a, .char b => compare a.toNat b.toNat
  | .str a, .str b => cmpBytes (strBytes a) (strBytes b)
  | .unit, .unit => .eq
  | .opt a, .opt b => cmpOpt a b
  | .newtype a, .newtype b => cmp a b
  | .seq a, .seq b => cmpSeq a b
  | .map a, .map b => cmpMap a b
  | .bytes a, .bytes b => cmpBytes a b
  | .time a, .time b => compare a.toNat b.toNat
  | a, b => compare a.discriminant b.discriminant

/-- `Option::cmp`. -/
def cmpOpt : Option Value → Option Value → Ordering
  | none, none => .eq
  | none, some _ => .lt
  | some _, none => .gt
  | some a, some b => cmp a b

/-- `Vec::cmp`: lexicographic. -/
def cmpSeq : List Value → List Value → Ordering
  | [], [] => .eq
  | [], _ :: _ => .lt
  | _ :: _, [] => .gt
  | a :: l, b :: m => (cmp a b).then (cmpSeq l m)

/-- `BTreeMap::cmp`: lexicographic on the entries, a key before its value. -/
def cmpMap : List (Value × Value) → List (Value × Value) → Ordering
  | [], [] => .eq
  | [], _ :: _ => .lt
  | _ :: _, [] => .gt
  | (k, v) :: l, (k', v') :: m => (cmp k k').then ((cmp v v').then (cmpMap l m))
end

mutual
/-- `PartialEq::eq` (lib.rs:139-165). -/
def eqv : Value → Value → Bool
  | .bool a, .bool b => a == b
  | .u8 a, .u8 b => a == b
  | .u16 a, .u16 b => a == b
  | .u32 a, .u32 b => a == b
  | .u64 a, .u64 b => a == b
  | .i8 a, .i8 b => a == b
  | .i16 a, .i16 b => a == b
  | .i32 a, .i32 b => a == b
  | .i64 a, .i64 b => a == b
  | .f32 a, .f32 b => f32Key a == f32Key b
  | .f64 a, .f64 b => f64Key a == f64Key b
  | .char a, .char b => a == b
  | .str a, .str b => a == b
  | .unit, .unit => true
  | .opt a, .opt b => eqvOpt a b
  | .newtype a, .newtype b => eqv a b
  | .seq a, .seq b => eqvSeq a b
  | .map a, .map b => eqvMap a b
  | .bytes a, .bytes b => a == b
  | .time a, .time b => a == b
  | _, _ => false

/-- `Option::eq`. -/
def eqvOpt : Option Value → Option Value → Bool
  | none, none => true
  | some a, some b => eqv a b
  | _, _ => false

/-- `Vec::eq`. -/
def eqvSeq : List Value → List Value → Bool
  | [], [] => true
  | a :: l, b :: m => eqv a b && eqvSeq l m
  | _, _ => false

/-- `BTreeMap::eq`. -/
def eqvMap : List (Value × Value) → List (Value × Value) → Bool
  | [], [] => true
  | (k, v) :: l, (k', v') :: m => eqv k k' && eqv v v' && eqvMap l m
  | _, _ => false
end

/-! ### Hash -/

mutual
/-- `Hash::hash` (lib.rs:104-137): what is fed to the hasher, in order.  A float is fed in the
canonical form of `OrderedFloat` (both zeros alike, all NaN alike); a sequence or a map begins with
its length; a string is fed as its bytes and a terminator. -/
def hashed : Value → List Int
  | .bool a => [0, a.toNat]
  | .u8 a => [1, a.toNat]
  | .u16 a => [2, a.toNat]
  | .u32 a => [3, a.toNat]
  | .u64 a => [4, a.toNat]
  | .i8 a => [5, a.toInt]
  | .i16 a => [6, a.toInt]
  | .i32 a => [7, a.toInt]
  | .i64 a => [8, a.toInt]
  | .f32 a => [9, f32Key a]
  | .f64 a => [10, f64Key a]
  | .char a => [11, a.toNat]
  | .str a => 12 :: ((strBytes a).map (fun b => (b.toNat : Int)) ++ [255])
  | .unit => [13, 0]
  | .opt none => [14, 0]
  | .opt (some v) => 14 :: 1 :: hashed v
  | .newtype v => 15 :: hashed v
  | .seq l => 16 :: (l.length : Int) :: hashedSeq l
  | .map l => 17 :: (l.length : Int) :: hashedMap l
  | .bytes l => 18 :: (l.length : Int) :: l.map (fun b => (b.toNat : Int))
  | .time a => [32, a.toNat]

def hashedSeq : List Value → List Int
  | [] => []
  | v :: l => hashed v ++ hashedSeq l

def hashedMap : List (Value × Value) → List Int
  | [] => []
  | (k, v) :: l => hashed k ++ hashed v ++ hashedMap l
end

/-! ### Encoding -/

mutual
/-- `Encode for Value` (benc.rs:7-34): the discriminant as a byte, then the content. -/
def encode : Value → Bytes
  | .bool v => 0 :: enc v
  | .u8 v => 1 :: enc v
  | .u16 v => 2 :: enc v
  | .u32 v => 3 :: enc v
  | .u64 v => 4 :: enc v
  | .i8 v => 5 :: enc v
  | .i16 v => 6 :: enc v
  | .i32 v => 7 :: enc v
  | .i64 v => 8 :: enc v
  | .f32 v => 9 :: enc v
  | .f64 v => 10 :: enc v
  | .char v => 11 :: enc v
  | .str v => 12 :: enc v
  | .unit => [13]
  | .opt none => [14, 0]
  | .opt (some v) => 14 :: 1 :: encode v
  | .newtype v => 15 :: encode v
  | .seq l => 16 :: (encVar l.length ++ encodeSeq l)
  | .map l => 17 :: (encVar l.length ++ encodeMap l)
  | .bytes v => 18 :: enc v
  | .time v => 32 :: enc v

def encodeSeq : List Value → Bytes
  | [] => []
  | v :: l => encode v ++ encodeSeq l

def encodeMap : List (Value × Value) → Bytes
  | [] => []
  | (k, v) :: l => encode k ++ (encode v ++ encodeMap l)
end

/-- `BTreeMap::insert`: in the place given by the order of the keys; an equal key keeps its place
and takes the new value. -/
def insertKey (k v : Value) : List (Value × Value) → List (Value × Value)
  | [] => [(k, v)]
  | (k', v') :: l =>
    match cmp k k' with
    | .lt => (k, v) :: (k', v') :: l
    | .eq => (k', v) :: l
    | .gt => (k', v') :: insertKey k v l

/-- `BTreeMap::decode` of bincode: `n` entries inserted one after the other. -/
def decodeMap (d : Dec Value) : Nat → List (Value × Value) → Dec (List (Value × Value))
  | 0, m => pure m
  | n + 1, m => do
    let k ← d
    let v ← d
    decodeMap d n (insertKey k v m)

/-- `Option<Box<Value>>::decode`. -/
def decodeOpt (d : Dec Value) : Dec (Option Value) := do
  let b ← byte
  if b = 0 then pure none
  else if b = 1 then do
    let a ← d
    pure (some a)
  else Dec.fail .invalidVariant

/-- `Vec<Value>::decode`. -/
def decodeSeq (d : Dec Value) : Dec (List Value) := do
  let n ← decVar 8
  decN d n

/-- `Decode for Value` (bdec.rs:11-40), nested at most `fuel` deep; each level takes at least one
byte, so the length of the input is always enough. -/
def decodeFuel : Nat → Dec Value
  | 0 => Dec.fail .other
  | fuel + 1 => do
    let tag ← byte
    if tag = 0 then do let v ← dec; pure (.bool v)
    else if tag = 1 then do let v ← dec; pure (.u8 v)
    else if tag = 2 then do let v ← dec; pure (.u16 v)
    else if tag = 3 then do let v ← dec; pure (.u32 v)
    else if tag = 4 then do let v ← dec; pure (.u64 v)
    else if tag = 5 then do let v ← dec; pure (.i8 v)
    else if tag = 6 then do let v ← dec; pure (.i16 v)
    else if tag = 7 then do let v ← dec; pure (.i32 v)
    else if tag = 8 then do let v ← dec; pure (.i64 v)
    else if tag = 9 then do let v ← dec; pure (.f32 v)
    else if tag = 10 then do let v ← dec; pure (.f64 v)
    else if tag = 11 then do let v ← dec; pure (.char v)
    else if tag = 12 then do let v ← dec; pure (.str v)
    else if tag = 13 then pure .unit
    else if tag = 14 then do let v ← decodeOpt (decodeFuel fuel); pure (.opt v)
    else if tag = 15 then do let v ← decodeFuel fuel; pure (.newtype v)
    else if tag = 16 then do let v ← decodeSeq (decodeFuel fuel); pure (.seq v)
    else if tag = 17 then do
      let n ← decVar 8
      let v ← decodeMap (decodeFuel fuel) n []
      pure (.map v)
    else if tag = 18 then do let v ← dec; pure (.bytes v)
    else if tag = 32 then do let v ← dec; pure (.time v)
    else Dec.fail .other

/-- `BorrowDecode for Value` (bdec.rs:42-72), as written: with another table of tags. -/
def borrowFuel : Nat → Dec Value
  | 0 => Dec.fail .other
  | fuel + 1 => do
    let tag ← byte
    if tag = 0 then do let v ← dec; pure (.u8 v)
    else if tag = 1 then do let v ← dec; pure (.u16 v)
    else if tag = 2 then do let v ← dec; pure (.u32 v)
    else if tag = 3 then do let v ← dec; pure (.u64 v)
    else if tag = 4 then do let v ← dec; pure (.i8 v)
    else if tag = 5 then do let v ← dec; pure (.i16 v)
    else if tag = 6 then do let v ← dec; pure (.i32 v)
    else if tag = 7 then do let v ← dec; pure (.i64 v)
    else if tag = 8 then do let v ← dec; pure (.f32 v)
    else if tag = 9 then do let v ← dec; pure (.f64 v)
    else if tag = 10 then do let v ← dec; pure (.bool v)
    else if tag = 11 then do let v ← dec; pure (.char v)
    else if tag = 12 then do let v ← dec; pure (.str v)
    else if tag = 13 then do let v ← dec; pure (.bytes v)
    else if tag = 14 then pure .unit
    else if tag = 15 then do let v ← decodeSeq (borrowFuel fuel); pure (.seq v)
    else if tag = 16 then do
      let n ← decVar 8
      let v ← decodeMap (borrowFuel fuel) n []
      pure (.map v)
    else if tag = 17 then do let v ← decodeOpt (borrowFuel fuel); pure (.opt v)
    else if tag = 18 then do let v ← borrowFuel fuel; pure (.newtype v)
    else Dec.fail .other

def borrow : Dec Value := fun bs => borrowFuel (bs.length + 1) bs

end Value

instance : Codec Value where
  enc := Value.encode
  dec := fun bs => Value.decodeFuel (bs.length + 1) bs

end Verif
