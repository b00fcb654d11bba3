import Verif.Model.ValueSerde
/-!
Rust types and their values, for the properties of the conversion to dynamic values.
-/
namespace Verif
namespace Serde
open Bincode

/-- The type of a value without parts. -/
def Prim.ty : Prim → PrimTy
  | .bool _ => .bool
  | .u8 _ => .u8
  | .u16 _ => .u16
  | .u32 _ => .u32
  | .u64 _ => .u64
  | .i8 _ => .i8
  | .i16 _ => .i16
  | .i32 _ => .i32
  | .i64 _ => .i64
  | .f32 _ => .f32
  | .f64 _ => .f64
  | .char _ => .char
  | .str _ => .str
  | .bytes _ => .bytes
  | .unit => .unit

mutual
/-- A value of a type.  The keys of a map differ. -/
def HasTy : Ty → Data → Prop
  | .prim p, .prim x => x.ty = p
  | .opt _, .none => True
  | .opt t, .some d => HasTy t d
  | .newtype n t, .newtype m d => m = n ∧ HasTy t d
  | .seq t, .seq l => ∀ d ∈ l, HasTy t d
  | .tuple ts, .tuple l => HasTys ts l
  | .map k t, .map l => (∀ e ∈ l, HasTy k e.1 ∧ HasTy t e.2) ∧ l.Pairwise (fun a b => a.1 ≠ b.1)
  | .struct fs, .struct l => HasFields fs l
  | .enum vs, .variant n form d => HasVariant vs n form d
  | _, _ => False

def HasTys : List Ty → List Data → Prop
  | [], [] => True
  | t :: ts, d :: l => HasTy t d ∧ HasTys ts l
  | _, _ => False

def HasFields : List (String × Ty) → List (String × Data) → Prop
  | [], [] => True
  | (n, t) :: fs, (m, d) :: l => m = n ∧ HasTy t d ∧ HasFields fs l
  | _, _ => False

def HasVariant : List (String × Form × Ty) → String → Form → Data → Prop
  | [], _, _, _ => False
  | (m, f, t) :: vs, n, form, d => (n = m ∧ form = f ∧ HasTy t d) ∨ HasVariant vs n form d
end

mutual
/-- A type without floating point numbers and without maps in it. -/
def Ty.Plain : Ty → Prop
  | .prim p => p ≠ .f32 ∧ p ≠ .f64
  | .opt t => t.Plain
  | .newtype _ t => t.Plain
  | .seq t => t.Plain
  | .tuple ts => PlainAll ts
  | .map _ _ => False
  | .struct fs => PlainFields fs
  | .enum vs => PlainVariants vs

def PlainAll : List Ty → Prop
  | [] => True
  | t :: ts => t.Plain ∧ PlainAll ts

def PlainFields : List (String × Ty) → Prop
  | [] => True
  | (_, t) :: fs => t.Plain ∧ PlainFields fs

def PlainVariants : List (String × Form × Ty) → Prop
  | [] => True
  | (_, _, t) :: vs => t.Plain ∧ PlainVariants vs
end

/-- The content of a variant has the shape of its form. -/
def FormOk : Form → Ty → Prop
  | .unit, .prim .unit => True
  | .newtype, _ => True
  | .tuple, .tuple _ => True
  | .struct, .struct _ => True
  | _, _ => False

mutual
/-- A type that can be declared: the fields of a struct have different names, and so have the
variants of an enum; the keys of maps are plain. -/
def Ty.Ok : Ty → Prop
  | .prim _ => True
  | .opt t => t.Ok
  | .newtype _ t => t.Ok
  | .seq t => t.Ok
  | .tuple ts => OkAll ts
  | .map k t => k.Plain ∧ k.Ok ∧ t.Ok
  | .struct fs => (fs.map (·.1)).Nodup ∧ OkFields fs
  | .enum vs => (vs.map (·.1)).Nodup ∧ OkVariants vs

def OkAll : List Ty → Prop
  | [] => True
  | t :: ts => t.Ok ∧ OkAll ts

def OkFields : List (String × Ty) → Prop
  | [] => True
  | (_, t) :: fs => t.Ok ∧ OkFields fs

def OkVariants : List (String × Form × Ty) → Prop
  | [] => True
  | (_, form, t) :: vs => FormOk form t ∧ t.Ok ∧ OkVariants vs
end

mutual
/-- Equal Rust values: the entries of a map come in any order. -/
def Same : Data → Data → Prop
  | .prim a, .prim b => a = b
  | .none, .none => True
  | .some a, .some b => Same a b
  | .newtype n a, .newtype m b => n = m ∧ Same a b
  | .seq l, .seq m => SameAll l m
  | .tuple l, .tuple m => SameAll l m
  | .map l, .map m => ∃ l', SameEntries l l' ∧ l'.Perm m
  | .struct l, .struct m => SameFields l m
  | .variant n f a, .variant m g b => n = m ∧ f = g ∧ Same a b
  | _, _ => False

def SameAll : List Data → List Data → Prop
  | [], [] => True
  | a :: l, b :: m => Same a b ∧ SameAll l m
  | _, _ => False

def SameEntries : List (Data × Data) → List (Data × Data) → Prop
  | [], [] => True
  | (a, c) :: l, (b, d) :: m => Same a b ∧ Same c d ∧ SameEntries l m
  | _, _ => False

def SameFields : List (String × Data) → List (String × Data) → Prop
  | [], [] => True
  | (n, a) :: l, (m, b) :: r => n = m ∧ Same a b ∧ SameFields l r
  | _, _ => False
end

mutual
/-- Sizes fit a machine word, as everything in memory. -/
def Data.Fits : Data → Prop
  | .prim (.str s) => (strBytes s).length < 18446744073709551616
  | .prim (.bytes b) => b.length < 18446744073709551616
  | .prim _ => True
  | .none => True
  | .some d => d.Fits
  | .newtype _ d => d.Fits
  | .seq l => l.length < 18446744073709551616 ∧ FitsAll l
  | .tuple l => l.length < 18446744073709551616 ∧ FitsAll l
  | .map l => l.length < 18446744073709551616 ∧ FitsEntries l
  | .struct l => l.length < 18446744073709551616 ∧ FitsFields l
  | .variant n _ d => (strBytes n).length < 18446744073709551616 ∧ d.Fits

def FitsAll : List Data → Prop
  | [] => True
  | d :: l => d.Fits ∧ FitsAll l

def FitsEntries : List (Data × Data) → Prop
  | [] => True
  | (k, d) :: l => k.Fits ∧ d.Fits ∧ FitsEntries l

def FitsFields : List (String × Data) → Prop
  | [] => True
  | (n, d) :: l => (strBytes n).length < 18446744073709551616 ∧ d.Fits ∧ FitsFields l
end

mutual
/-- A dynamic value without times in it. -/
def NoTime : Value → Prop
  | .time _ => False
  | .opt none => True
  | .opt (some v) => NoTime v
  | .newtype v => NoTime v
  | .seq l => NoTimes l
  | .map l => NoTimeEntries l
  | _ => True

def NoTimes : List Value → Prop
  | [] => True
  | v :: l => NoTime v ∧ NoTimes l

def NoTimeEntries : List (Value × Value) → Prop
  | [] => True
  | (k, v) :: l => NoTime k ∧ NoTime v ∧ NoTimeEntries l
end

/-- The least and the greatest number of an integer type. -/
def rangeOf : PrimTy → Option (Int × Int)
  | .u8 => some (0, 255)
  | .u16 => some (0, 65535)
  | .u32 => some (0, 4294967295)
  | .u64 => some (0, 18446744073709551615)
  | .i8 => some (-128, 127)
  | .i16 => some (-32768, 32767)
  | .i32 => some (-2147483648, 2147483647)
  | .i64 => some (-9223372036854775808, 9223372036854775807)
  | _ => none

/-- The number an integer stands for. -/
def Prim.number : Prim → Option Int
  | .u8 v => some v.toNat
  | .u16 v => some v.toNat
  | .u32 v => some v.toNat
  | .u64 v => some v.toNat
  | .i8 v => some v.toInt
  | .i16 v => some v.toInt
  | .i32 v => some v.toInt
  | .i64 v => some v.toInt
  | _ => none

/-- The types of the robot clock (core/cu29_clock/src/lib.rs:22-23, 213-214, 285-289, 311-317). -/
def cuTime : Ty := .newtype "CuDuration" (.prim .u64)
def optionCuTime : Ty := .newtype "OptionCuTime" cuTime
def cuTimeRange : Ty := .struct [("start", cuTime), ("end", cuTime)]
def tov : Ty := .enum [("None", .unit, .prim .unit), ("Time", .newtype, cuTime), ("Range", .newtype, cuTimeRange)]

end Serde
end Verif
