import Verif.Model.ArrowAggregate
/-!
Model of the element-wise kernels of the patched `arrow-arith` crate: patches/arrow-arith/src/arity.rs, bitwise.rs and
the integers of numeric.rs.

The arrays and the arithmetic of their elements (`ArrowNativeTypeOp`) are those of `arrow-array`, from its
documentation.  An operation that can fail gives an error instead of a value.
-/
namespace Verif
namespace Arrow
variable {A B O T : Type}

/-- The kinds of `ArrowError` the kernels give. -/
inductive ArrowErr
  | compute
  | overflow
  | divZero
  | invalid
  | notYet
  deriving DecidableEq, Repr

/-- `arrow_array::PrimitiveArray`. -/
structure Prim (T : Type) where
  values : List T
  nulls : Option BoolBuf
  deriving DecidableEq, Repr

/-- `PrimitiveArray::new`: the lengths must agree. -/
def Prim.new (values : List T) (nulls : Option BoolBuf) : Rs (Prim T) :=
  match nulls with
  | none => .ok ⟨values, none⟩
  | some n => if n.len ≠ values.length then .panic else .ok ⟨values, some n⟩

/-- `PrimitiveArray::new_null`. -/
def Prim.newNull (zero : T) (len : Nat) : Prim T := ⟨List.replicate len zero, some (BoolBuf.const false len)⟩

/-- A loop over indices that writes the result for each into its place, until one fails. -/
def fill (f : Nat → Except ArrowErr O) : List Nat → List O → Except ArrowErr (List O)
  | [], s => .ok s
  | i :: is, s =>
    match f i with
    | .error e => .error e
    | .ok v => fill f is (s.set i v)

/-- A loop over indices that pushes the result for each, until one fails. -/
def pushEach (f : Nat → Except ArrowErr O) : List Nat → List O → Except ArrowErr (List O)
  | [], s => .ok s
  | i :: is, s =>
    match f i with
    | .error e => .error e
    | .ok v => pushEach f is (s ++ [v])

/-- `unary` (arity.rs:31-38), `PrimitiveArray::unary`: of all values, nulls or not. -/
def unary (a : Prim A) (op : A → O) : Rs (Prim O) := Prim.new (a.values.map op) a.nulls

/-- The indices `PrimitiveArray::try_unary` goes through. -/
def Prim.indices (a : Prim A) : List Nat :=
  match a.nulls with
  | some n => validIndices n
  | none => List.range a.values.length

/-- `try_unary` (arity.rs:53-60), `PrimitiveArray::try_unary`: of the values that are not null. -/
def tryUnary [Inhabited A] (zero : O) (a : Prim A) (op : A → Except ArrowErr O) : Rs (Except ArrowErr (Prim O)) :=
  match fill (fun i => op (a.values.getD i Inhabited.default)) a.indices (List.replicate a.values.length zero) with
  | .error e => .ok (.error e)
  | .ok s => (Prim.new s a.nulls).map' .ok

/-- `binary` (arity.rs:197-228). -/
def binary (a : Prim A) (b : Prim B) (op : A → B → O) : Rs (Except ArrowErr (Prim O)) :=
  if a.values.length ≠ b.values.length then .ok (.error .compute)
  else if a.values.length = 0 then .ok (.ok ⟨[], none⟩)
  else
    match unionNulls a.nulls b.nulls with
    | .panic => .panic
    | .ok nulls => (Prim.new (List.zipWith op a.values b.values) nulls).map' .ok

/-- What `binary_mut` and `try_binary_mut` give: the array back, if its buffers are shared; an error; or the result,
in the buffers of the array. -/
inductive Mut (T : Type)
  | shared (a : Prim T)
  | failed (e : ArrowErr)
  | done (a : Prim T)
  deriving DecidableEq, Repr

/-- `binary_mut` (arity.rs:294-333); `shared` says that `into_builder` gives the array back. -/
def binaryMut (shared : Bool) (a : Prim A) (b : Prim B) (op : A → B → A) : Rs (Mut A) :=
  if a.values.length ≠ b.values.length then .ok (.failed .compute)
  else if a.values.length = 0 then .ok (.done ⟨[], none⟩)
  else if shared then .ok (.shared a)
  else
    match unionNulls a.nulls b.nulls with
    | .panic => .panic
    | .ok nulls => .ok (.done ⟨List.zipWith op a.values b.values, nulls⟩)

/-- An `ArrayAccessor`: the value of each index, the nulls the array itself has (`null_count`), and those that it
means (`logical_nulls`).  They differ for dictionaries, whose values can be null. -/
structure Access (T : Type) where
  values : List T
  nulls : Option BoolBuf
  logical : Option BoolBuf
  deriving DecidableEq, Repr

/-- A primitive array has no other nulls. -/
def Prim.access (a : Prim T) : Access T := ⟨a.values, a.nulls, a.nulls⟩

/-- `try_binary` (arity.rs:347-386), with `try_binary_no_nulls` (arity.rs:465-482). -/
def tryBinary [Inhabited A] [Inhabited B] (zero : O) (a : Access A) (b : Access B)
    (op : A → B → Except ArrowErr O) : Rs (Except ArrowErr (Prim O)) :=
  let f := fun i => op (a.values.getD i Inhabited.default) (b.values.getD i Inhabited.default)
  if a.values.length ≠ b.values.length then .ok (.error .compute)
  else if a.values.length = 0 then .ok (.ok ⟨[], none⟩)
  else if nullCount a.nulls = 0 ∧ nullCount b.nulls = 0 then
    match pushEach f (List.range a.values.length) [] with
    | .error e => .ok (.error e)
    | .ok s => (Prim.new s none).map' .ok
  else
    match unionNulls a.logical b.logical with
    | .panic => .panic
    | .ok none => .panic
    | .ok (some nulls) =>
      match fill f (validIndices nulls) (List.replicate a.values.length zero) with
      | .error e => .ok (.error e)
      | .ok s => (Prim.new s (some nulls)).map' .ok

/-- `create_union_null_buffer` (arity.rs:452-461). -/
def createUnion : Option BoolBuf → Option BoolBuf → Rs (Option BoolBuf)
  | some l, some r => (l.combine (· &&& ·) r).map' some
  | some n, none => (n.combine (· &&& ·) n).map' some
  | none, some n => (n.combine (· &&& ·) n).map' some
  | none, none => .ok none

/-- The loops of `try_binary_mut` and `try_binary_no_nulls_mut` (arity.rs:430-435, 498-506): each place holds the left
operand until the result is written there. -/
def fillMut [Inhabited T] [Inhabited B] (op : T → B → Except ArrowErr T) (b : List B) :
    List Nat → List T → Except ArrowErr (List T)
  | [], s => .ok s
  | i :: is, s =>
    match op (s.getD i Inhabited.default) (b.getD i Inhabited.default) with
    | .error e => .error e
    | .ok v => fillMut op b is (s.set i v)

/-- `try_binary_mut` (arity.rs:398-445), with `try_binary_no_nulls_mut` (arity.rs:486-508). -/
def tryBinaryMut [Inhabited T] (shared : Bool) (a b : Prim T) (op : T → T → Except ArrowErr T) : Rs (Mut T) :=
  if a.values.length ≠ b.values.length then .ok (.failed .compute)
  else if a.values.length = 0 then .ok (.done ⟨[], none⟩)
  else if nullCount a.nulls = 0 ∧ nullCount b.nulls = 0 then
    if shared then .ok (.shared a)
    else
      match fillMut op b.values (List.range a.values.length) a.values with
      | .error e => .ok (.failed e)
      | .ok s => .ok (.done ⟨s, a.nulls⟩)
  else
    match createUnion a.nulls b.nulls with
    | .panic => .panic
    | .ok none => .panic
    | .ok (some nulls) =>
      if shared then .ok (.shared a)
      else
        match fillMut op b.values (validIndices nulls) a.values with
        | .error e => .ok (.failed e)
        | .ok s => .ok (.done ⟨s, some nulls⟩)

/-- `arrow_array::DictionaryArray`: keys, which are positions in an array of values. -/
structure Dict (T : Type) where
  keys : Prim Nat
  values : Prim T
  deriving DecidableEq, Repr

/-- `arrow_array::TypedDictionaryArray` as an accessor: a key out of bounds, which only a null slot can have, gives
the default value.  `nulls` are those of the keys, `logical` also those of the values. -/
def Dict.access [Inhabited T] (d : Dict T) : Access T where
  values := d.keys.values.map fun k => d.values.values.getD k Inhabited.default
  nulls := d.keys.nulls
  logical :=
    match d.values.nulls with
    | none => d.keys.nulls
    | some vn =>
      some ⟨(List.range d.keys.values.length).map fun i =>
        (match d.keys.nulls with
          | none => true
          | some kn => ((kn.bits.drop kn.off).take kn.len).getD i false) &&
          ((vn.bits.drop vn.off).take vn.len).getD (d.keys.values.getD i 0) false,
        0, d.keys.values.length⟩

/-- `unary_dict` (arity.rs:75-84). -/
def unaryDict (d : Dict T) (op : T → T) : Rs (Dict T) := (unary d.values op).map' fun v => ⟨d.keys, v⟩

/-- `try_unary_dict` (arity.rs:87-104), for values of the type asked for. -/
def tryUnaryDict [Inhabited T] (zero : T) (d : Dict T) (op : T → Except ArrowErr T) : Rs (Except ArrowErr (Dict T)) :=
  (tryUnary zero d.values op).map' fun r => r.map fun v => ⟨d.keys, v⟩

/-- `unary_mut` (arity.rs:41-50), `PrimitiveArray::unary_mut`; `shared` says that `into_builder` gives the array
back. -/
def unaryMut (shared : Bool) (a : Prim T) (op : T → T) : Mut T :=
  if shared then .shared a else .done ⟨a.values.map op, a.nulls⟩

/-- `try_unary_mut` (arity.rs:63-72), `PrimitiveArray::try_unary_mut`: each place holds the operand until the result
is written there. -/
def tryUnaryMut [Inhabited T] (shared : Bool) (a : Prim T) (op : T → Except ArrowErr T) : Mut T :=
  if shared then .shared a
  else
    match fillMut (fun v (_ : Unit) => op v) [] a.indices a.values with
    | .error e => .failed e
    | .ok s => .done ⟨s, a.nulls⟩

/-- `dyn Array`, seen by a kernel for the type `T`: an array of `T`, a dictionary of values of `T`, a dictionary of
other values, or something else.  `same` says that the data type is `T::DATA_TYPE`: that of timestamps with a zone, and
of decimals, need not be. -/
inductive AnyArray (T : Type)
  | prim (same : Bool) (a : Prim T)
  | dict (same : Bool) (d : Dict T)
  | otherDict
  | other
  deriving DecidableEq, Repr

/-- `unary_dyn` (arity.rs:108-131).  The values of a dictionary are taken for `T` without looking; what `unary` gives
has the data type `T::DATA_TYPE`. -/
def unaryDyn (a : AnyArray T) (op : T → T) : Rs (Except ArrowErr (AnyArray T)) :=
  match a with
  | .prim _ a => (unary a op).map' fun b => .ok (.prim true b)
  | .dict _ d => (unaryDict d op).map' fun b => .ok (.dict true b)
  | .otherDict => .panic
  | .other => .ok (.error .notYet)

/-- `try_unary_dyn` (arity.rs:134-164). -/
def tryUnaryDyn [Inhabited T] (zero : T) (a : AnyArray T) (op : T → Except ArrowErr T) :
    Rs (Except ArrowErr (AnyArray T)) :=
  match a with
  | .prim _ a => (tryUnary zero a op).map' fun r => r.map (.prim true)
  | .dict same d => if same then (tryUnaryDict zero d op).map' fun r => r.map (.dict true) else .ok (.error .notYet)
  | .otherDict => .ok (.error .notYet)
  | .other => .ok (.error .notYet)

/-! ### numeric.rs -/

/-- `arrow_array::Datum`: an array, or one value. -/
structure Datum (T : Type) where
  array : Prim T
  scalar : Bool
  deriving DecidableEq, Repr

/-- `$l.value(0)`, if there is no null (numeric.rs:253, 257). -/
def Datum.one (d : Datum T) : Rs (Option T) :=
  if nullCount d.array.nulls = 0 then
    match d.array.values with
    | [] => .panic
    | v :: _ => .ok (some v)
  else .ok none

/-- `op!` (numeric.rs:249-263). -/
def opMacro (zero : O) (l : Datum A) (r : Datum B) (op : A → B → O) : Rs (Except ArrowErr (Prim O)) :=
  match l.scalar, r.scalar with
  | true, true => binary l.array r.array op
  | false, false => binary l.array r.array op
  | true, false =>
    match l.one with
    | .panic => .panic
    | .ok none => .ok (.ok (Prim.newNull zero r.array.values.length))
    | .ok (some x) => (unary r.array fun y => op x y).map' .ok
  | false, true =>
    match r.one with
    | .panic => .panic
    | .ok none => .ok (.ok (Prim.newNull zero l.array.values.length))
    | .ok (some y) => (unary l.array fun x => op x y).map' .ok

/-- `try_op!` (numeric.rs:274-288). -/
def tryOpMacro [Inhabited A] [Inhabited B] (zero : O) (l : Datum A) (r : Datum B) (op : A → B → Except ArrowErr O) :
    Rs (Except ArrowErr (Prim O)) :=
  match l.scalar, r.scalar with
  | true, true => tryBinary zero l.array.access r.array.access op
  | false, false => tryBinary zero l.array.access r.array.access op
  | true, false =>
    match l.one with
    | .panic => .panic
    | .ok none => .ok (.ok (Prim.newNull zero r.array.values.length))
    | .ok (some x) => tryUnary zero r.array fun y => op x y
  | false, true =>
    match r.one with
    | .panic => .panic
    | .ok none => .ok (.ok (Prim.newNull zero l.array.values.length))
    | .ok (some y) => tryUnary zero l.array fun x => op x y

/-- A native integer type: signed or not, of so many bits. -/
structure Native where
  signed : Bool
  bits : Nat
  deriving DecidableEq, Repr

/-- The least value of the type, and the number of values. -/
def Native.min (N : Native) : Int := if N.signed then -2 ^ (N.bits - 1) else 0
def Native.size (N : Native) : Int := 2 ^ N.bits

/-- What the type can hold. -/
def Native.has (N : Native) (i : Int) : Bool := decide (N.min ≤ i) && decide (i < N.min + N.size)

/-- Arithmetic that wraps around. -/
def Native.wrap (N : Native) (i : Int) : Int := (i - N.min) % N.size + N.min

/-- Arithmetic that checks. -/
def Native.check (N : Native) (i : Int) : Except ArrowErr Int := if N.has i then .ok i else .error .overflow

/-- `div_checked` and `mod_checked` (`ArrowNativeTypeOp`): the remainder overflows where the quotient does. -/
def Native.divChecked (N : Native) (a b : Int) : Except ArrowErr Int :=
  if b = 0 then .error .divZero else N.check (a.tdiv b)
def Native.modChecked (N : Native) (a b : Int) : Except ArrowErr Int :=
  if b = 0 then .error .divZero
  else
    match N.check (a.tdiv b) with
    | .error e => .error e
    | .ok _ => .ok (a.tmod b)

/-- `Op` (numeric.rs:174-183). -/
inductive Op
  | addWrapping
  | add
  | subWrapping
  | sub
  | mulWrapping
  | mul
  | div
  | rem
  deriving DecidableEq, Repr

/-- `integer_op` (numeric.rs:299-319). -/
def integerOp (N : Native) (op : Op) (l r : Datum Int) : Rs (Except ArrowErr (Prim Int)) :=
  match op with
  | .addWrapping => opMacro 0 l r fun x y => N.wrap (x + y)
  | .add => tryOpMacro 0 l r fun x y => N.check (x + y)
  | .subWrapping => opMacro 0 l r fun x y => N.wrap (x - y)
  | .sub => tryOpMacro 0 l r fun x y => N.check (x - y)
  | .mulWrapping => opMacro 0 l r fun x y => N.wrap (x * y)
  | .mul => tryOpMacro 0 l r fun x y => N.check (x * y)
  | .div => tryOpMacro 0 l r fun x y => N.divChecked x y
  | .rem => tryOpMacro 0 l r fun x y => N.modChecked x y

/-- `neg` of an integer type (numeric.rs:79-86, 99-108, 156-158), an error for an unsigned one. -/
def neg (N : Native) (a : Prim Int) : Rs (Except ArrowErr (Prim Int)) :=
  if N.signed then tryUnary 0 a fun x => N.check (-x) else .ok (.error .invalid)

/-- `neg_wrapping` (numeric.rs:163-168). -/
def negWrapping (N : Native) (a : Prim Int) : Rs (Except ArrowErr (Prim Int)) :=
  (unary a fun x => N.wrap (-x)).map' .ok

/-! ### bitwise.rs -/

/-- `bitwise_and`, `bitwise_or`, `bitwise_xor`, `bitwise_and_not` (bitwise.rs:28-77, 123-133). -/
def bitwiseAnd {w : Nat} (l r : Prim (BitVec w)) : Rs (Except ArrowErr (Prim (BitVec w))) := binary l r (· &&& ·)
def bitwiseOr {w : Nat} (l r : Prim (BitVec w)) : Rs (Except ArrowErr (Prim (BitVec w))) := binary l r (· ||| ·)
def bitwiseXor {w : Nat} (l r : Prim (BitVec w)) : Rs (Except ArrowErr (Prim (BitVec w))) := binary l r (· ^^^ ·)
def bitwiseAndNot {w : Nat} (l r : Prim (BitVec w)) : Rs (Except ArrowErr (Prim (BitVec w))) :=
  binary l r fun x y => x &&& ~~~ y

/-- `bitwise_not` (bitwise.rs:113-119). -/
def bitwiseNot {w : Nat} (a : Prim (BitVec w)) : Rs (Prim (BitVec w)) := unary a (~~~ ·)

/-- `b.as_usize() as u32`, then the mask of `wrapping_shl` (bitwise.rs:89-92, 105-108): a signed number is extended
with its sign. -/
def shiftAmount {w : Nat} (signed : Bool) (b : BitVec w) : Nat :=
  ((if signed then b.signExtend 64 else b.zeroExtend 64).toNat % 4294967296) % w

/-- `bitwise_shift_left` and `bitwise_shift_right` (bitwise.rs:81-109); `>>` of a signed number keeps its sign. -/
def shiftLeft {w : Nat} (signed : Bool) (l r : Prim (BitVec w)) : Rs (Except ArrowErr (Prim (BitVec w))) :=
  binary l r fun x y => x <<< shiftAmount signed y
def shiftRight {w : Nat} (signed : Bool) (l r : Prim (BitVec w)) : Rs (Except ArrowErr (Prim (BitVec w))) :=
  binary l r fun x y => if signed then x.sshiftRight (shiftAmount signed y) else x >>> shiftAmount signed y

/-- `bitwise_and_scalar`, `bitwise_or_scalar`, `bitwise_xor_scalar` (bitwise.rs:137-172). -/
def bitwiseAndScalar {w : Nat} (a : Prim (BitVec w)) (s : BitVec w) : Rs (Prim (BitVec w)) := unary a (· &&& s)
def bitwiseOrScalar {w : Nat} (a : Prim (BitVec w)) (s : BitVec w) : Rs (Prim (BitVec w)) := unary a (· ||| s)
def bitwiseXorScalar {w : Nat} (a : Prim (BitVec w)) (s : BitVec w) : Rs (Prim (BitVec w)) := unary a (· ^^^ s)

/-- `bitwise_shift_left_scalar` and `bitwise_shift_right_scalar` (bitwise.rs:176-205). -/
def shiftLeftScalar {w : Nat} (signed : Bool) (a : Prim (BitVec w)) (s : BitVec w) : Rs (Prim (BitVec w)) :=
  unary a fun x => x <<< shiftAmount signed s
def shiftRightScalar {w : Nat} (signed : Bool) (a : Prim (BitVec w)) (s : BitVec w) : Rs (Prim (BitVec w)) :=
  unary a fun x => if signed then x.sshiftRight (shiftAmount signed s) else x >>> shiftAmount signed s

end Arrow
end Verif
