import Verif.Model.Basic
/-!
Model of the boolean kernels of the patched `arrow-arith` crate (patches/arrow-arith/src/boolean.rs).

The buffers and the arrays themselves are those of the crates `arrow-buffer` and `arrow-array`, which are not part
of the repository; what the kernels use of them is modelled here bit by bit, from their documentation.  A buffer
is the list of its bits, lowest bit of the first byte first, eight per byte.  Reading bits that the buffer does not
have is a failed assertion or undefined behaviour there, and a panic here.
-/
namespace Verif
namespace Arrow

/-- `arrow_buffer::BooleanBuffer`: `len` bits of a buffer from the bit `off` on. -/
structure BoolBuf where
  bits : List Bool
  off : Nat
  len : Nat
  deriving DecidableEq, Repr

/-- `BooleanBuffer::new`: the bits must exist. -/
def BoolBuf.new (bits : List Bool) (off len : Nat) : Rs BoolBuf :=
  if bits.length < off + len then .panic else .ok ⟨bits, off, len⟩

/-- The bits as one word of 64, lowest first. -/
def word : List Bool → BitVec 64
  | [] => 0#64
  | b :: bs => (word bs <<< 1) ||| (if b then 1#64 else 0#64)

/-- `arrow_buffer::BitChunks`: the full words (`iter`), and what is left (`remainder_bits`, `remainder_len`). -/
structure Chunks where
  words : List (BitVec 64)
  rem : BitVec 64
  remLen : Nat
  deriving DecidableEq, Repr

/-- `Buffer::bit_chunks`: `len` bits from the bit `off` on, whatever the alignment. -/
def chunks (bits : List Bool) (off len : Nat) : Rs Chunks :=
  if bits.length < off + len then .panic
  else .ok ⟨(List.range (len / 64)).map fun k => word ((bits.drop (off + 64 * k)).take 64),
    word ((bits.drop (off + 64 * (len / 64))).take (len % 64)), len % 64⟩

/-- The lowest `n` bits of a word. -/
def wordBits (n : Nat) (w : BitVec 64) : List Bool := (List.range n).map w.getLsbD

/-- The buffer written: the words, then as many bytes of the remainder as needed. -/
def store (words : List (BitVec 64)) (rem : BitVec 64) (remLen : Nat) : List Bool :=
  words.flatMap (wordBits 64) ++ wordBits (8 * ((remLen + 7) / 8)) rem

/-- `bitwise_bin_op_helper`. -/
def binOp (l : List Bool) (lo : Nat) (r : List Bool) (ro : Nat) (len : Nat)
    (op : BitVec 64 → BitVec 64 → BitVec 64) : Rs (List Bool) :=
  match chunks l lo len with
  | .panic => .panic
  | .ok a =>
    match chunks r ro len with
    | .panic => .panic
    | .ok b => .ok (store (List.zipWith op a.words b.words) (op a.rem b.rem) a.remLen)

/-- `bitwise_quaternary_op_helper`. -/
def quadOp (a : List Bool) (ao : Nat) (b : List Bool) (bo : Nat) (c : List Bool) (co : Nat) (d : List Bool)
    (d' : Nat) (len : Nat) (op : BitVec 64 → BitVec 64 → BitVec 64 → BitVec 64 → BitVec 64) : Rs (List Bool) :=
  match chunks a ao len with
  | .panic => .panic
  | .ok a =>
    match chunks b bo len with
    | .panic => .panic
    | .ok b =>
      match chunks c co len with
      | .panic => .panic
      | .ok c =>
        match chunks d d' len with
        | .panic => .panic
        | .ok d =>
          .ok (store (List.zipWith (fun f x => f x) (List.zipWith (fun f x => f x) (List.zipWith op a.words b.words)
            c.words) d.words) (op a.rem b.rem c.rem d.rem) a.remLen)

/-- `&BooleanBuffer & &BooleanBuffer` and `|`: lengths must agree; the result starts at bit 0. -/
def BoolBuf.combine (op : BitVec 64 → BitVec 64 → BitVec 64) (a b : BoolBuf) : Rs BoolBuf :=
  if a.len ≠ b.len then .panic
  else
    match binOp a.bits a.off b.bits b.off a.len op with
    | .panic => .panic
    | .ok bits => .ok ⟨bits, 0, a.len⟩

/-- `!&BooleanBuffer` (`buffer_unary_not`). -/
def BoolBuf.not (a : BoolBuf) : Rs BoolBuf :=
  match chunks a.bits a.off a.len with
  | .panic => .panic
  | .ok c => .ok ⟨store (c.words.map (~~~ ·)) (~~~ c.rem) c.remLen, 0, a.len⟩

/-- `BooleanBuffer::new_set` and `new_unset`. -/
def BoolBuf.const (b : Bool) (len : Nat) : BoolBuf := ⟨List.replicate (8 * ((len + 7) / 8)) b, 0, len⟩

/-- `arrow_array::BooleanArray`: the values and, if there is one, the buffer of validity (a set bit is a slot
that is not null). -/
structure BoolArray where
  values : BoolBuf
  nulls : Option BoolBuf
  deriving DecidableEq, Repr

/-- `BooleanArray::new`: the lengths must agree. -/
def BoolArray.new (values : BoolBuf) (nulls : Option BoolBuf) : Rs BoolArray :=
  match nulls with
  | none => .ok ⟨values, none⟩
  | some n => if n.len ≠ values.len then .panic else .ok ⟨values, some n⟩

/-- `Array::slice`: both buffers are shared, the offset moves. -/
def BoolArray.slice (a : BoolArray) (off len : Nat) : Rs BoolArray :=
  if a.values.len < off + len then .panic
  else .ok ⟨⟨a.values.bits, a.values.off + off, len⟩, a.nulls.map fun n => ⟨n.bits, n.off + off, len⟩⟩

/-- The end of `and_kleene` and `or_kleene` (boolean.rs:121-122, 217-218): the bits of validity, if there are any,
and the values. -/
def kleeneArray (len : Nat) (nulls : Option (List Bool)) (values : Rs BoolBuf) : Rs (Option BoolArray) := do
  let nulls ← match nulls with
    | none => pure none
    | some b => (BoolBuf.new b 0 len).map' some
  let v ← values
  (BoolArray.new v nulls).map' some

/-- The bits of validity in `and_kleene` (boolean.rs:70-120). -/
def andKleeneNulls (l r : BoolArray) : Rs (Option (List Bool)) :=
  match l.nulls, r.nulls with
  | none, none => .ok none
  | some ln, none =>
    (binOp ln.bits ln.off r.values.bits r.values.off l.values.len fun a b => a ||| ~~~ b).map' some
  | none, some rn =>
    (binOp rn.bits rn.off l.values.bits l.values.off l.values.len fun a b => a ||| ~~~ b).map' some
  | some ln, some rn =>
    (quadOp ln.bits ln.off l.values.bits l.values.off rn.bits rn.off r.values.bits r.values.off l.values.len
      fun a b c d => (a ||| (c &&& ~~~ d)) &&& (c ||| (a &&& ~~~ b))).map' some

/-- `and_kleene` (boolean.rs:60-123); no result for the error of different lengths. -/
def andKleene (l r : BoolArray) : Rs (Option BoolArray) :=
  if l.values.len ≠ r.values.len then .ok none
  else do
    let nulls ← andKleeneNulls l r
    kleeneArray l.values.len nulls (l.values.combine (· &&& ·) r.values)

/-- The bits of validity in `or_kleene` (boolean.rs:165-215). -/
def orKleeneNulls (l r : BoolArray) : Rs (Option (List Bool)) :=
  match l.nulls, r.nulls with
  | none, none => .ok none
  | some ln, none =>
    (binOp ln.bits ln.off r.values.bits r.values.off l.values.len fun a b => a ||| b).map' some
  | none, some rn =>
    (binOp rn.bits rn.off l.values.bits l.values.off l.values.len fun a b => a ||| b).map' some
  | some ln, some rn =>
    (quadOp ln.bits ln.off l.values.bits l.values.off rn.bits rn.off r.values.bits r.values.off l.values.len
      fun a b c d => (a ||| (c &&& d)) &&& (c ||| (a &&& b))).map' some

/-- `or_kleene` (boolean.rs:155-219). -/
def orKleene (l r : BoolArray) : Rs (Option BoolArray) :=
  if l.values.len ≠ r.values.len then .ok none
  else do
    let nulls ← orKleeneNulls l r
    kleeneArray l.values.len nulls (l.values.combine (· ||| ·) r.values)

/-- `NullBuffer::union`: null where one of them is. -/
def unionNulls : Option BoolBuf → Option BoolBuf → Rs (Option BoolBuf)
  | some a, some b => (a.combine (· &&& ·) b).map' some
  | some a, none => .ok (some a)
  | none, b => .ok b

/-- `binary_boolean_kernel` (boolean.rs:222-239). -/
def boolKernel (op : BoolBuf → BoolBuf → Rs BoolBuf) (l r : BoolArray) : Rs (Option BoolArray) :=
  if l.values.len ≠ r.values.len then .ok none
  else do
    let nulls ← unionNulls l.nulls r.nulls
    let v ← op l.values r.values
    (BoolArray.new v nulls).map' some

/-- `and` (boolean.rs:254-256). -/
def and (l r : BoolArray) : Rs (Option BoolArray) := boolKernel (BoolBuf.combine (· &&& ·)) l r

/-- `or` (boolean.rs:271-273). -/
def or (l r : BoolArray) : Rs (Option BoolArray) := boolKernel (BoolBuf.combine (· ||| ·)) l r

/-- `and_not` (boolean.rs:289-294): the offset of the right operand goes with the bits of the left one, and the
other way round; the result, which starts at bit 0, is read from the offset of the left operand on. -/
def andNot (l r : BoolArray) : Rs (Option BoolArray) :=
  boolKernel (fun a b => do
    let bits ← binOp a.bits b.off b.bits a.off a.len fun x y => x &&& ~~~ y
    BoolBuf.new bits l.values.off l.values.len) l r

/-- `not` (boolean.rs:308-312). -/
def not (a : BoolArray) : Rs BoolArray := do
  let v ← a.values.not
  BoolArray.new v a.nulls

/-- `is_null` (boolean.rs:325-332) of an array with the given length and buffer of validity. -/
def isNull (len : Nat) (nulls : Option BoolBuf) : Rs BoolArray :=
  match nulls with
  | none => BoolArray.new (BoolBuf.const false len) none
  | some n => do
    let v ← n.not
    BoolArray.new v none

/-- `is_not_null` (boolean.rs:345-351). -/
def isNotNull (len : Nat) (nulls : Option BoolBuf) : Rs BoolArray :=
  match nulls with
  | none => BoolArray.new (BoolBuf.const true len) none
  | some n => BoolArray.new n none

end Arrow
end Verif
