import Verif.Model.ArrowBool
/-!
Model of the aggregations of the patched `arrow-arith` crate (patches/arrow-arith/src/aggregate.rs).

The values of an array are those of `array.values()`, a slice of the right length.  The arithmetic of the element
types (`ArrowNativeTypeOp` of `arrow-array`) is a parameter.
-/
namespace Verif
namespace Arrow
variable {T : Type}

/-- The number of nulls an array has (`null_count`). -/
def nullCount : Option BoolBuf → Nat
  | none => 0
  | some n => (((n.bits.drop n.off).take n.len).filter (!·)).length

/-- `NumericAccumulator` (aggregate.rs:32-42): all three keep one value. -/
structure Acc (T : Type) where
  default : T
  accumulate : T → T → T
  accumulateNullable : T → T → Bool → T
  merge : T → T → T

/-- `select` (aggregate.rs:47-53). -/
def select (m : Bool) (a b : T) : T := if m then a else b

/-- `SumAccumulator` (aggregate.rs:56-83) over the addition that wraps. -/
def sumAcc (zero : T) (add : T → T → T) : Acc T :=
  ⟨zero, fun sum value => add sum value, fun sum value valid => select valid (add sum value) sum,
    fun sum other => add sum other⟩

/-- `MinAccumulator` (aggregate.rs:86-117) over the comparison `is_lt`, from `MAX_TOTAL_ORDER` on. -/
def minAcc (top : T) (lt : T → T → Bool) : Acc T :=
  ⟨top, fun min value => select (lt value min) value min,
    fun min value valid => select (valid && lt value min) value min,
    fun min other => select (lt other min) other min⟩

/-- `MaxAccumulator` (aggregate.rs:120-151) over the comparison `is_gt`, from `MIN_TOTAL_ORDER` on. -/
def maxAcc (bottom : T) (gt : T → T → Bool) : Acc T :=
  ⟨bottom, fun max value => select (gt value max) value max,
    fun max value valid => select (gt value max && valid) value max,
    fun max other => select (gt other max) other max⟩

/-- The loop of `reduce_accumulators` (aggregate.rs:153-171): the first half takes in the second one while there are
two.  The number of lanes is a power of two; `fuel` is that number. -/
def reduceTree (merge : T → T → T) : Nat → List T → List T
  | 0, l => l
  | fuel + 1, l =>
    if 2 ≤ l.length then
      reduceTree merge fuel (List.zipWith merge (l.take (l.length / 2)) (l.drop (l.length / 2)))
    else l

/-- `reduce_accumulators`: what the first one holds. -/
def reduceAcc (A : Acc T) (acc : List T) : T := (reduceTree A.merge acc.length acc).headD A.default

/-- `aggregate_nonnull_chunk` (aggregate.rs:174-181), and the loop over a remainder (aggregate.rs:219-222): lane `i`
takes the value `i`; lanes without a value stay. -/
def nonnullChunk (A : Acc T) : List T → List T → List T
  | a :: acc, v :: vs => A.accumulate a v :: nonnullChunk A acc vs
  | acc, _ => acc

/-- `aggregate_nullable_chunk` (aggregate.rs:184-194), and the loop over a remainder (aggregate.rs:263-269). -/
def nullableChunk (A : Acc T) (validity : BitVec 64) : List T → List T → BitVec 64 → List T
  | a :: acc, v :: vs, bit =>
    A.accumulateNullable a v (validity &&& bit != 0#64) :: nullableChunk A validity acc vs (bit <<< 1)
  | acc, _, _ => acc

/-- `slice::chunks_exact`: the chunks. -/
def chunksExact (n : Nat) (l : List T) : List (List T) :=
  (List.range (l.length / n)).map fun k => (l.drop (n * k)).take n

/-- `ChunksExact::remainder`. -/
def chunksRem (n : Nat) (l : List T) : List T := l.drop (n * (l.length / n))

/-- `aggregate_nonnull_simple` (aggregate.rs:196-205). -/
def nonnullSimple (A : Acc T) (values : List T) : T := values.foldl A.accumulate A.default

/-- `aggregate_nonnull_lanes` (aggregate.rs:208-225). -/
def nonnullLanes (A : Acc T) (lanes : Nat) (values : List T) : T :=
  let acc := (chunksExact lanes values).foldl (nonnullChunk A) (List.replicate lanes A.default)
  reduceAcc A (nonnullChunk A acc (chunksRem lanes values))

/-- `validity >>= LANES` (aggregate.rs:248, 259): a shift by all 64 bits is an overflow, which a build without
checks masks to no shift at all. -/
def shiftLanes (ov : Overflow) (validity : BitVec 64) (lanes : Nat) : Rs (BitVec 64) :=
  if 64 ≤ lanes then
    match ov with
    | .checked => .panic
    | .wrapping => .ok (validity >>> (lanes % 64))
  else .ok (validity >>> lanes)

/-- The loops over the chunks of `LANES` values (aggregate.rs:246-249, 257-260). -/
def laneLoop (ov : Overflow) (A : Acc T) (lanes : Nat) : List (List T) → List T → BitVec 64 →
    Rs (List T × BitVec 64)
  | [], acc, validity => .ok (acc, validity)
  | c :: cs, acc, validity =>
    let acc := nullableChunk A validity acc c 1#64
    match shiftLanes ov validity lanes with
    | .panic => .panic
    | .ok validity => laneLoop ov A lanes cs acc validity

/-- The loop over the chunks of 64 values with their words of validity (aggregate.rs:242-250). -/
def wordLoop (ov : Overflow) (A : Acc T) (lanes : Nat) : List (List T) → List (BitVec 64) → List T → Rs (List T)
  | c :: cs, w :: ws, acc =>
    match laneLoop ov A lanes (chunksExact lanes c) acc w with
    | .panic => .panic
    | .ok (acc, _) => wordLoop ov A lanes cs ws acc
  | _, _, acc => .ok acc

/-- `aggregate_nullable_lanes` (aggregate.rs:228-273). -/
def nullableLanes (ov : Overflow) (A : Acc T) (lanes : Nat) (values : List T) (validity : BoolBuf) : Rs T :=
  if values.length ≠ validity.len then .panic
  else
    match chunks validity.bits validity.off validity.len with
    | .panic => .panic
    | .ok c =>
      match wordLoop ov A lanes (chunksExact 64 values) c.words (List.replicate lanes A.default) with
      | .panic => .panic
      | .ok acc =>
        let rem := chunksRem 64 values
        match laneLoop ov A lanes (chunksExact lanes rem) acc c.rem with
        | .panic => .panic
        | .ok (acc, validity) => .ok (reduceAcc A (nullableChunk A validity acc (chunksRem lanes rem) 1#64))

/-- The number of lanes for the values that fit into a vector register (aggregate.rs:303-310, 319-326): one of the
constants 64, 32, 16, 8, 4 and 2, or else 1. -/
def lanesOf (n : Nat) : Nat := if n = 64 ∨ n = 32 ∨ n = 16 ∨ n = 8 ∨ n = 4 ∨ n = 2 then n else 1

/-- `aggregate` (aggregate.rs:291-335), for a build with vector registers of `vec` bytes
(`PREFERRED_VECTOR_SIZE`, aggregate.rs:277-284: 16, 32 or 64) and elements of `size` bytes. -/
def aggregate (ov : Overflow) (vec size : Nat) (isFloat : Bool) (A : Acc T) (values : List T)
    (nulls : Option BoolBuf) : Rs (Option T) :=
  let nonnull : Rs (Option T) :=
    if isFloat then
      if lanesOf (vec * 2 / size) = 1 then .ok (some (nonnullSimple A values))
      else .ok (some (nonnullLanes A (lanesOf (vec * 2 / size)) values))
    else .ok (some (nonnullSimple A values))
  if nullCount nulls = values.length then .ok none
  else
    match nulls with
    | some n =>
      if 0 < nullCount nulls then (nullableLanes ov A (lanesOf (vec / size)) values n).map' some else nonnull
    | none => nonnull

/-- `min_boolean` (aggregate.rs:346-393), which `bool_and` (aggregate.rs:744-746) is too. -/
def minBoolean (a : BoolArray) : Rs (Option Bool) :=
  if nullCount a.nulls = a.values.len then .ok none
  else
    match a.nulls with
    | none =>
      match chunks a.values.bits a.values.off a.values.len with
      | .panic => .panic
      | .ok c =>
        if c.words.any (· != BitVec.allOnes 64) then .ok (some false)
        else if ((List.range 64).filter c.rem.getLsbD).length ≠ c.remLen then .ok (some false)
        else .ok (some true)
    | some n =>
      match chunks n.bits n.off n.len with
      | .panic => .panic
      | .ok n =>
        match chunks a.values.bits a.values.off a.values.len with
        | .panic => .panic
        | .ok c =>
          if (c.words.zip n.words).any (fun (value, validity) => (~~~ value &&& validity) != 0#64) then
            .ok (some false)
          else if (~~~ c.rem &&& n.rem) != 0#64 then .ok (some false)
          else .ok (some true)

/-- `BitChunks::iter_padded`: the remainder as a last word. -/
def Chunks.padded (c : Chunks) : List (BitVec 64) := c.words ++ [c.rem]

/-- `max_boolean` (aggregate.rs:404-431), which `bool_or` (aggregate.rs:751-753) is too. -/
def maxBoolean (a : BoolArray) : Rs (Option Bool) :=
  if nullCount a.nulls = a.values.len then .ok none
  else
    match a.nulls with
    | none =>
      match chunks a.values.bits a.values.off a.values.len with
      | .panic => .panic
      | .ok c => .ok (some (((c.padded.map (· != 0#64)).find? id).getD false))
    | some n =>
      match chunks n.bits n.off n.len with
      | .panic => .panic
      | .ok n =>
        match chunks a.values.bits a.values.off a.values.len with
        | .panic => .panic
        | .ok c =>
          .ok (some ((((c.padded.zip n.padded).map fun (value, validity) => (value &&& validity) != 0#64).find?
            id).getD false))

/-- `Iterator::reduce`. -/
def reduce (f : T → T → T) : List T → Option T
  | [] => none
  | x :: xs => some (xs.foldl f x)

/-- `NullBuffer::valid_indices`. -/
def validIndices (n : BoolBuf) : List Nat :=
  (List.range n.len).filter fun i => ((n.bits.drop n.off).take n.len).getD i false

/-- `min_max_helper` (aggregate.rs:434-463): strings, bytes and dictionaries; `cmp acc item` says that `item`
replaces `acc`.  `min_max_view_helper` (aggregate.rs:469-504) goes through the same steps. -/
def minMaxHelper [Inhabited T] (cmp : T → T → Bool) (values : List T) (nulls : Option BoolBuf) : Rs (Option T) :=
  if nullCount nulls = values.length then .ok none
  else if nullCount nulls = 0 then
    .ok (reduce (fun acc item => if cmp acc item then item else acc) values)
  else
    match nulls with
    | none => .panic
    | some n =>
      .ok ((reduce (fun acc i => if cmp (values.getD acc Inhabited.default) (values.getD i Inhabited.default) then i
        else acc) (validIndices n)).map fun i => values.getD i Inhabited.default)

/-- `max_string`, `max_binary` and their views (aggregate.rs:507-544), `max_array` of a dictionary
(aggregate.rs:628-650). -/
def maxBytes [Inhabited T] (lt : T → T → Bool) (values : List T) (nulls : Option BoolBuf) : Rs (Option T) :=
  minMaxHelper (fun a b => lt a b) values nulls

/-- `min_string`, `min_binary` and their views, `min_array` of a dictionary (aggregate.rs:618-650). -/
def minBytes [Inhabited T] (lt : T → T → Bool) (values : List T) (nulls : Option BoolBuf) : Rs (Option T) :=
  minMaxHelper (fun a b => lt b a) values nulls

/-- One chunk of `bit_operation!` (aggregate.rs:694-701). -/
def maskChunk (op : T → T → T) (mask : BitVec 64) : List T → BitVec 64 → T → T
  | [], _, result => result
  | v :: vs, index, result =>
    maskChunk op mask vs (index <<< 1) (if mask &&& index != 0#64 then op result v else result)

/-- The chunks with their words (aggregate.rs:691-702). -/
def maskChunks (op : T → T → T) : List (List T) → List (BitVec 64) → T → T
  | c :: cs, w :: ws, result => maskChunks op cs ws (maskChunk op w c 1#64 result)
  | _, _, result => result

/-- The values left over, with their index (aggregate.rs:706-710). -/
def maskRem (op : T → T → T) (mask : BitVec 64) : List T → Nat → T → T
  | [], _, result => result
  | v :: vs, i, result =>
    maskRem op mask vs (i + 1) (if mask &&& (1#64 <<< i) != 0#64 then op result v else result)

/-- `bit_operation!` (aggregate.rs:652-717). -/
def bitOperation (default : T) (op : T → T → T) (values : List T) (nulls : Option BoolBuf) : Rs (Option T) :=
  if nullCount nulls = values.length then .ok none
  else
    match nulls with
    | none => .ok (some (values.foldl op default))
    | some n =>
      match chunks n.bits n.off n.len with
      | .panic => .panic
      | .ok c =>
        .ok (some (maskRem op c.rem (chunksRem 64 values) 0 (maskChunks op (chunksExact 64 values) c.words default)))

/-- `bit_and` (aggregate.rs:719-725): from -1 on. -/
def bitAnd {w : Nat} (values : List (BitVec w)) (nulls : Option BoolBuf) : Rs (Option (BitVec w)) :=
  bitOperation (-1#w) (· &&& ·) values nulls

/-- `bit_or` (aggregate.rs:726-732). -/
def bitOr {w : Nat} (values : List (BitVec w)) (nulls : Option BoolBuf) : Rs (Option (BitVec w)) :=
  bitOperation 0#w (· ||| ·) values nulls

/-- `bit_xor` (aggregate.rs:733-739). -/
def bitXor {w : Nat} (values : List (BitVec w)) (nulls : Option BoolBuf) : Rs (Option (BitVec w)) :=
  bitOperation 0#w (· ^^^ ·) values nulls

/-- `Iterator::try_fold` with `add_checked`. -/
def tryFold (add : T → T → Option T) : T → List T → Option T
  | sum, [] => some sum
  | sum, v :: vs =>
    match add sum v with
    | none => none
    | some sum => tryFold add sum vs

/-- `sum_checked` (aggregate.rs:761-801); no result of the inner kind for the error of an overflow.  The indices that
`try_for_each_valid_idx` goes through are those of the valid slots, in order. -/
def sumChecked [Inhabited T] (zero : T) (add : T → T → Option T) (values : List T) (nulls : Option BoolBuf) :
    Option (Option T) :=
  if nullCount nulls = values.length then some none
  else
    match nulls with
    | none => (tryFold add zero values).map some
    | some n => (tryFold add zero ((validIndices n).map fun i => values.getD i Inhabited.default)).map some

/-- `add_checked` of signed and of unsigned integers (`ArrowNativeTypeOp`). -/
def addSigned {w : Nat} (a b : BitVec w) : Option (BitVec w) := if a.saddOverflow b then none else some (a + b)
def addUnsigned {w : Nat} (a b : BitVec w) : Option (BitVec w) := if a.uaddOverflow b then none else some (a + b)

/-- `sum_array` of a dictionary (aggregate.rs:550-578): over the slots, looked up. -/
def sumDict (zero : T) (add : T → T → T) (slots : List (Option T)) : Option T :=
  if (slots.filter Option.isNone).length = slots.length then none
  else some (slots.foldl (fun sum s => match s with | some v => add sum v | none => sum) zero)

/-- `sum_array_checked` of a dictionary (aggregate.rs:584-614). -/
def sumDictChecked (zero : T) (add : T → T → Option T) (slots : List (Option T)) : Option (Option T) :=
  if (slots.filter Option.isNone).length = slots.length then some none
  else (slots.foldlM (fun sum s => match s with | some v => add sum v | none => some sum) zero).map some

end Arrow
end Verif
