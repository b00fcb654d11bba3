import Verif.Model.Basic
import Verif.Model.Bincode
/-!
Bounded arrays as message payloads: `CuArray` (core/cu29_runtime/src/payload.rs) and `CuArrayVec`
(components/tasks/cu_apriltag/src/lib.rs:40-102), both on top of `arrayvec::ArrayVec`.
-/
namespace Verif
namespace Payload
open Bincode
variable {T : Type}

/-- `ArrayVec<T, N>` of the external crate `arrayvec`: its elements.  `push` panics when the array
is full; `new` panics when the capacity does not fit in 32 bits. -/
structure ArrayVec (T : Type) (N : Nat) where
  elems : List T
  deriving DecidableEq, Repr

variable {N : Nat}

def ArrayVec.new (T : Type) (N : Nat) : Rs (ArrayVec T N) := if 4294967295 < N then .panic else .ok ⟨[]⟩

def ArrayVec.push (a : ArrayVec T N) (x : T) : Rs (ArrayVec T N) :=
  if a.elems.length < N then .ok ⟨a.elems ++ [x]⟩ else .panic

/-- `for x in l { a.push(x) }` -/
def ArrayVec.pushAll (a : ArrayVec T N) : List T → Rs (ArrayVec T N)
  | [] => .ok a
  | x :: l =>
    match a.push x with
    | .panic => .panic
    | .ok a => a.pushAll l

/-- `CuArray::fill_from_iter` (payload.rs:20-28). -/
def ArrayVec.fillFromIter (_ : ArrayVec T N) (iter : List T) : Rs (ArrayVec T N) :=
  ArrayVec.pushAll ⟨[]⟩ (iter.take N)

/-- `Encode for CuArray` (payload.rs:47-65): the length as `u32` (a cast), the elements. -/
def encArr [Codec T] (a : ArrayVec T N) : Bytes :=
  enc (UInt32.ofNat a.elems.length) ++ encAll a.elems

/-- The decoding loop of `CuArray` (payload.rs:84-87): decode an element, push it; `n` times. -/
def decPush [Codec T] : Nat → ArrayVec T N → Dec (Rs (ArrayVec T N))
  | 0, a => pure (.ok a)
  | n + 1, a => do
    let x ← (dec : Dec T)
    match a.push x with
    | .panic => pure .panic
    | .ok a => decPush n a

/-- `Decode for CuArray` (payload.rs:67-90).  A panic is a result of the decoder. -/
def decArr (T : Type) (N : Nat) [Codec T] : Dec (Rs (ArrayVec T N)) := do
  let len ← (dec : Dec UInt32)
  if len.toNat > N then Dec.fail .other
  else
    match ArrayVec.new T N with
    | .panic => pure .panic
    | .ok a => decPush len.toNat a

/-- `Encode for CuArrayVec` (cu_apriltag lib.rs:48-56): as a slice. -/
def encVec [Codec T] (a : ArrayVec T N) : Bytes := enc a.elems

/-- `Decode`/`BorrowDecode for CuArrayVec` (cu_apriltag lib.rs:58-102): as a vector, then pushed. -/
def decVec (T : Type) (N : Nat) [Codec T] : Dec (Rs (ArrayVec T N)) := do
  let inner ← (dec : Dec (List T))
  if inner.length > N then Dec.fail .lengthMismatch
  else
    match ArrayVec.new T N with
    | .panic => pure .panic
    | .ok a => pure (a.pushAll inner)

end Payload
end Verif
