import Verif.Model.Basic
/-!
`AlignedBuffer` (core/cu29_runtime/src/pool.rs:547-592): a slice of elements in memory that it allocates itself.

The memory is a function from addresses to bytes, with the list of the blocks the allocator gave out.  The
allocator is a function of the number of buffers created before, the blocks in use and the layout: an address, or
null.  An element is the list of its bytes.  Not
modelled: that fresh memory is uninitialised in the sense of the language (here it has arbitrary bytes).
-/
namespace Verif.AlignedBuffer

/-- The size and the alignment of the type `E` of the elements. -/
structure Ty where
  size : Nat
  align : Nat
  deriving DecidableEq, Repr

/-- `std::alloc::Layout`. -/
structure Layout where
  size : Nat
  align : Nat
  deriving DecidableEq, Repr

/-- `usize::is_power_of_two`. -/
def isPow2 (n : Nat) : Bool := n == 2 ^ n.log2

/-- `Layout::from_size_align(size, align)` (std): the alignment is a power of two and the size, rounded up to the
alignment, is at most `isize::MAX`. -/
def Layout.fromSizeAlign (size align : Nat) : Option Layout :=
  if isPow2 align && decide (size + (align - 1) < 2 ^ 63) then some ⟨size, align⟩ else none

/-- `num_elements * size_of::<E>()` on `usize`. -/
def mulUsize (ov : Overflow) (a b : Nat) : Rs Nat :=
  if a * b < 2 ^ 64 then .ok (a * b)
  else match ov with
    | .checked => .panic
    | .wrapping => .ok (a * b % 2 ^ 64)

/-- `AlignedBuffer` (pool.rs:549-553). -/
structure Buf where
  ptr : Nat
  size : Nat
  layout : Layout
  deriving DecidableEq, Repr

/-- `AlignedBuffer::new` (pool.rs:556-567): `answer` is what `alloc` returns for the layout (null is `none`). -/
def Buf.new (ov : Overflow) (ty : Ty) (n align : Nat) (answer : Layout → Option Nat) : Rs Buf := do
  let bytes ← mulUsize ov n ty.size
  let layout ← Rs.ofOption (Layout.fromSizeAlign bytes align)
  let ptr ← Rs.ofOption (answer layout)
  return ⟨ptr, n, layout⟩

/-- Memory: its bytes and the blocks given out, as address and size. -/
structure World where
  mem : Nat → UInt8
  live : List (Nat × Nat)

/-- Bytes `a .. a + n`. -/
def World.load (w : World) (a n : Nat) : List UInt8 := (List.range n).map fun i => w.mem (a + i)
def World.store (w : World) (a : Nat) (bs : List UInt8) : World :=
  { w with mem := fun x => if a ≤ x ∧ x < a + bs.length then bs.getD (x - a) 0 else w.mem x }

/-- `buf[i]` by `Deref` (pool.rs:569-575): the slice has `size` elements from `ptr`; the index is checked. -/
def Buf.get (ty : Ty) (b : Buf) (w : World) (i : Nat) : Rs (List UInt8) :=
  if i < b.size then .ok (w.load (b.ptr + i * ty.size) ty.size) else .panic

/-- `buf[i] = v` by `DerefMut` (pool.rs:577-581). -/
def Buf.set (ty : Ty) (b : Buf) (w : World) (i : Nat) (v : List UInt8) : Rs World :=
  if i < b.size then .ok (w.store (b.ptr + i * ty.size) v) else .panic

/-- The block a `dealloc` gives back (pool.rs:583-591): the pointer with the size of the layout. -/
def Buf.freed (b : Buf) : Nat × Nat := (b.ptr, b.layout.size)

/-- What a program does with buffers: buffers are numbered in the order of their creation. -/
inductive Op where
  | create (n align : Nat)
  | write (buf i : Nat) (v : List UInt8)
  | read (buf i : Nat)
  | drop (buf : Nat)
  deriving Repr

/-- A program: its memory, and its buffers (`none` once dropped). -/
structure Prog where
  w : World
  bufs : List (Option Buf)

abbrev Allocator := Nat → List (Nat × Nat) → Layout → Option Nat

/-- One operation.  What a read sees is its result.  An operation on a buffer that does not exist, or was dropped,
does nothing (the compiler rejects such programs). -/
def Prog.step (ov : Overflow) (ty : Ty) (al : Allocator) (p : Prog) : Op → Rs (Prog × Option (List UInt8))
  | .create n align => do
    let b ← Buf.new ov ty n align (al p.bufs.length p.w.live)
    return (⟨{ p.w with live := (b.ptr, b.layout.size) :: p.w.live }, p.bufs ++ [some b]⟩, none)
  | .write k i v =>
    match p.bufs[k]? with
    | some (some b) => do
      let w ← b.set ty p.w i v
      return (⟨w, p.bufs⟩, none)
    | _ => return (p, none)
  | .read k i =>
    match p.bufs[k]? with
    | some (some b) => do
      let v ← b.get ty p.w i
      return (p, some v)
    | _ => return (p, none)
  | .drop k =>
    match p.bufs[k]? with
    | some (some b) => return (⟨{ p.w with live := p.w.live.erase b.freed }, p.bufs.set k none⟩, none)
    | _ => return (p, none)

/-- A run, with what its reads saw. -/
def Prog.run (ov : Overflow) (ty : Ty) (al : Allocator) : Prog → List Op → Rs (Prog × List (List UInt8))
  | p, [] => .ok (p, [])
  | p, o :: os => do
    let (p', r) ← p.step ov ty al o
    let (q, rs) ← Prog.run ov ty al p' os
    return (q, r.toList ++ rs)

def Prog.init (mem : Nat → UInt8) : Prog := ⟨⟨mem, []⟩, []⟩

end Verif.AlignedBuffer
