import Verif.Model.Basic
import Verif.Model.Bincode
/-!
Buffer pools and shared handles: core/cu29_runtime/src/pool.rs:17-298 (host memory; the cuda pool
is in Model/CudaPool, `AlignedBuffer` is in Model/AlignedBuffer).  A `CuHandle` is an `Arc<Mutex<CuHandleInner>>`: the world has
the list of the allocations (`cells`) with their strong counts, and the list of all the handles ever
made, with the allocation they point to or `none` once dropped.  Dropping the last handle of a pooled
buffer takes two steps, since the buffer goes back to its pool after the count has reached zero and
other threads can run in between.  Everything else is one step: the pool has a lock, counts are atomic.
Accessing an element out of bounds in a locked buffer is a panic, the end of the history.
-/
namespace Verif
namespace Pool
open Bincode
variable {E : Type}

/-- A buffer: `addr` tells the buffers of one pool apart. -/
structure Buf (E : Type) where
  addr : Nat
  data : List E
  deriving DecidableEq, Repr

/-- `CuHandleInner` (pool.rs:95-98).  A pooled buffer (`ReusableOwned`) knows its pool. -/
inductive Inner (E : Type)
  | pooled (pool : Nat) (b : Buf E)
  | detached (d : List E)
  deriving DecidableEq, Repr

/-- `Deref for CuHandleInner` (pool.rs:114-123). -/
def Inner.data : Inner E → List E
  | .pooled _ b => b.data
  | .detached d => d

/-- `DerefMut for CuHandleInner` (pool.rs:125-132): the slice with new content. -/
def Inner.setData (d : List E) : Inner E → Inner E
  | .pooled p b => .pooled p ⟨b.addr, d⟩
  | .detached _ => .detached d

/-- The allocation behind an `Arc`. -/
structure Cell (E : Type) where
  strong : Nat
  inner : Inner E
  deriving DecidableEq, Repr

/-- `CuHostMemoryPool` (pool.rs:217-224).  `objects` is the stack of the external `object_pool`, its
top first; `returning` are the buffers whose last handle is gone and that are about to be pushed. -/
structure HostPool (E : Type) where
  id : String
  objects : List (Buf E)
  returning : List (Buf E)
  size : Nat
  bufferSize : Nat
  deriving DecidableEq, Repr

/-- All the pools, allocations and handles.  `registry` is `POOL_REGISTRY` (pool.rs:32). -/
structure World (E : Type) where
  pools : List (HostPool E)
  registry : List (String × Nat)
  cells : List (Option (Cell E))
  handles : List (Option Nat)
  deriving DecidableEq, Repr

def World.empty : World E := ⟨[], [], [], []⟩

/-- What a program can do.  `newPool` carries the values its initializer returns, in order. -/
inductive Op (E : Type)
  | newPool (id : String) (inits : List (List E))
  | acquire (p : Nat)
  | copyFrom (p h : Nat)
  | newDetached (d : List E)
  | clone (h : Nat)
  | drop (h : Nat)
  | finishDrop (p k : Nat)
  | read (h : Nat)
  | write (h i : Nat) (v : E)
  | spaceLeft (p : Nat)
  | statistics
  deriving DecidableEq, Repr

/-- What it gets.  `notAProgram`: use of a handle that was dropped or of a pool that was not made,
which the compiler rejects. -/
inductive Out (E : Type)
  | done
  | err
  | pool (p : Nat)
  | handle (h : Option Nat)
  | content (d : List E)
  | count (n : Nat)
  | stats (l : List (String × Nat × Nat × Nat))
  | notAProgram
  deriving DecidableEq, Repr

/-- `HashMap::insert` into the registry (pool.rs:36-42). -/
def register (r : List (String × Nat)) (id : String) (p : Nat) : List (String × Nat) :=
  r.filter (fun e => e.1 != id) ++ [(id, p)]

/-- `Pool::new(size, init)` of `object_pool`: the buffers in order of creation, the last one on top. -/
def makeBufs (inits : List (List E)) : List (Buf E) :=
  (inits.zipIdx.map (fun e => ⟨e.2, e.1⟩)).reverse

/-- `CuHostMemoryPool::new` (pool.rs:226-244); `es` is the size of an element in bytes.  Taking a
buffer to know its length panics when there is none; the identifier has at most 64 bytes. -/
def World.newPool (es : Nat) (w : World E) (id : String) (inits : List (List E)) : Rs (World E × Out E) :=
  match makeBufs inits with
  | [] => .panic
  | b :: bs =>
    if id.utf8ByteSize ≤ 64 then
      .ok ({ w with
              pools := w.pools ++ [⟨id, b :: bs, [], inits.length, b.data.length * es⟩]
              registry := register w.registry id w.pools.length },
            .pool w.pools.length)
    else .ok (w, .err)

/-- A new `CuHandle(Arc::new(Mutex::new(inner)))`. -/
def World.addHandle (w : World E) (inner : Inner E) : World E × Out E :=
  ({ w with
      cells := w.cells ++ [some ⟨1, inner⟩]
      handles := w.handles ++ [some w.cells.length] },
    .handle (some w.handles.length))

/-- The allocation behind a live handle. -/
def World.cell? (w : World E) (h : Nat) : Option (Nat × Cell E) :=
  match w.handles[h]? with
  | some (some c) =>
    match w.cells[c]? with
    | some (some cell) => some (c, cell)
    | _ => none
  | _ => none

/-- `try_pull_owned` (external): pops a buffer. -/
def World.pull (w : World E) (p : Nat) (pool : HostPool E) : Option (World E × Buf E) :=
  match pool.objects with
  | [] => none
  | b :: bs => some ({ w with pools := w.pools.set p { pool with objects := bs } }, b)

/-- `acquire` (pool.rs:265-269). -/
def World.acquire (w : World E) (p : Nat) : World E × Out E :=
  match w.pools[p]? with
  | none => (w, .notAProgram)
  | some pool =>
    match w.pull p pool with
    | none => (w, .handle none)
    | some (w, b) => w.addHandle (.pooled p b)

/-- `copy_from` (pool.rs:271-293): panics when there is no free buffer or when lengths differ. -/
def World.copyFrom (w : World E) (p h : Nat) : Rs (World E × Out E) :=
  match w.pools[p]?, w.cell? h with
  | some pool, some (_, src) =>
    match w.pull p pool with
    | none => .panic
    | some (w, b) =>
      if b.data.length = src.inner.data.length then .ok (w.addHandle (.pooled p ⟨b.addr, src.inner.data⟩))
      else .panic
  | _, _ => .ok (w, .notAProgram)

/-- `CuHandle::clone`: one more reference to the allocation (pool.rs:135-136). -/
def World.clone (w : World E) (h : Nat) : World E × Out E :=
  match w.cell? h with
  | none => (w, .notAProgram)
  | some (c, cell) =>
    ({ w with
        cells := w.cells.set c (some { cell with strong := cell.strong + 1 })
        handles := w.handles ++ [some c] },
      .handle (some w.handles.length))

/-- Start of `ReusableOwned::drop` (external): the buffer is on its way to its pool. -/
def giveBack (pools : List (HostPool E)) : Inner E → List (HostPool E)
  | .detached _ => pools
  | .pooled p b =>
    match pools[p]? with
    | none => pools
    | some pool => pools.set p { pool with returning := b :: pool.returning }

/-- Drop of a `CuHandle`: one reference less; the last one drops the content. -/
def World.drop (w : World E) (h : Nat) : World E × Out E :=
  match w.cell? h with
  | none => (w, .notAProgram)
  | some (c, cell) =>
    if cell.strong = 1 then
      ({ w with
          pools := giveBack w.pools cell.inner
          cells := w.cells.set c none
          handles := w.handles.set h none }, .done)
    else
      ({ w with
          cells := w.cells.set c (some { cell with strong := cell.strong - 1 })
          handles := w.handles.set h none }, .done)

/-- End of `ReusableOwned::drop` (external): the buffer is pushed. -/
def World.finishDrop (w : World E) (p k : Nat) : World E × Out E :=
  match w.pools[p]? with
  | none => (w, .notAProgram)
  | some pool =>
    match pool.returning[k]? with
    | none => (w, .notAProgram)
    | some b =>
      ({ w with
          pools := w.pools.set p { pool with
            objects := b :: pool.objects, returning := pool.returning.eraseIdx k } }, .done)

/-- `with_inner` (pool.rs:153-156): the whole slice. -/
def World.read (w : World E) (h : Nat) : Out E :=
  match w.cell? h with
  | none => .notAProgram
  | some (_, cell) => .content cell.inner.data

/-- `with_inner_mut(|inner| inner[i] = v)` (pool.rs:159-162). -/
def World.write (w : World E) (h i : Nat) (v : E) : Rs (World E × Out E) :=
  match w.cell? h with
  | none => .ok (w, .notAProgram)
  | some (c, cell) =>
    if i < cell.inner.data.length then
      .ok ({ w with
              cells := w.cells.set c
                (some { cell with inner := cell.inner.setData (cell.inner.data.set i v) }) }, .done)
    else .panic

/-- `pools_statistics` (pool.rs:47-64): identifier, free buffers, size, bytes per buffer.  In order of
registration (the order of a `HashMap` is unspecified). -/
def World.statistics (w : World E) : List (String × Nat × Nat × Nat) :=
  w.registry.filterMap (fun e => w.pools[e.2]?.map
    (fun pool => (pool.id, pool.objects.length, pool.size, pool.bufferSize)))

/-- One operation. -/
def World.step (es : Nat) (w : World E) : Op E → Rs (World E × Out E)
  | .newPool id inits => w.newPool es id inits
  | .acquire p => .ok (w.acquire p)
  | .copyFrom p h => w.copyFrom p h
  | .newDetached d => .ok (w.addHandle (.detached d))
  | .clone h => .ok (w.clone h)
  | .drop h => .ok (w.drop h)
  | .finishDrop p k => .ok (w.finishDrop p k)
  | .read h => .ok (w, w.read h)
  | .write h i v => w.write h i v
  | .spaceLeft p => .ok (w, match w.pools[p]? with
      | none => .notAProgram
      | some pool => .count pool.objects.length)
  | .statistics => .ok (w, .stats w.statistics)

/-- `Encode for CuHandle` (pool.rs:165-176): the elements of the buffer, pooled or not. -/
def encHandle [Codec E] (i : Inner E) : Bytes :=
  match i with
  | .pooled _ b => enc b.data
  | .detached d => enc d

/-- `Decode for CuHandle<Vec<U>>` (pool.rs:184-189): always detached. -/
def decHandle (E : Type) [Codec E] : Dec (Inner E) := do
  let v ← (dec : Dec (List E))
  pure (.detached v)

end Pool
end Verif
