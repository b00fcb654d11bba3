import Verif.Model.Pool
/-!
Pools of device memory: core/cu29_runtime/src/pool.rs:305-541 (feature `cuda`).  Device memory is a
world of its own, made of the pools, allocations and handles of Model/Pool, next to the world of the
host.  The driver (external `cudarc`) is free to refuse an allocation or a copy: the operation says
which.  A copy waits for the stream (`SyncOnDrop`), so that it is one step.
-/
namespace Verif
namespace Pool
variable {E : Type}

/-- Host and device memory.  The list `dev.registry` is not that of the program, which is
`host.registry`: nothing reads it. -/
structure Gpu (E : Type) where
  host : World E
  dev : World E
  deriving DecidableEq, Repr

def Gpu.empty : Gpu E := ⟨.empty, .empty⟩

/-- What a program can do.  `granted` and `works`: whether the driver does what it is asked to.
`kernel` is a computation of the device on the buffer of a handle, through `as_cuda_slice_mut`
(pool.rs:344-346), and the values it leaves.  `beyond` in `copyToHost`: what follows the buffer in
device memory, as far as the driver copies it. -/
inductive GpuOp (E : Type)
  | host (op : Op E)
  | newPool (id : String) (buffers elements : Nat) (granted : Bool)
  | acquire (p : Nat)
  | clone (d : Nat)
  | drop (d : Nat)
  | finishDrop (p k : Nat)
  | monitor (p : Nat)
  | read (d : Nat)
  | kernel (d : Nat) (v : List E)
  | copyFrom (p h : Nat) (works : Bool)
  | copyFromDevice (p d : Nat)
  | copyToHost (d h : Nat) (beyond : List E) (works : Bool)
  deriving DecidableEq, Repr

/-- A copy of `new` to the start of a buffer that holds `old`, whose length does not change. -/
def overlay (new old : List E) : List E := new.take old.length ++ old.drop new.length

/-- `CuCudaPool::new` (pool.rs:434-456): zeroed buffers (`zero`), the first one pushed first; an
allocation that is refused and an identifier of more than 64 bytes are errors.  Without buffers there
is no allocation to refuse.  The pool is not registered. -/
def Gpu.newPool (es : Nat) (zero : E) (g : Gpu E) (id : String) (buffers elements : Nat) (granted : Bool) :
    Gpu E × Out E :=
  if buffers ≠ 0 ∧ granted = false then (g, .err)
  else if id.utf8ByteSize ≤ 64 then
    ({ g with dev := { g.dev with
        pools := g.dev.pools ++
          [⟨id, makeBufs (List.replicate buffers (List.replicate elements zero)), [], buffers, elements * es⟩]
        registry := register g.dev.registry id g.dev.pools.length } },
      .pool g.dev.pools.length)
  else (g, .err)

/-- `PoolMonitor for CuCudaPool` (pool.rs:459-479). -/
def Gpu.monitor (g : Gpu E) (p : Nat) : Out E :=
  match g.dev.pools[p]? with
  | none => .notAProgram
  | some pool => .stats [(pool.id, pool.objects.length, pool.size, pool.bufferSize)]

/-- `Deref for CudaSliceWrapper` (pool.rs:317-327): access from the host panics. -/
def Gpu.read (g : Gpu E) (d : Nat) : Rs (Gpu E × Out E) :=
  match g.dev.cell? d with
  | none => .ok (g, .notAProgram)
  | some _ => .panic

/-- A kernel on the buffer of a device handle (pool.rs:344-346). -/
def Gpu.kernel (g : Gpu E) (d : Nat) (v : List E) : Gpu E × Out E :=
  match g.dev.cell? d with
  | none => (g, .notAProgram)
  | some (c, cell) =>
    ({ g with dev := { g.dev with
        cells := g.dev.cells.set c
          (some { cell with inner := cell.inner.setData (overlay v cell.inner.data) }) } }, .done)

/-- `copy_from` with a host handle (pool.rs:491-517): panics when there is no free buffer; `memcpy_htod`
of cudarc asserts that the source is not longer than the destination and copies the source. -/
def Gpu.copyFrom (g : Gpu E) (p h : Nat) (works : Bool) : Rs (Gpu E × Out E) :=
  match g.dev.pools[p]?, g.host.cell? h with
  | some pool, some (_, src) =>
    match g.dev.pull p pool with
    | none => .panic
    | some (dev, b) =>
      if src.inner.data.length ≤ b.data.length then
        if works then
          let r := dev.addHandle (.pooled p ⟨b.addr, overlay src.inner.data b.data⟩)
          .ok ({ g with dev := r.1 }, r.2)
        else .panic
      else .panic
  | _, _ => .ok (g, .notAProgram)

/-- `copy_from` with a device handle (pool.rs:491-517 with pool.rs:359-361 and 317-327): takes a buffer,
then dereferences the source to know its length. -/
def Gpu.copyFromDevice (g : Gpu E) (p d : Nat) : Rs (Gpu E × Out E) :=
  match g.dev.pools[p]?, g.dev.cell? d with
  | some _, some _ => .panic
  | _, _ => .ok (g, .notAProgram)

/-- `copy_to_host_pool` (pool.rs:525-541): `memcpy_dtoh` of cudarc asserts that the destination is not
shorter than the source; when it is longer, what it gets after the source is left open. -/
def Gpu.copyToHost (g : Gpu E) (d h : Nat) (beyond : List E) (works : Bool) : Rs (Gpu E × Out E) :=
  match g.dev.cell? d, g.host.cell? h with
  | some (_, src), some (c, dst) =>
    if src.inner.data.length ≤ dst.inner.data.length then
      if works then
        .ok ({ g with host := { g.host with
            cells := g.host.cells.set c (some { dst with
              inner := dst.inner.setData (overlay (src.inner.data ++ beyond) dst.inner.data) }) } }, .done)
      else .panic
    else .panic
  | _, _ => .ok (g, .notAProgram)

/-- An operation on device handles that is that of any pool (pool.rs:485-489 for `acquire`, 132-133). -/
def Gpu.onDev (g : Gpu E) (r : World E × Out E) : Gpu E × Out E := ({ g with dev := r.1 }, r.2)

/-- One operation. -/
def Gpu.step (es : Nat) (zero : E) (g : Gpu E) : GpuOp E → Rs (Gpu E × Out E)
  | .host op =>
    match g.host.step es op with
    | .panic => .panic
    | .ok (w, o) => .ok ({ g with host := w }, o)
  | .newPool id buffers elements granted => .ok (g.newPool es zero id buffers elements granted)
  | .acquire p => .ok (g.onDev (g.dev.acquire p))
  | .clone d => .ok (g.onDev (g.dev.clone d))
  | .drop d => .ok (g.onDev (g.dev.drop d))
  | .finishDrop p k => .ok (g.onDev (g.dev.finishDrop p k))
  | .monitor p => .ok (g, g.monitor p)
  | .read d => g.read d
  | .kernel d v => .ok (g.kernel d v)
  | .copyFrom p h works => g.copyFrom p h works
  | .copyFromDevice p d => g.copyFromDevice p d
  | .copyToHost d h beyond works => g.copyToHost d h beyond works

/-- A history, up to its first panic. -/
def Gpu.run (es : Nat) (zero : E) (g : Gpu E) : List (GpuOp E) → List (Rs (Out E))
  | [] => []
  | op :: ops =>
    match g.step es zero op with
    | .panic => [.panic]
    | .ok (g', o) => .ok o :: g'.run es zero ops

/-- The memories after a history without panic. -/
def Gpu.after (es : Nat) (zero : E) (g : Gpu E) : List (GpuOp E) → Rs (Gpu E)
  | [] => .ok g
  | op :: ops =>
    match g.step es zero op with
    | .panic => .panic
    | .ok (g', _) => g'.after es zero ops

end Pool
end Verif
