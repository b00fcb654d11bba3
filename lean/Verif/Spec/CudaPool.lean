import Verif.Model.CudaPool
import Verif.Spec.Pool
/-!
What users rely on: a device pool gives out its buffers like a host pool; copying a host buffer to the
device, and back to the host, gives what was copied.
-/
namespace Verif
namespace Pool
variable {E : Type}

/-- Host memory and device memory, as their users see them. -/
structure GpuAbs (E : Type) where
  host : Abs E
  dev : Abs E
  deriving DecidableEq, Repr

/-- A result of an operation on the device side alone. -/
def GpuAbs.onDev (a : GpuAbs E) (es : Nat) (op : Op E) (r : Rs (GpuAbs E × Out E)) : Prop :=
  ∃ d o, a.dev.Allows es op (.ok (d, o)) ∧ r = .ok ({ a with dev := d }, o)

/-- The results allowed for one operation. -/
def GpuAbs.Allows (es : Nat) (a : GpuAbs E) : GpuOp E → Rs (GpuAbs E × Out E) → Prop
  | .host op, r =>
    (a.host.Allows es op .panic ∧ r = .panic) ∨
    ∃ h o, a.host.Allows es op (.ok (h, o)) ∧ r = .ok ({ a with host := h }, o)
  | .newPool id buffers elements granted, r =>
    if (buffers = 0 ∨ granted = true) ∧ id.utf8ByteSize ≤ 64 then
      r = .ok ({ a with dev := { a.dev with
                pools := a.dev.pools ++ [⟨id, List.replicate buffers elements, elements * es, 0⟩] } },
            .pool a.dev.pools.length)
    else r = .ok (a, .err)
  | .acquire p, r => a.onDev es (.acquire p) r
  | .clone d, r => a.onDev es (.clone d) r
  | .drop d, r => a.onDev es (.drop d) r
  | .finishDrop p k, r => a.onDev es (.finishDrop p k) r
  | .monitor p, r =>
    match a.dev.pools[p]? with
    | none => r = .ok (a, .notAProgram)
    | some pool => r = .ok (a, .stats [(pool.id, a.dev.left p pool, pool.lens.length, pool.bytes)])
  | .read d, r =>
    match a.dev.group? d with
    | none => r = .ok (a, .notAProgram)
    | some _ => r = .panic
  | .kernel d v, r =>
    match a.dev.group? d with
    | none => r = .ok (a, .notAProgram)
    | some (g, x) =>
      ∃ new : List E, new.length = x.data.length ∧
        (∀ i, i < x.data.length → new[i]? = if i < v.length then v[i]? else x.data[i]?) ∧
        r = .ok ({ a with dev := { a.dev with groups := a.dev.groups.set g ⟨x.pool, new⟩ } }, .done)
  | .copyFrom p h works, r =>
    match a.dev.pools[p]?, a.host.group? h with
    | some pool, some (_, src) =>
      if a.dev.inUse p + pool.returning < pool.lens.length then
        ∃ n ∈ pool.lens,
          if src.data.length ≤ n ∧ works = true then
            -- the source, then what the buffer held
            ∃ rest : List E, src.data.length + rest.length = n ∧
              r = .ok ({ a with dev := (a.dev.add ⟨some p, src.data ++ rest⟩).1 },
                .handle (some a.dev.handles.length))
          else r = .panic
      else r = .panic
    | _, _ => r = .ok (a, .notAProgram)
  | .copyFromDevice p d, r =>
    match a.dev.pools[p]?, a.dev.group? d with
    | some _, some _ => r = .panic
    | _, _ => r = .ok (a, .notAProgram)
  | .copyToHost d h _ works, r =>
    match a.dev.group? d, a.host.group? h with
    | some (_, src), some (g, dst) =>
      if src.data.length ≤ dst.data.length ∧ works = true then
        -- the source, then anything
        ∃ rest : List E, src.data.length + rest.length = dst.data.length ∧
          r = .ok ({ a with host := { a.host with groups := a.host.groups.set g ⟨dst.pool, src.data ++ rest⟩ } },
            .done)
      else r = .panic
    | _, _ => r = .ok (a, .notAProgram)

/-- The outputs of a history, up to its first panic. -/
inductive GpuAllowsRun (es : Nat) : GpuAbs E → List (GpuOp E) → List (Rs (Out E)) → Prop
  | nil {a : GpuAbs E} : GpuAllowsRun es a [] []
  | cons {a a' : GpuAbs E} {op : GpuOp E} {ops : List (GpuOp E)} {o : Out E} {outs : List (Rs (Out E))} :
      a.Allows es op (.ok (a', o)) → GpuAllowsRun es a' ops outs →
      GpuAllowsRun es a (op :: ops) (.ok o :: outs)
  | panic {a : GpuAbs E} {op : GpuOp E} {ops : List (GpuOp E)} :
      a.Allows es op .panic → GpuAllowsRun es a (op :: ops) [.panic]

/-- The memories a program can reach. -/
inductive GpuReach (es : Nat) (zero : E) : Gpu E → Prop
  | empty : GpuReach es zero Gpu.empty
  | step {g g' : Gpu E} {op : GpuOp E} {o : Out E} :
      GpuReach es zero g → g.step es zero op = .ok (g', o) → GpuReach es zero g'

end Pool
end Verif
