import Verif.Model.Pool
/-!
What users rely on: a pool has a number of buffers, and is out of buffers exactly when all are in
use.  A handle and its clones form a group, which owns one buffer that nobody else can touch, until
its last handle is dropped.
-/
namespace Verif
namespace Pool
variable {E : Type}

/-- A handle and its clones: their pool, if any, and what they see. -/
structure Group (E : Type) where
  pool : Option Nat
  data : List E
  deriving DecidableEq, Repr

/-- A pool: its identifier, the lengths of its buffers (one per buffer), the bytes of a buffer, and
how many buffers are on their way back. -/
structure AbsPool where
  id : String
  lens : List Nat
  bytes : Nat
  returning : Nat
  deriving DecidableEq, Repr

/-- Pools, groups, and the group of each handle while it lives. -/
structure Abs (E : Type) where
  pools : List AbsPool
  groups : List (Group E)
  handles : List (Option Nat)
  deriving DecidableEq, Repr

def Abs.empty : Abs E := ⟨[], [], []⟩

/-- Buffers of pool `p` in use: groups of that pool with a live handle. -/
def Abs.inUse (a : Abs E) (p : Nat) : Nat :=
  ((List.range a.groups.length).filter (fun g =>
    a.handles.contains (some g) && (a.groups[g]?.map Group.pool == some (some p)))).length

/-- Buffers of pool `p` that can be acquired. -/
def Abs.left (a : Abs E) (p : Nat) (pool : AbsPool) : Nat :=
  pool.lens.length - (a.inUse p + pool.returning)

/-- A new handle on a new group. -/
def Abs.add (a : Abs E) (g : Group E) : Abs E × Out E :=
  ({ a with groups := a.groups ++ [g], handles := a.handles ++ [some a.groups.length] },
    .handle (some a.handles.length))

/-- The group of a live handle. -/
def Abs.group? (a : Abs E) (h : Nat) : Option (Nat × Group E) :=
  match a.handles[h]? with
  | some (some g) => a.groups[g]?.map (fun x => (g, x))
  | _ => none

/-- After handle `h` of group `g` is dropped: when it was the last one, a buffer of its pool starts
its way back. -/
def Abs.dropped (a : Abs E) (h g : Nat) (x : Group E) : Abs E :=
  let hs := a.handles.set h none
  { a with
    handles := hs
    pools := if hs.contains (some g) then a.pools else
      match x.pool with
      | none => a.pools
      | some p => a.pools.modify p (fun pool => { pool with returning := pool.returning + 1 }) }

/-- The results allowed for one operation. -/
def Abs.Allows (es : Nat) (a : Abs E) : Op E → Rs (Abs E × Out E) → Prop
  | .newPool id inits, r =>
    if inits = [] then r = .panic
    else if id.utf8ByteSize ≤ 64 then
      ∃ n ∈ inits.map List.length,
        r = .ok ({ a with pools := a.pools ++ [⟨id, inits.map List.length, n * es, 0⟩] },
              .pool a.pools.length)
    else r = .ok (a, .err)
  | .acquire p, r =>
    match a.pools[p]? with
    | none => r = .ok (a, .notAProgram)
    | some pool =>
      if a.inUse p + pool.returning < pool.lens.length then
        ∃ d : List E, d.length ∈ pool.lens ∧ r = .ok (a.add ⟨some p, d⟩)
      else r = .ok (a, .handle none)
  | .copyFrom p h, r =>
    match a.pools[p]?, a.group? h with
    | some pool, some (_, src) =>
      if a.inUse p + pool.returning < pool.lens.length then
        ∃ n ∈ pool.lens,
          r = if n = src.data.length then .ok (a.add ⟨some p, src.data⟩) else .panic
      else r = .panic
    | _, _ => r = .ok (a, .notAProgram)
  | .newDetached d, r => r = .ok (a.add ⟨none, d⟩)
  | .clone h, r =>
    match a.group? h with
    | none => r = .ok (a, .notAProgram)
    | some (g, _) =>
      r = .ok ({ a with handles := a.handles ++ [some g] }, .handle (some a.handles.length))
  | .drop h, r =>
    match a.group? h with
    | none => r = .ok (a, .notAProgram)
    | some (g, x) => r = .ok (a.dropped h g x, .done)
  | .finishDrop p k, r =>
    match a.pools[p]? with
    | none => r = .ok (a, .notAProgram)
    | some pool =>
      if k < pool.returning then
        r = .ok ({ a with pools := a.pools.set p { pool with returning := pool.returning - 1 } }, .done)
      else r = .ok (a, .notAProgram)
  | .read h, r =>
    match a.group? h with
    | none => r = .ok (a, .notAProgram)
    | some (_, x) => r = .ok (a, .content x.data)
  | .write h i v, r =>
    match a.group? h with
    | none => r = .ok (a, .notAProgram)
    | some (g, x) =>
      if i < x.data.length then
        r = .ok ({ a with groups := a.groups.set g ⟨x.pool, x.data.set i v⟩ }, .done)
      else r = .panic
  | .spaceLeft p, r =>
    match a.pools[p]? with
    | none => r = .ok (a, .notAProgram)
    | some pool => r = .ok (a, .count (a.left p pool))
  | .statistics, r =>
    ∃ l, r = .ok (a, .stats l) ∧ l.Nodup ∧
      -- each identifier with the pool made last under it
      ∀ e, e ∈ l ↔ ∃ (p : Nat) (pool : AbsPool), a.pools[p]? = some pool ∧
        (∀ q pool', p < q → a.pools[q]? = some pool' → pool'.id ≠ pool.id) ∧
        e = (pool.id, a.left p pool, pool.lens.length, pool.bytes)

/-- The outputs of a history, up to its first panic. -/
inductive AllowsRun (es : Nat) : Abs E → List (Op E) → List (Rs (Out E)) → Prop
  | nil {a : Abs E} : AllowsRun es a [] []
  | cons {a a' : Abs E} {op : Op E} {ops : List (Op E)} {o : Out E} {outs : List (Rs (Out E))} :
      a.Allows es op (.ok (a', o)) → AllowsRun es a' ops outs → AllowsRun es a (op :: ops) (.ok o :: outs)
  | panic {a : Abs E} {op : Op E} {ops : List (Op E)} :
      a.Allows es op .panic → AllowsRun es a (op :: ops) [.panic]

/-- The outputs of a history of the model, up to its first panic. -/
def World.run (es : Nat) (w : World E) : List (Op E) → List (Rs (Out E))
  | [] => []
  | op :: ops =>
    match w.step es op with
    | .panic => [.panic]
    | .ok (w', o) => .ok o :: w'.run es ops

/-- The worlds a program can reach. -/
inductive Reach (es : Nat) : World E → Prop
  | empty : Reach es World.empty
  | step {w w' : World E} {op : Op E} {o : Out E} :
      Reach es w → w.step es op = .ok (w', o) → Reach es w'

/-- The buffers of pool `p` held by live handles: one per group of clones. -/
def World.held (w : World E) (p : Nat) : List (Buf E) :=
  w.cells.filterMap (fun c =>
    match c with
    | some ⟨_, .pooled q b⟩ => if q = p then some b else none
    | _ => none)

/-- The buffer a live handle gives access to: its pool and which buffer of the pool. -/
def World.bufferOf (w : World E) (h : Nat) : Option (Nat × Nat) :=
  match w.cell? h with
  | some (_, ⟨_, .pooled p b⟩) => some (p, b.addr)
  | _ => none

end Pool
end Verif
