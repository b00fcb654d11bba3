import Verif.Model.Basic
/-!
Model of the allocation counters (core/cu29_runtime/src/monitoring.rs:74-189), used by several
threads.  `alloc` and `dealloc` are two actions of their thread each: the call of the system
allocator and the update of the counter.  `realloc` and `alloc_zeroed` are the default ones of
`GlobalAlloc`, made of these.
-/
namespace Verif
namespace Alloc

/-- A call of `alloc` or `dealloc` between its two actions. -/
inductive Kind where
  | alloc
  | dealloc
  deriving DecidableEq, Repr

/-- The counters (l.78-81), and the memory: `held` bytes are taken from the system; the blocks that
the program has and has not given back; the calls under way, with their thread and size. -/
structure Sys where
  allocated : UInt64
  deallocated : UInt64
  held : Nat
  blocks : List Nat
  calls : List (Nat × Kind × Nat)
  deriving DecidableEq, Repr

/-- `CountingAllocator::new` (l.90-95). -/
def Sys.new : Sys := ⟨0, 0, 0, [], []⟩

inductive Act where
  /-- `System.alloc` succeeds in `alloc` (l.111-112) -/
  | allocSys (th size : Nat)
  /-- `System.dealloc` in `dealloc` (l.119-120) -/
  | deallocSys (th size : Nat)
  /-- the update of the counter, and return (l.113, l.121) -/
  | count (th : Nat)
  /-- `reset` (l.105-108), its two stores in one step -/
  | reset
  deriving DecidableEq, Repr

def Sys.callOf (s : Sys) (th : Nat) : Option (Kind × Nat) := s.calls.lookup th

def Sys.step (s : Sys) : Act → Sys
  | .allocSys th n => { s with held := s.held + n, calls := (th, .alloc, n) :: s.calls }
  | .deallocSys th n =>
    { s with held := s.held - n, blocks := s.blocks.erase n, calls := (th, .dealloc, n) :: s.calls }
  | .count th =>
    match s.callOf th with
    | some (.alloc, n) =>
      { s with allocated := s.allocated + UInt64.ofNat n, blocks := n :: s.blocks,
               calls := s.calls.erase (th, .alloc, n) }
    | some (.dealloc, n) =>
      { s with deallocated := s.deallocated + UInt64.ofNat n, calls := s.calls.erase (th, .dealloc, n) }
    | none => s
  | .reset => { s with allocated := 0, deallocated := 0 }

def Sys.steps (s : Sys) (as : List Act) : Sys := as.foldl Sys.step s

/-- `ScopedAllocCounter` (l.127-130). -/
structure Scoped where
  bfAllocated : UInt64
  bfDeallocated : UInt64
  deriving DecidableEq, Repr

/-- `ScopedAllocCounter::new` (l.139-144): the counters, read one after the other. -/
def Scoped.new (s₁ s₂ : Sys) : Scoped := ⟨s₁.allocated, s₂.deallocated⟩

/-- A subtraction of `usize`: panics below zero in a debug build, wraps in a release build. -/
def sub (m : Overflow) (a b : UInt64) : Rs UInt64 :=
  match m with
  | .checked => if b ≤ a then .ok (a - b) else .panic
  | .wrapping => .ok (a - b)

/-- `get_allocated` (l.156-158). -/
def Scoped.getAllocated (m : Overflow) (c : Scoped) (s : Sys) : Rs UInt64 := sub m s.allocated c.bfAllocated

/-- `get_deallocated` (l.171-173). -/
def Scoped.getDeallocated (m : Overflow) (c : Scoped) (s : Sys) : Rs UInt64 := sub m s.deallocated c.bfDeallocated

/-- `drop` (l.178-181): both differences are computed. -/
def Scoped.drop (m : Overflow) (c : Scoped) (s : Sys) : Rs Unit :=
  match c.getAllocated m s with
  | .panic => .panic
  | .ok _ =>
    match c.getDeallocated m s with
    | .panic => .panic
    | .ok _ => .ok ()

end Alloc
end Verif
