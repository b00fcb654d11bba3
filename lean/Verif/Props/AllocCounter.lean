import Verif.Proofs.AllocCounter
/-!
C62: allocation counters of a process with several threads.
-/
namespace Verif
namespace Alloc

/-- A counter is created after any actions of any threads (`before`; it reads the two totals in turn, with
`between` in between), and read after `during`, without a reset meanwhile and without 2^64 bytes ever
allocated.  In all builds it reports the bytes of the allocations, and of the deallocations, that ended
in all threads since it was created, and can be dropped. Missing: "in the current scope" (see
`C62_threads_violated`) and resets (see `C62_reset_violated`). -/
theorem C62_scope_partial (m : Overflow) (s : Sys) (between during : List Act) (hr : NoReset (between ++ during))
    (ha : s.allocated.toNat + ended .alloc (fun _ => true) s (between ++ during) < 2 ^ 64)
    (hd : (s.steps between).deallocated.toNat + ended .dealloc (fun _ => true) (s.steps between) during < 2 ^ 64) :
    let c := Scoped.new s (s.steps between)
    let s' := s.steps (between ++ during)
    c.getAllocated m s' = .ok (UInt64.ofNat (ended .alloc (fun _ => true) s (between ++ during))) ∧
    c.getDeallocated m s' = .ok (UInt64.ofNat (ended .dealloc (fun _ => true) (s.steps between) during)) ∧
    c.drop m s' = .ok () := by
  have h1 : (Scoped.new s (s.steps between)).getAllocated m (s.steps (between ++ during)) =
      .ok (UInt64.ofNat (ended .alloc (fun _ => true) s (between ++ during))) := by
    unfold Scoped.getAllocated Scoped.new
    rw [(counted _ s hr).1]
    exact sub_ok ha
  have h2 : (Scoped.new s (s.steps between)).getDeallocated m (s.steps (between ++ during)) =
      .ok (UInt64.ofNat (ended .dealloc (fun _ => true) (s.steps between) during)) := by
    unfold Scoped.getDeallocated Scoped.new
    rw [steps_append, (counted during _ (fun h => hr (by simp [h]))).2]
    exact sub_ok hd
  exact ⟨h1, h2, by simp only [Scoped.drop, h1, h2]⟩

/-- The allocations of a thread are never missed: what is reported is at least what the thread itself
allocated, and exactly that if the other threads do not allocate or free. -/
theorem C62_own (k : Kind) (s : Sys) (as : List Act) (th : Nat) :
    ended k (· == th) s as ≤ ended k (fun _ => true) s as ∧
    ((∀ t, .count t ∈ as → t = th) → ended k (fun _ => true) s as = ended k (· == th) s as) :=
  ⟨ended_le k _ as s, fun h => (ended_all k _ as s (fun t ht => by simp [h t ht])).symm⟩

/-- The totals of a program that gives back only what it has, at any point: their difference is what
the program has, and what it is giving back; when no call is under way it is the memory taken from the
system. -/
theorem C62_balance (as : List Act) (hl : Legal Sys.new as) (hr : NoReset as) :
    let s := Sys.new.steps as
    s.allocated - s.deallocated = UInt64.ofNat (s.blocks.sum + underWay .dealloc s) ∧
    (s.calls = [] → s.allocated - s.deallocated = UInt64.ofNat s.held) := by
  obtain ⟨h1, h2⟩ := counted as Sys.new hr
  have hi := inv_steps as Sys.new 0 0 hl ⟨by simp [Sys.new, underWay], by simp [Sys.new, underWay]⟩
  have hd : (Sys.new.steps as).allocated - (Sys.new.steps as).deallocated =
      UInt64.ofNat ((Sys.new.steps as).blocks.sum + underWay .dealloc (Sys.new.steps as)) := by
    have hb := hi.bytes
    simp only [Nat.zero_add] at hb
    rw [h1, h2, hb]
    simp only [Sys.new, UInt64.zero_add, Nat.add_assoc, UInt64.ofNat_add]
    rw [UInt64.add_comm, UInt64.add_sub_cancel]
  refine ⟨hd, fun hc => ?_⟩
  rw [hd, hi.held]
  simp [underWay, hc]

/-- Two threads, whose calls overlap. -/
def demoAllocs : List Act :=
  [.allocSys 1 100, .allocSys 2 1024, .count 1, .deallocSys 1 100, .count 2, .count 1]

example := C62_scope_partial .checked (Sys.new.steps (demoAllocs.take 2)) (demoAllocs.drop 2 |>.take 1) (demoAllocs.drop 3)
  (by unfold NoReset; decide) (by decide) (by decide)
example := (C62_own .alloc Sys.new (demoAllocs.take 3) 1).2 (by simp [demoAllocs])

example : Legal Sys.new demoAllocs ∧ NoReset demoAllocs ∧ (Sys.new.steps demoAllocs).calls = [] ∧
    (Sys.new.steps demoAllocs).held = 1024 ∧
    ended .alloc (fun _ => true) Sys.new demoAllocs = 1124 ∧ ended .alloc (· == 1) Sys.new demoAllocs = 100 := by
  refine ⟨?_, by unfold NoReset; decide, by decide, by decide, by decide, by decide⟩
  simp only [demoAllocs, Legal]
  exact ⟨by decide, by decide, by decide, by decide, by decide, by decide, trivial⟩

/-- "The bytes allocated in the current scope": refuted.  A thread that allocates nothing in its scope is
told 1024 bytes, because another thread allocates them. -/
theorem C62_threads_violated :
    let during : List Act := [.allocSys 2 1024, .count 2]
    (Scoped.new Sys.new Sys.new).getAllocated .checked (Sys.new.steps during) = .ok 1024 ∧
      ended .alloc (· == 1) Sys.new during = 0 := by
  decide

/-- A reset while a counter is in use: reading or dropping it panics in a debug build, and it reports a
huge number in a release build. -/
theorem C62_reset_violated :
    let s := Sys.new.steps [.allocSys 1 100, .count 1]
    let s' := s.steps [.reset, .allocSys 1 1, .count 1]
    let c := Scoped.new s s
    c.getAllocated .checked s' = .panic ∧ c.drop .checked s' = .panic ∧
      c.getAllocated .wrapping s' = .ok 18446744073709551517 := by
  decide

end Alloc
end Verif
