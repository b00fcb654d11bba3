import Verif.Proofs.Pool
/-!
C38: pools hand out each buffer to one group of handles at a time and get it back when the last
handle of the group is dropped.
-/
namespace Verif
namespace Pool
variable {E : Type}

/-- Any history of any number of pools, of acquisitions, clones, drops, copies, reads and writes gives
the results the specification allows: acquisition fails exactly when all the buffers are in use or on
their way back, the free count is exact, and what is read through a handle is what was last written
through a handle of the same group. -/
theorem C38_refines (es : Nat) (ops : List (Op E)) :
    AllowsRun es Abs.empty ops ((World.empty : World E).run es ops) := by
  have key : ∀ (ops : List (Op E)) (w : World E) (a : Abs E), Rel w a → AllowsRun es a ops (w.run es ops) := by
    intro ops
    induction ops with
    | nil => intro w a _; exact .nil
    | cons op ops ih =>
      intro w a h
      unfold World.run
      rcases sim_step es h op with ⟨h1, h2⟩ | ⟨w', o, a', h1, h2, h3⟩
      · rw [h1]; exact .panic h2
      · rw [h1]; exact .cons h2 (ih w' a' h3)
  exact key ops _ _ rel_empty

/-- Free buffers, buffers held by handles and buffers on their way back are all the buffers of the
pool, each exactly once. -/
theorem C38_conserved {es : Nat} {w : World E} (h : Reach es w) {p : Nat} {pool : HostPool E}
    (hp : w.pools[p]? = some pool) :
    ((pool.objects ++ pool.returning ++ w.held p).map Buf.addr).Perm (List.range pool.size) := by
  obtain ⟨a, ha⟩ := reach_rel h
  obtain ⟨_, _, h2⟩ := ha.pools p pool hp
  exact h2.perm

/-- Acquisition fails exactly when the buffers in use and on their way back are as many as the pool
has; with no drop in progress, exactly when all are in use. -/
theorem C38_acquire {es : Nat} {w : World E} (h : Reach es w) {p : Nat} {pool : HostPool E}
    (hp : w.pools[p]? = some pool) :
    (w.acquire p).2 = .handle none ↔ (w.held p).length + pool.returning.length = pool.size := by
  have hc := (C38_conserved h hp).length_eq
  simp at hc
  unfold World.acquire World.pull
  simp only [hp]
  cases ho : pool.objects with
  | nil =>
    rw [ho] at hc
    simp only [List.length_nil, Nat.zero_add] at hc
    simp only [true_iff]
    omega
  | cons b bs =>
    rw [ho] at hc
    simp only [List.length_cons] at hc
    simp [World.addHandle]
    omega

/-- Two live handles give access to the same buffer only if they are clones of one another (they share
the allocation), and a buffer behind a live handle is neither free nor on its way back. -/
theorem C38_exclusive {es : Nat} {w : World E} (h : Reach es w) {m n c d : Nat} {x y : Cell E}
    {p : Nat} {b b' : Buf E} (hm : w.cell? m = some (c, x)) (hn : w.cell? n = some (d, y))
    (hx : x.inner = .pooled p b) (hy : y.inner = .pooled p b') (hbb : b.addr = b'.addr) :
    c = d ∧ ∀ pool, w.pools[p]? = some pool → b.addr ∉ (pool.objects ++ pool.returning).map Buf.addr := by
  obtain ⟨a, ha⟩ := reach_rel h
  obtain ⟨_, hxc⟩ := cell_eq hm
  obtain ⟨_, hyc⟩ := cell_eq hn
  have hq := ha.refs c x.strong p b (by rw [hxc, ← hx])
  have hperm := C38_conserved h (List.getElem?_eq_getElem hq)
  have hnd := hperm.nodup_iff.2 List.nodup_range
  rw [List.map_append, List.nodup_append] at hnd
  have bx : bufFor p (some x) = some b := by
    obtain ⟨s, i⟩ := x; simp only at hx; subst hx; simp [bufFor]
  have bY : bufFor p (some y) = some b' := by
    obtain ⟨s, i⟩ := y; simp only at hy; subst hy; simp [bufFor]
  have hbm : b ∈ w.held p := by
    rw [held_eq]; exact List.mem_filterMap.2 ⟨_, List.mem_of_getElem? hxc, bx⟩
  constructor
  · have hnd2 := hnd.2.1
    by_cases hcd : c = d
    · exact hcd
    · exfalso
      obtain ⟨A, B, e1, e2, _⟩ := split_at hxc
      have hmem : some y ∈ A ∨ some y ∈ B := by
        rw [e1] at hyc
        rcases Nat.lt_or_ge d A.length with hd | hd
        · rw [List.getElem?_append_left hd] at hyc
          exact Or.inl (List.mem_of_getElem? hyc)
        · rw [List.getElem?_append_right hd, List.getElem?_cons] at hyc
          split at hyc
          · omega
          · exact Or.inr (List.mem_of_getElem? hyc)
      rw [held_eq, e1, List.filterMap_append, List.filterMap_cons, bx] at hnd2
      simp only [List.map_append, List.map_cons] at hnd2
      rw [List.nodup_append] at hnd2
      obtain ⟨_, k2, k3⟩ := hnd2
      rcases hmem with hmem | hmem
      · refine k3 b'.addr (List.mem_map.2 ⟨b', List.mem_filterMap.2 ⟨_, hmem, bY⟩, rfl⟩) b.addr
          (by simp) hbb.symm
      · rw [List.nodup_cons] at k2
        exact k2.1 (List.mem_map.2 ⟨b', List.mem_filterMap.2 ⟨_, hmem, bY⟩, hbb.symm⟩)
  · intro pool hpool hmem
    rw [List.getElem?_eq_getElem hq] at hpool
    injection hpool with hpool
    subst hpool
    exact hnd.2.2 b.addr hmem b.addr (List.mem_map.2 ⟨b, hbm, rfl⟩) rfl

/-- An allocation exists exactly as long as a live handle points to it: dropping a handle gives the
buffer back exactly when no other handle points to it. -/
theorem C38_last_handle {es : Nat} {w w' : World E} {h c p : Nat} {x : Cell E} {b : Buf E} {o : Out E}
    (hr : Reach es w) (hc : w.cell? h = some (c, x)) (hx : x.inner = .pooled p b)
    (hs : w.step es (.drop h) = .ok (w', o)) :
    (∃ pool pool', w.pools[p]? = some pool ∧ w'.pools[p]? = some pool' ∧
      ((∃ k, k ≠ h ∧ w.handles[k]? = some (some c)) → pool'.returning = pool.returning) ∧
      ((¬ ∃ k, k ≠ h ∧ w.handles[k]? = some (some c)) → pool'.returning = b :: pool.returning)) ∧
      ((∃ y, w'.cells[c]? = some (some y)) ↔ ∃ k, k ≠ h ∧ w.handles[k]? = some (some c)) := by
  obtain ⟨a, ha⟩ := reach_rel hr
  obtain ⟨hh, hcell⟩ := cell_eq hc
  have hlt := (List.getElem?_eq_some_iff.1 hcell).1
  have hq := ha.refs c x.strong p b (by rw [hcell, ← hx])
  obtain ⟨_, h2, h3⟩ := ha.cells c x hcell
  have hcnt := count_set_none hh c
  rw [if_pos rfl] at hcnt
  have hone : x.strong = 1 ↔ ¬ ∃ k, k ≠ h ∧ w.handles[k]? = some (some c) := by
    have hmem : (∃ k, k ≠ h ∧ w.handles[k]? = some (some c)) ↔ some c ∈ w.handles.set h none := by
      rw [List.mem_iff_getElem?]
      constructor
      · rintro ⟨k, h1, h2⟩
        exact ⟨k, by rw [List.getElem?_set_ne (Ne.symm h1)]; exact h2⟩
      · rintro ⟨k, hk⟩
        by_cases he : k = h
        · subst he
          rw [List.getElem?_set_self (List.getElem?_eq_some_iff.1 hh).1] at hk
          simp at hk
        · rw [List.getElem?_set_ne (Ne.symm he)] at hk
          exact ⟨k, he, hk⟩
    rw [hmem, ← List.count_pos_iff]
    generalize (w.handles.set h none).count (some c) = u at hcnt
    omega
  simp only [World.step, World.drop, hc, Rs.ok.injEq, Prod.mk.injEq] at hs
  by_cases h1 : x.strong = 1
  · rw [if_pos h1] at hs
    simp only [Prod.mk.injEq] at hs
    have hex := hone.1 h1
    rw [← hs.1]
    refine ⟨⟨w.pools[p], { w.pools[p] with returning := b :: w.pools[p].returning },
      List.getElem?_eq_getElem hq, ?_, fun hk => absurd hk hex, fun _ => rfl⟩, ?_⟩
    · simp only [hx, giveBack, List.getElem?_eq_getElem hq]
      exact List.getElem?_set_self hq
    · simp only [List.getElem?_set_self hlt]
      constructor
      · rintro ⟨y, hy⟩; simp at hy
      · intro hk; exact absurd hk hex
  · rw [if_neg h1] at hs
    simp only [Prod.mk.injEq] at hs
    have hex : ∃ k, k ≠ h ∧ w.handles[k]? = some (some c) := by
      by_cases hk : ∃ k, k ≠ h ∧ w.handles[k]? = some (some c)
      · exact hk
      · exact absurd (hone.2 hk) h1
    rw [← hs.1]
    refine ⟨⟨w.pools[p], w.pools[p], List.getElem?_eq_getElem hq, List.getElem?_eq_getElem hq,
      fun _ => rfl, fun hk => absurd hex hk⟩, ?_⟩
    simp only [List.getElem?_set_self hlt]
    exact ⟨fun _ => hex, fun _ => ⟨_, rfl⟩⟩

/-- A history: two buffers, a clone, exhaustion, reuse after the last drop, a copy. -/
def demoOps : List (Op Nat) :=
  [.newPool "cam" [[0, 0], [0, 0]], .acquire 0, .clone 0, .acquire 0, .acquire 0, .write 0 1 7, .read 1, .read 2,
    .drop 0, .acquire 0, .drop 1, .acquire 0, .finishDrop 0 0, .spaceLeft 0, .acquire 0, .read 3,
    .drop 2, .finishDrop 0 0, .newDetached [4, 5], .copyFrom 0 4, .read 5, .statistics, .copyFrom 0 4]

example : (World.empty : World Nat).run 8 demoOps =
    [.ok (.pool 0), .ok (.handle (some 0)), .ok (.handle (some 1)), .ok (.handle (some 2)),
      .ok (.handle none), .ok .done, .ok (.content [0, 7]), .ok (.content [0, 0]), .ok .done,
      .ok (.handle none), .ok .done, .ok (.handle none), .ok .done, .ok (.count 1),
      .ok (.handle (some 3)), .ok (.content [0, 7]), .ok .done, .ok .done, .ok (.handle (some 4)),
      .ok (.handle (some 5)), .ok (.content [4, 5]), .ok (.stats [("cam", 0, 2, 16)]), .panic] := by
  decide +kernel

/-- The world after the first eight operations: a group of two handles and a group of one. -/
def demoWorld : World Nat :=
  ⟨[⟨"cam", [], [], 2, 16⟩], [("cam", 0)],
    [some ⟨2, .pooled 0 ⟨1, [0, 7]⟩⟩, some ⟨1, .pooled 0 ⟨0, [0, 0]⟩⟩], [some 0, some 0, some 1]⟩

def stateAfter (es : Nat) (w : World E) : List (Op E) → Rs (World E)
  | [] => .ok w
  | op :: ops =>
    match w.step es op with
    | .panic => .panic
    | .ok (w', _) => stateAfter es w' ops

theorem reach_stateAfter {es : Nat} {w w' : World E} (h : Reach es w) {ops : List (Op E)}
    (hs : stateAfter es w ops = .ok w') : Reach es w' := by
  induction ops generalizing w with
  | nil => simp only [stateAfter, Rs.ok.injEq] at hs; exact hs ▸ h
  | cons op ops ih =>
    simp only [stateAfter] at hs
    cases hst : w.step es op with
    | panic => rw [hst] at hs; simp at hs
    | ok q => rw [hst] at hs; exact ih (.step h hst) hs

theorem demoReach : Reach 8 demoWorld := reach_stateAfter .empty (ops := demoOps.take 8) (by decide +kernel)
example := C38_conserved demoReach (p := 0) (pool := ⟨"cam", [], [], 2, 16⟩) rfl
example := (C38_acquire demoReach (p := 0) (pool := ⟨"cam", [], [], 2, 16⟩) rfl).2 (by decide)
example := C38_exclusive demoReach (m := 0) (n := 1) (p := 0) (b := ⟨1, [0, 7]⟩) (b' := ⟨1, [0, 7]⟩) rfl rfl rfl rfl rfl
example := C38_last_handle demoReach (h := 1) (c := 0) (p := 0) (b := ⟨1, [0, 7]⟩) rfl rfl rfl

example : Reach 8 demoWorld ∧ demoWorld.cell? 0 = some (0, ⟨2, .pooled 0 ⟨1, [0, 7]⟩⟩) ∧
    demoWorld.cell? 2 = some (1, ⟨1, .pooled 0 ⟨0, [0, 0]⟩⟩) :=
  ⟨reach_stateAfter .empty (ops := demoOps.take 8) (by decide +kernel), by decide, by decide⟩

/-- A pool without buffers cannot be made: it panics instead of failing every acquisition. -/
theorem C38_violated_empty_pool (es : Nat) (w : World E) (id : String) :
    w.step es (.newPool id []) = .panic := rfl

end Pool
end Verif
