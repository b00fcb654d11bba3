import Verif.Proofs.CudaPool
/-!
C108: device pools give out their buffers like host pools, and what is copied to the device and back
is what was copied.
-/
namespace Verif
namespace Pool
variable {E : Type}

/-- Any history of host and device pools gives the results the specification allows: device buffers are
given out and come back like host buffers, a copy to the device holds the source first, and a copy to
the host gives the device buffer first. -/
theorem C108_refines (es : Nat) (zero : E) (ops : List (GpuOp E)) :
    GpuAllowsRun es ⟨Abs.empty, Abs.empty⟩ ops ((Gpu.empty : Gpu E).run es zero ops) := by
  have key : ∀ (ops : List (GpuOp E)) (g : Gpu E) (a : GpuAbs E), GpuRel g a →
      GpuAllowsRun es a ops (g.run es zero ops) := by
    intro ops
    induction ops with
    | nil => intro g a _; exact .nil
    | cons op ops ih =>
      intro g a h
      unfold Gpu.run
      rcases sim_gpu es zero h op with ⟨h1, h2⟩ | ⟨g', o, a', h1, h2, h3⟩
      · rw [h1]; exact .panic h2
      · rw [h1]; exact .cons h2 (ih g' a' h3)
  exact key ops _ _ gpuRel_empty

/-- Free buffers, buffers held by handles and buffers on their way back are all the buffers of a device
pool, each exactly once. -/
theorem C108_conserved {es : Nat} {zero : E} {g : Gpu E} (h : GpuReach es zero g) {p : Nat}
    {pool : HostPool E} (hp : g.dev.pools[p]? = some pool) :
    ((pool.objects ++ pool.returning ++ g.dev.held p).map Buf.addr).Perm (List.range pool.size) := by
  obtain ⟨a, ha⟩ := gpuReach_rel h
  obtain ⟨_, _, h2⟩ := ha.dev.pools p pool hp
  exact h2.perm

/-- A new device pool has the number of buffers asked for, all of them zero and of the length asked
for; it exists even without buffers. -/
theorem C108_fresh {es : Nat} {zero : E} {g g' : Gpu E} {id : String} {buffers elements p : Nat}
    {granted : Bool} (hs : g.step es zero (.newPool id buffers elements granted) = .ok (g', .pool p)) :
    ∃ pool, g'.dev.pools[p]? = some pool ∧ pool.id = id ∧ pool.size = buffers ∧
      pool.bufferSize = elements * es ∧ pool.objects.map Buf.data = List.replicate buffers (List.replicate elements zero) := by
  simp only [Gpu.step, Gpu.newPool, Rs.ok.injEq] at hs
  split at hs
  · simp at hs
  · split at hs
    · simp only [Prod.mk.injEq, Out.pool.injEq] at hs
      rw [← hs.1, ← hs.2]
      refine ⟨_, by simp; rfl, rfl, rfl, rfl, ?_⟩
      simp only
      apply List.ext_getElem?
      intro i
      have hmap : (makeBufs (List.replicate buffers (List.replicate elements zero))).map Buf.data =
          (List.replicate buffers (List.replicate elements zero)).reverse := by
        simp only [makeBufs, List.map_reverse, List.map_map]
        have : ((List.replicate buffers (List.replicate elements zero)).zipIdx.map
            (Buf.data ∘ fun e : List E × Nat => (⟨e.2, e.1⟩ : Buf E))) =
            (List.replicate buffers (List.replicate elements zero)).zipIdx.map Prod.fst := rfl
        rw [this, List.zipIdx_map_fst]
      rw [hmap, List.reverse_replicate]
    · simp at hs

/-- A host buffer `d` is copied to a device buffer; then anything happens but kernels and the end of the
new handle; then the device buffer is copied to a host buffer that is long enough.  That host buffer
then holds `d`, followed by something as long as the difference: nothing when it is as long as `d`. -/
theorem C108_round_trip_partial {es : Nat} {zero : E} {g g1 g2 : Gpu E} {p h k h2 x : Nat} {works : Bool}
    {d e : List E} {pool : HostPool E} {ops : List (GpuOp E)} (beyond : List E)
    (hr : GpuReach es zero g) (hd : g.host.read h = .content d) (hp : g.dev.pools[p]? = some pool)
    (hs : g.step es zero (.copyFrom p h works) = .ok (g1, .handle (some k)))
    (hops : g1.after es zero ops = .ok g2) (hn : ∀ op ∈ ops, ∀ d v, op ≠ .kernel d v)
    (hk : g2.dev.handles[k]? = some (some x)) (he : g2.host.read h2 = .content e)
    (hl : ∀ b ∈ pool.objects, b.data.length ≤ e.length) :
    ∃ g3 rest, g2.step es zero (.copyToHost k h2 beyond true) = .ok (g3, .done) ∧
      g3.host.read h2 = .content (d ++ rest) ∧ (d ++ rest).length = e.length := by
  have hr1 : GpuReach es zero g1 := .step hr hs
  simp only [Gpu.step, Gpu.copyFrom, hp] at hs
  simp only [World.read] at hd
  cases hc : g.host.cell? h with
  | none => rw [hc] at hd; simp at hd
  | some q =>
    obtain ⟨c, src⟩ := q
    rw [hc] at hd hs
    simp only [Out.content.injEq] at hd
    simp only [World.pull] at hs
    cases ho : pool.objects with
    | nil => rw [ho] at hs; simp at hs
    | cons b bs =>
      rw [ho] at hs
      simp only at hs
      by_cases hlen : src.inner.data.length ≤ b.data.length
      · rw [if_pos hlen] at hs
        cases works with
        | false => simp at hs
        | true =>
          simp only [if_true, World.addHandle, Rs.ok.injEq, Prod.mk.injEq, Out.handle.injEq,
            Option.some.injEq] at hs
          obtain ⟨hs1, hs2⟩ := hs
          have hcell : g1.dev.cell? k = some (g.dev.cells.length,
              ⟨1, .pooled p ⟨b.addr, overlay src.inner.data b.data⟩⟩) := by
            rw [← hs1, ← hs2]
            simp [World.cell?]
          rcases dev_stable_run (gpuReach_rel hr1) hcell hops hn with h3 | ⟨s', h3, h4⟩
          · rw [h3] at hk; simp at hk
          · replace h4 : s'.inner.data = overlay src.inner.data b.data := h4
            rw [overlay_short hlen, hd] at h4
            rw [hd] at hlen
            have hbl := hl b (by rw [ho]; simp)
            simp only [World.read] at he
            cases hc2 : g2.host.cell? h2 with
            | none => rw [hc2] at he; simp at he
            | some q =>
              obtain ⟨c2, dst⟩ := q
              rw [hc2] at he
              simp only [Out.content.injEq] at he
              have hsl : s'.inner.data.length = b.data.length := by rw [h4]; simp; omega
              simp only [Gpu.step, Gpu.copyToHost, h3, hc2]
              rw [if_pos (by rw [hsl, he]; exact hbl)]
              simp only [if_true]
              obtain ⟨e1, e2⟩ := cell_eq hc2
              have hlt := (List.getElem?_eq_some_iff.1 e2).1
              refine ⟨_, (overlay (s'.inner.data ++ beyond) dst.inner.data).drop d.length, rfl, ?_, ?_⟩
              · have hread : ∀ y : Cell E, World.cell?
                    { g2.host with cells := g2.host.cells.set c2 (some y) } h2 = some (c2, y) := by
                  intro y
                  simp only [World.cell?, e1]
                  rw [List.getElem?_set_self hlt]
                simp only [World.read, hread]
                have hset : ∀ (i : Inner E) (v : List E), (i.setData v).data = v := by
                  intro i v; cases i <;> rfl
                rw [hset]
                congr 1
                have : (overlay (s'.inner.data ++ beyond) dst.inner.data).take d.length = d := by
                  unfold overlay
                  rw [List.take_append_of_le_length (by
                    simp only [List.length_take, List.length_append]; rw [hsl, he]; omega), List.take_take,
                    he, Nat.min_eq_left (by omega), h4, List.append_assoc, List.take_left]
                conv => rhs; lhs; rw [← this]
                rw [List.take_append_drop]
              · simp only [List.length_append, List.length_drop, overlay_length, he]
                omega
      · rw [if_neg hlen] at hs; simp at hs

/-- Two frames through a device pool of one buffer of three elements. -/
def gpuOps : List (GpuOp Nat) :=
  [.newPool "gpu" 1 3 true, .host (.newDetached [7, 8, 9]), .host (.newDetached [1]),
    .host (.newDetached [0, 0, 0]), .copyFrom 0 0 true, .clone 0, .drop 0, .monitor 0,
    .copyToHost 1 2 [] true, .host (.read 2), .drop 1, .finishDrop 0 0]

example : (Gpu.empty : Gpu Nat).run 4 0 gpuOps =
    [.ok (.pool 0), .ok (.handle (some 0)), .ok (.handle (some 1)), .ok (.handle (some 2)),
      .ok (.handle (some 0)), .ok (.handle (some 1)), .ok .done, .ok (.stats [("gpu", 0, 1, 12)]),
      .ok .done, .ok (.content [7, 8, 9]), .ok .done, .ok .done] := by decide +kernel

theorem gpuReach_after {es : Nat} {zero : E} {g g' : Gpu E} (h : GpuReach es zero g) {ops : List (GpuOp E)}
    (hs : g.after es zero ops = .ok g') : GpuReach es zero g' := by
  induction ops generalizing g with
  | nil => simp only [Gpu.after, Rs.ok.injEq] at hs; exact hs ▸ h
  | cons op ops ih =>
    simp only [Gpu.after] at hs
    cases hst : g.step es zero op with
    | panic => rw [hst] at hs; simp at hs
    | ok q => rw [hst] at hs; exact ih (.step h hst) hs

/-- The memories before the first copy. -/
def gpuBefore : Gpu Nat :=
  ⟨⟨[], [], [some ⟨1, .detached [7, 8, 9]⟩, some ⟨1, .detached [1]⟩, some ⟨1, .detached [0, 0, 0]⟩],
      [some 0, some 1, some 2]⟩,
    ⟨[⟨"gpu", [⟨0, [0, 0, 0]⟩], [], 1, 12⟩], [("gpu", 0)], [], []⟩⟩

theorem gpuBeforeReach : GpuReach 4 0 gpuBefore :=
  gpuReach_after .empty (ops := gpuOps.take 4) (by decide +kernel)

/-- The memories after the copy of the handle `h`. -/
def gpuCopied (d : List Nat) : Gpu Nat :=
  ⟨gpuBefore.host,
    ⟨[⟨"gpu", [], [], 1, 12⟩], [("gpu", 0)], [some ⟨1, .pooled 0 ⟨0, d⟩⟩], [some 0]⟩⟩

example := C108_conserved gpuBeforeReach (p := 0) (pool := ⟨"gpu", [⟨0, [0, 0, 0]⟩], [], 1, 12⟩) rfl
example := C108_fresh (es := 4) (zero := 0) (g := (Gpu.empty : Gpu Nat)) (id := "gpu") (buffers := 2)
  (elements := 3) (p := 0) (granted := true) rfl
example := C108_round_trip_partial [5] gpuBeforeReach (p := 0) (h := 0) (k := 0) (h2 := 2) (x := 0)
  (works := true) (d := [7, 8, 9]) (e := [0, 0, 0]) (g1 := gpuCopied [7, 8, 9]) (ops := [.monitor 0]) rfl rfl
  (by decide +kernel) rfl (by simp) rfl rfl (by simp)

/-- Not so when the source is shorter than the buffers of the pool, which is accepted: the rest of the
buffer is what its previous user left there. -/
theorem C108_violated_stale :
    (Gpu.empty : Gpu Nat).run 4 0
      (gpuOps ++ [.copyFrom 0 1 true, .copyToHost 2 2 [] true, .host (.read 2)]) =
      (Gpu.empty : Gpu Nat).run 4 0 gpuOps ++
        [.ok (.handle (some 2)), .ok .done, .ok (.content [1, 8, 9])] := by decide +kernel

/-- A copy panics rather than failing: when no buffer is free, when the source is longer than the free
buffers, and whenever the source is itself on the device. -/
theorem C108_violated_panics (es : Nat) (zero : E) (g : Gpu E) {p : Nat} {pool : HostPool E}
    (hp : g.dev.pools[p]? = some pool) :
    (∀ h d works, g.host.read h = .content d → pool.objects = [] →
      g.step es zero (.copyFrom p h works) = .panic) ∧
    (∀ h d works, g.host.read h = .content d → (∀ b ∈ pool.objects, b.data.length < d.length) →
      g.step es zero (.copyFrom p h works) = .panic) ∧
    ∀ k c cell, g.dev.cell? k = some (c, cell) → g.step es zero (.copyFromDevice p k) = .panic := by
  have hcell : ∀ (h : Nat) (d : List E), g.host.read h = .content d →
      ∃ c cell, g.host.cell? h = some (c, cell) ∧ cell.inner.data = d := by
    intro h d hd
    simp only [World.read] at hd
    cases hc : g.host.cell? h with
    | none => rw [hc] at hd; simp at hd
    | some q =>
      rw [hc] at hd
      simp only [Out.content.injEq] at hd
      exact ⟨q.1, q.2, rfl, hd⟩
  refine ⟨?_, ?_, ?_⟩
  · intro h d works hd ho
    obtain ⟨c, cell, h1, h2⟩ := hcell h d hd
    simp only [Gpu.step, Gpu.copyFrom, hp, h1, World.pull, ho]
  · intro h d works hd hl
    obtain ⟨c, cell, h1, h2⟩ := hcell h d hd
    simp only [Gpu.step, Gpu.copyFrom, hp, h1, World.pull]
    cases ho : pool.objects with
    | nil => rfl
    | cons b bs =>
      simp only
      have := hl b (by rw [ho]; simp)
      rw [if_neg (by rw [h2]; omega)]
  · intro k c cell hk
    simp only [Gpu.step, Gpu.copyFromDevice, hp, hk]

/-- The statistics of the pools, which the console monitor shows, never mention a device pool: making one
or taking its buffers does not change them. -/
theorem C108_violated_unseen {es : Nat} {zero : E} {g g' : Gpu E} {o : Out E} {op : GpuOp E}
    (hop : (∃ id b n gr, op = .newPool id b n gr) ∨ (∃ p, op = .acquire p) ∨ (∃ d, op = .drop d) ∨
      ∃ p h w, op = .copyFrom p h w)
    (hs : g.step es zero op = .ok (g', o)) :
    g'.step es zero (.host .statistics) = .ok (g', .stats g.host.statistics) := by
  have hh : g'.host = g.host := by
    rcases hop with ⟨id, b, n, gr, rfl⟩ | ⟨p, rfl⟩ | ⟨d, rfl⟩ | ⟨p, h, w, rfl⟩
    · simp only [Gpu.step, Gpu.newPool, Rs.ok.injEq] at hs
      split at hs
      · simp only [Prod.mk.injEq] at hs; rw [← hs.1]
      · split at hs <;>
        · simp only [Prod.mk.injEq] at hs; rw [← hs.1]
    · simp only [Gpu.step, Gpu.onDev, Rs.ok.injEq, Prod.mk.injEq] at hs
      rw [← hs.1]
    · simp only [Gpu.step, Gpu.onDev, Rs.ok.injEq, Prod.mk.injEq] at hs
      rw [← hs.1]
    · simp only [Gpu.step, Gpu.copyFrom] at hs
      split at hs
      · split at hs
        · simp at hs
        · split at hs
          · split at hs
            · simp only [Rs.ok.injEq, Prod.mk.injEq] at hs; rw [← hs.1]
            · simp at hs
          · simp at hs
      · simp only [Rs.ok.injEq, Prod.mk.injEq] at hs; rw [← hs.1]
  simp only [Gpu.step, World.step, hh]
  rw [← hh]

/-- Pools of each kind: the statistics have the host pool only. -/
example : (Gpu.empty : Gpu Nat).run 4 0
    [.newPool "gpu" 1 3 true, .host (.newPool "cam" [[0]]), .host .statistics] =
    [.ok (.pool 0), .ok (.pool 0), .ok (.stats [("cam", 1, 1, 4)])] := by decide +kernel

example := C108_violated_panics 4 0 (gpuCopied [7, 8, 9]) (p := 0) (pool := ⟨"gpu", [], [], 1, 12⟩) rfl
example := C108_violated_unseen (es := 4) (zero := 0) (g := gpuBefore) (op := .acquire 0)
  (Or.inr (Or.inl ⟨0, rfl⟩)) rfl

end Pool
end Verif
