import Verif.Proofs.Pool
import Verif.Spec.CudaPool
/-! Lemmas for C108. -/
namespace Verif
namespace Pool
variable {E : Type}

theorem overlay_length (new old : List E) : (overlay new old).length = old.length := by
  simp [overlay]; omega

theorem overlay_short {new old : List E} (h : new.length ≤ old.length) :
    overlay new old = new ++ old.drop new.length := by
  simp [overlay, List.take_of_length_le h]

theorem overlay_same {new old : List E} (h : new.length = old.length) : overlay new old = new := by
  rw [overlay_short (by omega), h]; simp

theorem overlay_get (new old : List E) (i : Nat) (hi : i < old.length) :
    (overlay new old)[i]? = if i < new.length then new[i]? else old[i]? := by
  unfold overlay
  rw [List.getElem?_append]
  simp only [List.length_take, List.getElem?_take, List.getElem?_drop]
  by_cases h : i < new.length
  · rw [if_pos h, if_pos (by omega), if_pos hi]
  · rw [if_neg h, if_neg (by omega)]
    congr 1; omega

structure GpuRel (g : Gpu E) (a : GpuAbs E) : Prop where
  host : Rel g.host a.host
  dev : Rel g.dev a.dev

theorem gpuRel_empty : GpuRel (Gpu.empty : Gpu E) ⟨.empty, .empty⟩ := ⟨rel_empty, rel_empty⟩

variable {g : Gpu E} {a : GpuAbs E}

theorem makeBufs_addr (inits : List (List E)) :
    ((makeBufs inits).map Buf.addr).Perm (List.range inits.length) := by
  simp only [makeBufs, List.map_reverse, List.map_map]
  refine (List.reverse_perm _).trans ?_
  have : (inits.zipIdx.map (Buf.addr ∘ fun e : List E × Nat => (⟨e.2, e.1⟩ : Buf E))) =
      inits.zipIdx.map Prod.snd := rfl
  rw [this, List.zipIdx_map_snd, List.range_eq_range']

theorem makeBufs_mem {inits : List (List E)} {x : Buf E} (hx : x ∈ makeBufs inits) : x.data ∈ inits := by
  simp only [makeBufs, List.mem_reverse, List.mem_map] at hx
  obtain ⟨e, he, rfl⟩ := hx
  rw [List.mem_iff_getElem?]
  exact ⟨e.2, List.mem_zipIdx_iff_getElem?.1 (by exact he)⟩

theorem sim_gpu (es : Nat) (zero : E) (h : GpuRel g a) (op : GpuOp E) :
    (g.step es zero op = .panic ∧ a.Allows es op .panic) ∨
    ∃ g' o a', g.step es zero op = .ok (g', o) ∧ a.Allows es op (.ok (a', o)) ∧ GpuRel g' a' := by
  cases op with
  | host op =>
    simp only [Gpu.step, GpuAbs.Allows]
    rcases sim_step es h.host op with ⟨h1, h2⟩ | ⟨w', o, a', h1, h2, h3⟩
    · left; rw [h1]; exact ⟨rfl, Or.inl ⟨h2, trivial⟩⟩
    · right; rw [h1]
      exact ⟨_, o, { a with host := a' }, rfl, Or.inr ⟨a', o, h2, rfl⟩, ⟨h3, h.dev⟩⟩
  | newPool id buffers elements granted =>
    right
    simp only [Gpu.step, GpuAbs.Allows, Gpu.newPool]
    by_cases hg : buffers ≠ 0 ∧ granted = false
    · rw [if_pos hg]
      refine ⟨g, _, a, rfl, ?_, h⟩
      rw [if_neg (by
        rintro ⟨h1 | h1, _⟩
        · exact hg.1 h1
        · rw [hg.2] at h1; cases h1)]
    · have hg' : buffers = 0 ∨ granted = true := by
        cases granted <;> simp_all
      rw [if_neg hg]
      by_cases hid : id.utf8ByteSize ≤ 64
      · rw [if_pos hid]
        refine ⟨_, _, { a with dev := { a.dev with
            pools := a.dev.pools ++ [⟨id, List.replicate buffers elements, elements * es, 0⟩] } }, rfl,
          by rw [if_pos ⟨hg', hid⟩, h.dev.plen], h.host, ?_⟩
        have := rel_newPool h.dev id (bufs := makeBufs (List.replicate buffers (List.replicate elements zero)))
          (lens := List.replicate buffers elements) (elements * es)
          (by simpa using makeBufs_addr (List.replicate buffers (List.replicate elements zero)))
          (by
            intro x hx
            have := makeBufs_mem hx
            rw [List.mem_replicate] at this ⊢
            exact ⟨this.1, by rw [this.2]; simp⟩)
        simpa using this
      · rw [if_neg hid]
        exact ⟨g, _, a, rfl, by rw [if_neg (fun k => hid k.2)], h⟩
  | acquire p =>
    obtain ⟨d, h1, h2⟩ := sim_acquire es h.dev p
    exact Or.inr ⟨_, _, { a with dev := d }, rfl, ⟨d, _, h1, rfl⟩, h.host, h2⟩
  | clone n =>
    obtain ⟨d, h1, h2⟩ := sim_clone es h.dev n
    exact Or.inr ⟨_, _, { a with dev := d }, rfl, ⟨d, _, h1, rfl⟩, h.host, h2⟩
  | drop n =>
    obtain ⟨d, h1, h2⟩ := sim_drop es h.dev n
    exact Or.inr ⟨_, _, { a with dev := d }, rfl, ⟨d, _, h1, rfl⟩, h.host, h2⟩
  | finishDrop p k =>
    obtain ⟨d, h1, h2⟩ := sim_finish es h.dev p k
    exact Or.inr ⟨_, _, { a with dev := d }, rfl, ⟨d, _, h1, rfl⟩, h.host, h2⟩
  | monitor p =>
    refine Or.inr ⟨g, _, a, rfl, ?_, h⟩
    simp only [GpuAbs.Allows, Gpu.monitor]
    cases hp : g.dev.pools[p]? with
    | none => rw [h.dev.pools_none.2 hp]
    | some pool =>
      obtain ⟨ap, h1, h2⟩ := h.dev.pools p pool hp
      rw [h1]
      simp only [h.dev.left hp h1, h2.id, h2.bytes, h2.size]
  | read n =>
    simp only [Gpu.step, GpuAbs.Allows, Gpu.read]
    rw [h.dev.group]
    cases hc : g.dev.cell? n with
    | none => exact Or.inr ⟨g, _, a, rfl, rfl, h⟩
    | some e => exact Or.inl ⟨rfl, trivial⟩
  | kernel n v =>
    right
    simp only [Gpu.step, GpuAbs.Allows, Gpu.kernel]
    rw [h.dev.group]
    cases hc : g.dev.cell? n with
    | none => exact ⟨g, _, a, rfl, rfl, h⟩
    | some e =>
      obtain ⟨c, cell⟩ := e
      simp only [Option.map_some, absInner_data]
      refine ⟨_, _, _, rfl, ⟨overlay v cell.inner.data, overlay_length .., overlay_get v _, rfl⟩, h.host, ?_⟩
      exact rel_write h.dev hc (overlay_length ..)
  | copyFrom p n works =>
    simp only [Gpu.step, GpuAbs.Allows, Gpu.copyFrom]
    rw [h.host.group]
    cases hp : g.dev.pools[p]? with
    | none =>
      rw [h.dev.pools_none.2 hp]
      exact Or.inr ⟨g, _, a, rfl, rfl, h⟩
    | some pool =>
      obtain ⟨ap, h1, h2⟩ := h.dev.pools p pool hp
      rw [h1]
      cases hc : g.host.cell? n with
      | none => exact Or.inr ⟨g, _, a, rfl, rfl, h⟩
      | some e =>
        obtain ⟨c, cell⟩ := e
        simp only [h.dev.full hp h1, World.pull, Option.map_some, absInner_data]
        cases ho : pool.objects with
        | nil => simp
        | cons b bs =>
          simp only [ne_eq, reduceCtorEq, not_false_eq_true, if_true]
          have hb := h2.lens b (by simp [ho])
          by_cases hl : cell.inner.data.length ≤ b.data.length
          · rw [if_pos hl]
            cases works with
            | false =>
              left
              refine ⟨rfl, b.data.length, hb, ?_⟩
              rw [if_neg (by simp)]
              trivial
            | true =>
              right
              obtain ⟨g1, g2⟩ := rel_pull h.dev hp ho
                (b' := ⟨b.addr, overlay cell.inner.data b.data⟩) rfl (overlay_length ..)
              refine ⟨_, _, { a with dev := (a.dev.add ⟨some p, overlay cell.inner.data b.data⟩).1 }, rfl,
                ⟨b.data.length, hb, ?_⟩, h.host, g1⟩
              rw [if_pos ⟨hl, rfl⟩]
              refine ⟨b.data.drop cell.inner.data.length, by simp; omega, ?_⟩
              simp only [← overlay_short hl]
              exact congrArg (fun o => Rs.ok (_, o)) g2
          · left
            rw [if_neg hl]
            refine ⟨rfl, b.data.length, hb, ?_⟩
            rw [if_neg (fun k => hl k.1)]
            trivial
  | copyFromDevice p n =>
    simp only [Gpu.step, GpuAbs.Allows, Gpu.copyFromDevice]
    rw [h.dev.group]
    cases hp : g.dev.pools[p]? with
    | none =>
      rw [h.dev.pools_none.2 hp]
      exact Or.inr ⟨g, _, a, rfl, rfl, h⟩
    | some pool =>
      obtain ⟨ap, h1, h2⟩ := h.dev.pools p pool hp
      rw [h1]
      cases hc : g.dev.cell? n with
      | none => exact Or.inr ⟨g, _, a, rfl, rfl, h⟩
      | some e => exact Or.inl ⟨rfl, trivial⟩
  | copyToHost d n beyond works =>
    simp only [Gpu.step, GpuAbs.Allows, Gpu.copyToHost]
    rw [h.dev.group, h.host.group]
    cases hd : g.dev.cell? d with
    | none => exact Or.inr ⟨g, _, a, rfl, rfl, h⟩
    | some e =>
      obtain ⟨c, src⟩ := e
      cases hh : g.host.cell? n with
      | none => exact Or.inr ⟨g, _, a, rfl, rfl, h⟩
      | some e =>
        obtain ⟨c', dst⟩ := e
        simp only [Option.map_some, absInner_data]
        by_cases hl : src.inner.data.length ≤ dst.inner.data.length
        · rw [if_pos hl]
          cases works with
          | false =>
            left
            refine ⟨rfl, ?_⟩
            rw [if_neg (by simp)]
            trivial
          | true =>
            right
            have hw := rel_write h.host hh
              (overlay_length (src.inner.data ++ beyond) dst.inner.data)
            refine ⟨_, _, (⟨⟨a.host.pools, a.host.groups.set c'
              ⟨(absInner dst.inner).pool, overlay (src.inner.data ++ beyond) dst.inner.data⟩, a.host.handles⟩,
              a.dev⟩ : GpuAbs E), rfl, ?_, hw, h.dev⟩
            rw [if_pos ⟨hl, rfl⟩]
            refine ⟨(overlay (src.inner.data ++ beyond) dst.inner.data).drop src.inner.data.length,
              by simp [overlay_length]; omega, ?_⟩
            have e : src.inner.data ++ (overlay (src.inner.data ++ beyond) dst.inner.data).drop
                src.inner.data.length = overlay (src.inner.data ++ beyond) dst.inner.data := by
              have : (overlay (src.inner.data ++ beyond) dst.inner.data).take src.inner.data.length =
                  src.inner.data := by
                unfold overlay
                rw [List.take_append_of_le_length (by simp; omega), List.take_take,
                  Nat.min_eq_left hl, List.take_left]
              conv => lhs; lhs; rw [← this]
              rw [List.take_append_drop]
            rw [e]
        · left
          rw [if_neg hl, if_neg (fun k => hl k.1)]
          exact ⟨rfl, trivial⟩

theorem gpuReach_rel {es : Nat} {zero : E} (h : GpuReach es zero g) : ∃ a, GpuRel g a := by
  induction h with
  | empty => exact ⟨_, gpuRel_empty⟩
  | step _ hs ih =>
    obtain ⟨a, ha⟩ := ih
    rcases sim_gpu es zero ha _ with ⟨h1, _⟩ | ⟨g', o, a', h1, _, h3⟩
    · rw [hs] at h1; simp at h1
    · rw [hs] at h1
      simp only [Rs.ok.injEq, Prod.mk.injEq] at h1
      rw [h1.1]
      exact ⟨a', h3⟩

/-- Once handle `k` exists, no operation but a kernel changes what is behind it while it lives. -/
theorem dev_stable {es : Nat} {zero : E} {op : GpuOp E} {g' : Gpu E} {o : Out E} {k c : Nat} {s : Cell E}
    (h : GpuRel g a) (hk : g.dev.cell? k = some (c, s)) (hs : g.step es zero op = .ok (g', o))
    (hn : ∀ d v, op ≠ .kernel d v) :
    g'.dev.handles[k]? = some none ∨ ∃ s', g'.dev.cell? k = some (c, s') ∧ s'.inner.data = s.inner.data := by
  have hg := h.dev.group k
  rw [hk] at hg
  simp only [Option.map_some] at hg
  suffices hsuf : ∀ a' : GpuAbs E, GpuRel g' a' →
      (a'.dev.handles[k]? = some none ∨ a'.dev.group? k = some (c, absInner s.inner)) →
      g'.dev.handles[k]? = some none ∨ ∃ s', g'.dev.cell? k = some (c, s') ∧ s'.inner.data = s.inner.data by
    rcases sim_gpu es zero h op with ⟨h1, _⟩ | ⟨g'', o', a', h1, h2, h3⟩
    · rw [hs] at h1; simp at h1
    rw [hs] at h1
    simp only [Rs.ok.injEq, Prod.mk.injEq] at h1
    obtain ⟨rfl, rfl⟩ := h1
    refine hsuf a' h3 ?_
    have hgh : a.dev.handles[k]? = some (some c) := by rw [h.dev.handles]; exact (cell_eq hk).1
    have hgg : a.dev.groups[c]? = some (absInner s.inner) := (h.dev.cells c s (cell_eq hk).2).1
    have hklt := (List.getElem?_eq_some_iff.1 hgh).1
    have hclt := (List.getElem?_eq_some_iff.1 hgg).1
    have madd : ∀ x : Group E, (a.dev.add x).1.group? k = some (c, absInner s.inner) := by
      intro x
      simp only [Abs.add, Abs.group?]
      rw [List.getElem?_append_left hklt, hgh]
      simp only
      rw [List.getElem?_append_left hclt, hgg]
      rfl
    clear hsuf hs h3
    cases op with
    | kernel d v => exact absurd rfl (hn d v)
    | host op =>
      simp only [GpuAbs.Allows] at h2
      rcases h2 with ⟨_, h2⟩ | ⟨_, _, _, h2⟩
      · simp at h2
      · simp only [Rs.ok.injEq, Prod.mk.injEq] at h2
        rw [h2.1]; exact Or.inr hg
    | newPool id b n gr =>
      simp only [GpuAbs.Allows] at h2
      split at h2 <;>
      · simp only [Rs.ok.injEq, Prod.mk.injEq] at h2
        rw [h2.1]; exact Or.inr hg
    | acquire p =>
      obtain ⟨d, o, h3, h4⟩ := h2
      simp only [Rs.ok.injEq, Prod.mk.injEq] at h4
      rw [h4.1]
      simp only [Abs.Allows] at h3
      split at h3
      · simp only [Rs.ok.injEq, Prod.mk.injEq] at h3
        rw [h3.1]; exact Or.inr hg
      · split at h3
        · obtain ⟨x, _, h5⟩ := h3
          simp only [Rs.ok.injEq] at h5
          have h6 := congrArg Prod.fst h5
          simp only at h6
          rw [h6]
          exact Or.inr (madd _)
        · simp only [Rs.ok.injEq, Prod.mk.injEq] at h3
          rw [h3.1]; exact Or.inr hg
    | clone n =>
      obtain ⟨d, o, h3, h4⟩ := h2
      simp only [Rs.ok.injEq, Prod.mk.injEq] at h4
      rw [h4.1]
      simp only [Abs.Allows] at h3
      split at h3
      · simp only [Rs.ok.injEq, Prod.mk.injEq] at h3
        rw [h3.1]; exact Or.inr hg
      · simp only [Rs.ok.injEq, Prod.mk.injEq] at h3
        rw [h3.1]
        right
        simp only [Abs.group?]
        rw [List.getElem?_append_left hklt, hgh]
        simp only [hgg]
        rfl
    | drop n =>
      obtain ⟨d, o, h3, h4⟩ := h2
      simp only [Rs.ok.injEq, Prod.mk.injEq] at h4
      rw [h4.1]
      simp only [Abs.Allows] at h3
      split at h3
      · simp only [Rs.ok.injEq, Prod.mk.injEq] at h3
        rw [h3.1]; exact Or.inr hg
      · simp only [Rs.ok.injEq, Prod.mk.injEq] at h3
        rw [h3.1]
        by_cases hkn : n = k
        · left
          subst hkn
          simp only [Abs.dropped]
          exact List.getElem?_set_self hklt
        · right
          simp only [Abs.group?, Abs.dropped]
          rw [List.getElem?_set_ne hkn, hgh]
          simp only [hgg]
          rfl
    | finishDrop p n =>
      obtain ⟨d, o, h3, h4⟩ := h2
      simp only [Rs.ok.injEq, Prod.mk.injEq] at h4
      rw [h4.1]
      simp only [Abs.Allows] at h3
      split at h3
      · simp only [Rs.ok.injEq, Prod.mk.injEq] at h3
        rw [h3.1]; exact Or.inr hg
      · split at h3 <;>
        · simp only [Rs.ok.injEq, Prod.mk.injEq] at h3
          rw [h3.1]; exact Or.inr hg
    | monitor p =>
      simp only [GpuAbs.Allows] at h2
      split at h2 <;>
      · simp only [Rs.ok.injEq, Prod.mk.injEq] at h2
        rw [h2.1]; exact Or.inr hg
    | read n =>
      simp only [GpuAbs.Allows] at h2
      split at h2
      · simp only [Rs.ok.injEq, Prod.mk.injEq] at h2
        rw [h2.1]; exact Or.inr hg
      · simp at h2
    | copyFrom p n works =>
      simp only [GpuAbs.Allows] at h2
      split at h2
      · split at h2
        · obtain ⟨x, _, h5⟩ := h2
          split at h5
          · obtain ⟨rest, _, h6⟩ := h5
            simp only [Rs.ok.injEq, Prod.mk.injEq] at h6
            rw [h6.1]
            exact Or.inr (madd _)
          · simp at h5
        · simp at h2
      · simp only [Rs.ok.injEq, Prod.mk.injEq] at h2
        rw [h2.1]; exact Or.inr hg
    | copyFromDevice p n =>
      simp only [GpuAbs.Allows] at h2
      split at h2
      · simp at h2
      · simp only [Rs.ok.injEq, Prod.mk.injEq] at h2
        rw [h2.1]; exact Or.inr hg
    | copyToHost d n beyond works =>
      simp only [GpuAbs.Allows] at h2
      split at h2
      · split at h2
        · obtain ⟨rest, _, h6⟩ := h2
          simp only [Rs.ok.injEq, Prod.mk.injEq] at h6
          rw [h6.1]; exact Or.inr hg
        · simp at h2
      · simp only [Rs.ok.injEq, Prod.mk.injEq] at h2
        rw [h2.1]; exact Or.inr hg
  intro a' h3 hor
  rcases hor with h4 | h4
  · left; rw [← h3.dev.handles]; exact h4
  · right
    rw [h3.dev.group] at h4
    cases hc : g'.dev.cell? k with
    | none => rw [hc] at h4; simp at h4
    | some e =>
      obtain ⟨c', s'⟩ := e
      rw [hc] at h4
      simp only [Option.map_some, Option.some.injEq, Prod.mk.injEq] at h4
      refine ⟨s', by rw [h4.1], ?_⟩
      rw [← absInner_data, h4.2, absInner_data]

/-- A dropped handle stays dropped. -/
theorem dev_gone {es : Nat} {zero : E} {op : GpuOp E} {g' : Gpu E} {o : Out E} {k : Nat}
    (hk : g.dev.handles[k]? = some none) (hs : g.step es zero op = .ok (g', o)) :
    g'.dev.handles[k]? = some none := by
  have hlt := (List.getElem?_eq_some_iff.1 hk).1
  have happ : ∀ x : List (Option Nat), (g.dev.handles ++ x)[k]? = some none := by
    intro x; rw [List.getElem?_append_left hlt]; exact hk
  cases op with
  | host op =>
    simp only [Gpu.step] at hs
    split at hs
    · simp at hs
    · simp only [Rs.ok.injEq, Prod.mk.injEq] at hs
      rw [← hs.1]; exact hk
  | newPool id b n gr =>
    simp only [Gpu.step, Gpu.newPool, Rs.ok.injEq] at hs
    split at hs
    · simp only [Prod.mk.injEq] at hs; rw [← hs.1]; exact hk
    · split at hs <;>
      · simp only [Prod.mk.injEq] at hs; rw [← hs.1]; exact hk
  | acquire p =>
    simp only [Gpu.step, Gpu.onDev, Rs.ok.injEq, Prod.mk.injEq] at hs
    rw [← hs.1]
    simp only [World.acquire]
    split
    · exact hk
    · rename_i pool _
      unfold World.pull
      cases pool.objects with
      | nil => exact hk
      | cons b bs => exact happ _
  | clone n =>
    simp only [Gpu.step, Gpu.onDev, Rs.ok.injEq, Prod.mk.injEq] at hs
    rw [← hs.1]
    simp only [World.clone]
    split
    · exact hk
    · exact happ _
  | drop n =>
    simp only [Gpu.step, Gpu.onDev, Rs.ok.injEq, Prod.mk.injEq] at hs
    rw [← hs.1]
    have : (g.dev.handles.set n none)[k]? = some none := by
      by_cases hn : n = k
      · subst hn; exact List.getElem?_set_self hlt
      · rw [List.getElem?_set_ne hn]; exact hk
    simp only [World.drop]
    split
    · exact hk
    · split <;> exact this
  | finishDrop p n =>
    simp only [Gpu.step, Gpu.onDev, Rs.ok.injEq, Prod.mk.injEq] at hs
    rw [← hs.1]
    simp only [World.finishDrop]
    split
    · exact hk
    · split <;> exact hk
  | monitor p =>
    simp only [Gpu.step, Rs.ok.injEq, Prod.mk.injEq] at hs
    rw [← hs.1]; exact hk
  | read n =>
    simp only [Gpu.step, Gpu.read] at hs
    split at hs
    · simp only [Rs.ok.injEq, Prod.mk.injEq] at hs; rw [← hs.1]; exact hk
    · simp at hs
  | kernel d v =>
    simp only [Gpu.step, Gpu.kernel, Rs.ok.injEq] at hs
    split at hs <;>
    · simp only [Prod.mk.injEq] at hs; rw [← hs.1]; exact hk
  | copyFrom p n works =>
    simp only [Gpu.step, Gpu.copyFrom] at hs
    split at hs
    · rename_i pool _ _ _ _
      unfold World.pull at hs
      cases ho : pool.objects with
      | nil => rw [ho] at hs; simp at hs
      | cons b bs =>
        rw [ho] at hs
        simp only at hs
        split at hs
        · split at hs
          · simp only [Rs.ok.injEq, Prod.mk.injEq] at hs
            rw [← hs.1]; exact happ _
          · simp at hs
        · simp at hs
    · simp only [Rs.ok.injEq, Prod.mk.injEq] at hs; rw [← hs.1]; exact hk
  | copyFromDevice p n =>
    simp only [Gpu.step, Gpu.copyFromDevice] at hs
    split at hs
    · simp at hs
    · simp only [Rs.ok.injEq, Prod.mk.injEq] at hs; rw [← hs.1]; exact hk
  | copyToHost d n beyond works =>
    simp only [Gpu.step, Gpu.copyToHost] at hs
    split at hs
    · split at hs
      · split at hs
        · simp only [Rs.ok.injEq, Prod.mk.injEq] at hs; rw [← hs.1]; exact hk
        · simp at hs
      · simp at hs
    · simp only [Rs.ok.injEq, Prod.mk.injEq] at hs; rw [← hs.1]; exact hk

/-- Along a history without kernels, what is behind a handle does not change while it lives. -/
theorem dev_stable_run {es : Nat} {zero : E} {ops : List (GpuOp E)} {g g' : Gpu E} {k c : Nat} {s : Cell E}
    (h : ∃ a, GpuRel g a) (hk : g.dev.cell? k = some (c, s)) (hs : g.after es zero ops = .ok g')
    (hn : ∀ op ∈ ops, ∀ d v, op ≠ .kernel d v) :
    g'.dev.handles[k]? = some none ∨ ∃ s', g'.dev.cell? k = some (c, s') ∧ s'.inner.data = s.inner.data := by
  induction ops generalizing g s with
  | nil =>
    simp only [Gpu.after, Rs.ok.injEq] at hs
    subst hs
    exact Or.inr ⟨s, hk, rfl⟩
  | cons op ops ih =>
    obtain ⟨a, ha⟩ := h
    simp only [Gpu.after] at hs
    cases hst : g.step es zero op with
    | panic => rw [hst] at hs; simp at hs
    | ok q =>
      obtain ⟨g1, o⟩ := q
      rw [hst] at hs
      simp only at hs
      have hr : ∃ a, GpuRel g1 a := by
        rcases sim_gpu es zero ha op with ⟨h1, _⟩ | ⟨g'', o', a', h1, _, h3⟩
        · rw [hst] at h1; simp at h1
        · rw [hst] at h1
          simp only [Rs.ok.injEq, Prod.mk.injEq] at h1
          rw [h1.1]; exact ⟨a', h3⟩
      rcases dev_stable ha hk hst (hn op (by simp)) with h1 | ⟨s', h1, h2⟩
      · left
        have gone : ∀ (ops : List (GpuOp E)) (g1 : Gpu E), g1.dev.handles[k]? = some none →
            g1.after es zero ops = .ok g' → g'.dev.handles[k]? = some none := by
          intro ops
          induction ops with
          | nil =>
            intro g1 h1 hs
            simp only [Gpu.after, Rs.ok.injEq] at hs
            subst hs; exact h1
          | cons op ops ih =>
            intro g1 h1 hs
            simp only [Gpu.after] at hs
            cases hst : g1.step es zero op with
            | panic => rw [hst] at hs; simp at hs
            | ok q =>
              rw [hst] at hs
              exact ih q.1 (dev_gone h1 hst) hs
        exact gone ops g1 h1 hs
      · rcases ih hr h1 hs (fun op' hm => hn op' (List.mem_cons_of_mem _ hm)) with h3 | ⟨s'', h3, h4⟩
        · exact Or.inl h3
        · exact Or.inr ⟨s'', h3, by rw [h4, h2]⟩

end Pool
end Verif
