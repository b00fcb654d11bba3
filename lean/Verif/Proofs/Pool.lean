import Verif.Spec.Pool
/-! The pool refines its specification. -/
namespace Verif
namespace Pool
variable {E : Type}

section lists
variable {α β : Type}

theorem split_at {l : List α} {c : Nat} {x : α} (h : l[c]? = some x) :
    ∃ A B, l = A ++ x :: B ∧ A.length = c ∧ ∀ y, l.set c y = A ++ y :: B := by
  obtain ⟨hc, hx⟩ := List.getElem?_eq_some_iff.1 h
  have hA : (l.take c).length = c := by simp; omega
  have hl : l = l.take c ++ x :: l.drop (c + 1) := by
    rw [← hx, List.getElem_cons_drop]; simp
  refine ⟨l.take c, l.drop (c + 1), hl, hA, ?_⟩
  intro y
  rw [List.set_eq_take_append_cons_drop]
  simp [hc]

theorem filterMap_range (f : α → Option β) (l : List α) :
    l.filterMap f = (List.range l.length).filterMap (fun i => l[i]?.bind f) := by
  have h : (List.range l.length).map (fun i => l[i]?) = l.map some := by
    apply List.ext_getElem?
    intro i
    by_cases hi : i < l.length
    · rw [List.getElem?_map, List.getElem?_map, List.getElem?_range hi, List.getElem?_eq_getElem hi]
      simp [List.getElem?_eq_getElem hi]
    · simp [List.getElem?_map, hi]
  calc l.filterMap f = (l.map some).filterMap (fun o => o.bind f) := by
        simp [List.filterMap_map, Function.comp_def]
    _ = ((List.range l.length).map (fun i => l[i]?)).filterMap (fun o => o.bind f) := by rw [h]
    _ = _ := by simp [List.filterMap_map, Function.comp_def]

end lists

/-- What the specification says of the content of an allocation. -/
def absInner : Inner E → Group E
  | .pooled p b => ⟨some p, b.data⟩
  | .detached d => ⟨none, d⟩

@[simp] theorem absInner_data (i : Inner E) : (absInner i).data = i.data := by cases i <;> rfl

/-- The buffer of pool `p` in an allocation. -/
def bufFor (p : Nat) : Option (Cell E) → Option (Buf E)
  | some ⟨_, .pooled q b⟩ => if q = p then some b else none
  | _ => none

theorem held_eq (w : World E) (p : Nat) : w.held p = w.cells.filterMap (bufFor p) := by
  unfold World.held
  congr 1

theorem bufFor_inner (p : Nat) (s s' : Nat) (i : Inner E) :
    bufFor p (some ⟨s, i⟩) = bufFor p (some ⟨s', i⟩) := by
  cases i <;> rfl

structure PoolRel (held : List (Buf E)) (pool : HostPool E) (ap : AbsPool) : Prop where
  id : ap.id = pool.id
  bytes : ap.bytes = pool.bufferSize
  size : ap.lens.length = pool.size
  returning : ap.returning = pool.returning.length
  perm : ((pool.objects ++ pool.returning ++ held).map Buf.addr).Perm (List.range pool.size)
  lens : ∀ b, b ∈ pool.objects ++ pool.returning ++ held → b.data.length ∈ ap.lens

structure Rel (w : World E) (a : Abs E) : Prop where
  handles : a.handles = w.handles
  glen : a.groups.length = w.cells.length
  cells : ∀ (c : Nat) (cell : Cell E), w.cells[c]? = some (some cell) →
    a.groups[c]? = some (absInner cell.inner) ∧ cell.strong = w.handles.count (some c) ∧ 0 < cell.strong
  live : ∀ c : Nat, some c ∈ w.handles → ∃ cell, w.cells[c]? = some (some cell)
  plen : a.pools.length = w.pools.length
  refs : ∀ (c s q : Nat) (b : Buf E), w.cells[c]? = some (some (⟨s, .pooled q b⟩ : Cell E)) → q < w.pools.length
  pools : ∀ (p : Nat) (pool : HostPool E), w.pools[p]? = some pool →
    ∃ ap, a.pools[p]? = some ap ∧ PoolRel (w.held p) pool ap
  reg : ∀ (id : String) (p : Nat), (id, p) ∈ w.registry ↔ ∃ pool, w.pools[p]? = some pool ∧ pool.id = id ∧
    ∀ q pool', p < q → w.pools[q]? = some pool' → pool'.id ≠ id
  regNodup : (w.registry.map Prod.fst).Nodup

theorem rel_empty : Rel (World.empty : World E) Abs.empty := by
  constructor <;> simp [World.empty, Abs.empty]

variable {w : World E} {a : Abs E}

theorem Rel.inUse (h : Rel w a) (p : Nat) : a.inUse p = (w.held p).length := by
  unfold Abs.inUse
  rw [held_eq, filterMap_range, List.length_filterMap_eq_countP, ← List.countP_eq_length_filter, h.glen]
  apply List.countP_congr
  intro c hc
  have hc : c < w.cells.length := by simpa using hc
  rw [h.handles]
  have hlive : w.handles.contains (some c) = true ↔ ∃ cell, w.cells[c]? = some (some cell) := by
    constructor
    · intro hm; exact h.live c (by simpa using hm)
    · rintro ⟨cell, hcell⟩
      have := (h.cells c cell hcell).2
      have h2 : 0 < w.handles.count (some c) := by omega
      simpa using List.count_pos_iff.1 h2
  rw [List.getElem?_eq_getElem hc]
  cases hx : w.cells[c] with
  | none =>
    have : w.handles.contains (some c) = false := by
      rw [Bool.eq_false_iff]
      intro hm
      obtain ⟨cell, hcell⟩ := hlive.1 hm
      rw [List.getElem?_eq_getElem hc, hx] at hcell
      simp at hcell
    simp only [this, Bool.false_and, Option.bind_some]
    simp [bufFor]
  | some cell =>
    have hcell : w.cells[c]? = some (some cell) := by rw [List.getElem?_eq_getElem hc, hx]
    rw [hlive.2 ⟨cell, hcell⟩, (h.cells c cell hcell).1]
    obtain ⟨s, i⟩ := cell
    cases i with
    | pooled q b =>
      simp only [absInner, bufFor, Option.map_some, Bool.true_and, Option.bind_some]
      by_cases hq : q = p <;> simp [hq]
    | detached d => simp [absInner, bufFor]

theorem PoolRel.total {held : List (Buf E)} {pool : HostPool E} {ap : AbsPool} (h : PoolRel held pool ap) :
    pool.objects.length + pool.returning.length + held.length = pool.size := by
  have := h.perm.length_eq
  simp at this
  omega

theorem Rel.left (h : Rel w a) {p : Nat} {pool : HostPool E} {ap : AbsPool} (hp : w.pools[p]? = some pool)
    (ha : a.pools[p]? = some ap) : a.left p ap = pool.objects.length := by
  obtain ⟨ap', h1, h2⟩ := h.pools p pool hp
  rw [ha] at h1; injection h1 with h1; subst h1
  have := h2.total
  unfold Abs.left
  rw [h.inUse, h2.size, h2.returning]
  omega

theorem Rel.group (h : Rel w a) (n : Nat) :
    a.group? n = (w.cell? n).map (fun e => (e.1, absInner e.2.inner)) := by
  unfold Abs.group? World.cell?
  rw [h.handles]
  cases h1 : w.handles[n]? with
  | none => rfl
  | some o =>
    cases o with
    | none => rfl
    | some c =>
      obtain ⟨cell, hcell⟩ := h.live c (List.mem_of_getElem? h1)
      simp only [hcell, (h.cells c cell hcell).1]
      rfl

theorem Rel.pools_none (h : Rel w a) {p : Nat} : a.pools[p]? = none ↔ w.pools[p]? = none := by
  simp [h.plen]

theorem cell_eq {n c : Nat} {cell : Cell E} (h : w.cell? n = some (c, cell)) :
    w.handles[n]? = some (some c) ∧ w.cells[c]? = some (some cell) := by
  unfold World.cell? at h
  split at h
  · rename_i c' hc'
    split at h
    · rename_i cell' hcell'
      simp only [Option.some.injEq, Prod.mk.injEq] at h
      obtain ⟨rfl, rfl⟩ := h
      exact ⟨hc', hcell'⟩
    · exact absurd h (by simp)
  · exact absurd h (by simp)

theorem reg_congr {l l' : List (HostPool E)}
    (hid : ∀ q : Nat, l'[q]?.map HostPool.id = l[q]?.map HostPool.id) (id : String) (p : Nat) :
    (∃ pool, l[p]? = some pool ∧ pool.id = id ∧ ∀ q pool', p < q → l[q]? = some pool' → pool'.id ≠ id) ↔
    (∃ pool, l'[p]? = some pool ∧ pool.id = id ∧ ∀ q pool', p < q → l'[q]? = some pool' → pool'.id ≠ id) := by
  have tr : ∀ (q : Nat) (P : String → Prop), (∃ pool, l'[q]? = some pool ∧ P pool.id) ↔
      (∃ pool, l[q]? = some pool ∧ P pool.id) := by
    intro q P
    have := hid q
    cases h1 : l'[q]? <;> cases h2 : l[q]? <;> simp [h1, h2] at this ⊢
    rw [this]
  rw [tr p (fun i => i = id ∧ ∀ q pool', p < q → l'[q]? = some pool' → pool'.id ≠ id)]
  have e : (∀ (q : Nat) (pool' : HostPool E), p < q → l'[q]? = some pool' → pool'.id ≠ id) ↔
      (∀ (q : Nat) (pool' : HostPool E), p < q → l[q]? = some pool' → pool'.id ≠ id) := by
    constructor
    · intro g q pool' hq hpq he
      obtain ⟨p2, g1, g2⟩ := (tr q (fun i => i = id)).2 ⟨pool', hpq, he⟩
      exact g q p2 hq g1 g2
    · intro g q pool' hq hpq he
      obtain ⟨p2, g1, g2⟩ := (tr q (fun i => i = id)).1 ⟨pool', hpq, he⟩
      exact g q p2 hq g1 g2
  rw [e]

/-- A new handle on a new allocation. -/
theorem rel_add (h : Rel w a) {inner : Inner E} {w0 : World E}
    (hh : w0.handles = w.handles) (hc : w0.cells = w.cells) (hr : w0.registry = w.registry)
    (hl : w0.pools.length = w.pools.length)
    (hid : ∀ q : Nat, w0.pools[q]?.map HostPool.id = w.pools[q]?.map HostPool.id)
    (hin : ∀ q b, inner = .pooled q b → q < w.pools.length)
    (hp : ∀ (p : Nat) (pool : HostPool E), w0.pools[p]? = some pool → ∃ ap, a.pools[p]? = some ap ∧
      PoolRel (w.held p ++ (bufFor p (some ⟨1, inner⟩)).toList) pool ap) :
    Rel (w0.addHandle inner).1 (a.add (absInner inner)).1 ∧
      (w0.addHandle inner).2 = (a.add (absInner inner)).2 := by
  refine ⟨?_, by simp [World.addHandle, Abs.add, hh, h.handles]⟩
  have hnew : some w.cells.length ∉ w.handles := by
    intro hm
    obtain ⟨cell, hcell⟩ := h.live _ hm
    simp at hcell
  constructor
  · simp [World.addHandle, Abs.add, hh, hc, h.handles, h.glen]
  · simp [World.addHandle, Abs.add, hc, h.glen]
  · intro c cell hcell
    simp only [World.addHandle, Abs.add, hc, hh] at hcell ⊢
    by_cases h1 : c < w.cells.length
    · rw [List.getElem?_append_left h1] at hcell
      rw [List.getElem?_append_left (by rw [h.glen]; exact h1)]
      obtain ⟨g1, g2, g3⟩ := h.cells c cell hcell
      refine ⟨g1, ?_, g3⟩
      rw [List.count_append, g2]
      have : (some w.cells.length) ≠ (some c) := by simp; omega
      simp [this]
    · have h2 : c = w.cells.length := by
        have := (List.getElem?_eq_some_iff.1 hcell).1
        simp at this; omega
      subst h2
      rw [List.getElem?_append_right (by omega)] at hcell
      rw [List.getElem?_append_right (by rw [h.glen]; omega)]
      simp only [Nat.sub_self, List.getElem?_cons_zero, Option.some.injEq, h.glen] at hcell ⊢
      subst hcell
      refine ⟨rfl, ?_, by simp⟩
      rw [List.count_append, List.count_eq_zero_of_not_mem hnew]
      simp
  · intro c hm
    simp only [World.addHandle, hc, hh, List.mem_append, List.mem_singleton, Option.some.injEq] at hm ⊢
    rcases hm with hm | rfl
    · obtain ⟨cell, hcell⟩ := h.live c hm
      exact ⟨cell, by rw [List.getElem?_append_left (List.getElem?_eq_some_iff.1 hcell).1, hcell]⟩
    · exact ⟨⟨1, inner⟩, by simp⟩
  · simp [World.addHandle, Abs.add, hl, h.plen]
  · intro c s q b hcell
    simp only [World.addHandle, hc, hl] at hcell ⊢
    by_cases h1 : c < w.cells.length
    · rw [List.getElem?_append_left h1] at hcell
      exact h.refs c s q b hcell
    · have h2 : c = w.cells.length := by
        have := (List.getElem?_eq_some_iff.1 hcell).1
        simp at this; omega
      subst h2
      simp at hcell
      exact hin q b hcell.2
  · intro p pool hpool
    obtain ⟨ap, h1, h2⟩ := hp p pool hpool
    refine ⟨ap, h1, ?_⟩
    have : (w0.addHandle inner).1.held p = w.held p ++ (bufFor p (some ⟨1, inner⟩)).toList := by
      rw [held_eq, held_eq]
      simp only [World.addHandle, hc, List.filterMap_append]
      cases hb : bufFor p (some ⟨1, inner⟩) <;> simp [hb]
    rw [this]; exact h2
  · intro id p
    show (id, p) ∈ w0.registry ↔ _
    rw [hr, h.reg]
    exact reg_congr hid id p
  · show (w0.registry.map Prod.fst).Nodup
    rw [hr]; exact h.regNodup

/-- A change of one allocation. -/
theorem rel_set {w' : World E} {a' : Abs E} (h : Rel w a) {c : Nat} {cell : Cell E}
    {y : Option (Cell E)} (hcell : w.cells[c]? = some (some cell))
    (hcells : w'.cells = w.cells.set c y) (hreg : w'.registry = w.registry)
    (hid : ∀ q : Nat, w'.pools[q]?.map HostPool.id = w.pools[q]?.map HostPool.id)
    (hl : w'.pools.length = w.pools.length) (hal : a'.pools.length = a.pools.length)
    (hh : a'.handles = w'.handles)
    (hgl : a'.groups.length = a.groups.length) (hg : ∀ c', c' ≠ c → a'.groups[c']? = a.groups[c']?)
    (hy : ∀ cell', y = some cell' → a'.groups[c]? = some (absInner cell'.inner) ∧
      cell'.strong = w'.handles.count (some c) ∧ 0 < cell'.strong ∧
      ∀ q b, cell'.inner = .pooled q b → q < w.pools.length)
    (hn : y = none → some c ∉ w'.handles)
    (hcount : ∀ c', c' ≠ c → w'.handles.count (some c') = w.handles.count (some c'))
    (hp : ∀ (p : Nat) (pool : HostPool E), w'.pools[p]? = some pool → ∃ ap, a'.pools[p]? = some ap ∧
      PoolRel (w'.held p) pool ap) : Rel w' a' := by
  have hlt : c < w.cells.length := (List.getElem?_eq_some_iff.1 hcell).1
  constructor
  · exact hh
  · rw [hgl, h.glen, hcells, List.length_set]
  · intro c' cell' hc'
    rw [hcells] at hc'
    by_cases he : c' = c
    · subst he
      rw [List.getElem?_set_self hlt] at hc'
      obtain ⟨h1, h2, h3, _⟩ := hy cell' (by simpa using hc')
      exact ⟨h1, h2, h3⟩
    · rw [List.getElem?_set_ne (Ne.symm he)] at hc'
      rw [hg c' he, hcount c' he]
      exact h.cells c' cell' hc'
  · intro c' hm
    rw [hcells]
    by_cases he : c' = c
    · subst he
      rw [List.getElem?_set_self hlt]
      cases hyy : y with
      | none => exact absurd hm (hn hyy)
      | some cell' => exact ⟨cell', rfl⟩
    · rw [List.getElem?_set_ne (Ne.symm he)]
      refine h.live c' (List.count_pos_iff.1 ?_)
      rw [← hcount c' he]
      exact List.count_pos_iff.2 hm
  · rw [hal, h.plen, hl]
  · intro c' s q b hc'
    rw [hcells] at hc'
    rw [hl]
    by_cases he : c' = c
    · subst he
      rw [List.getElem?_set_self hlt] at hc'
      injection hc' with hc'
      exact (hy _ hc').2.2.2 q b rfl
    · rw [List.getElem?_set_ne (Ne.symm he)] at hc'
      exact h.refs c' s q b hc'
  · exact hp
  · intro id p
    rw [hreg, h.reg]
    exact reg_congr hid id p
  · rw [hreg]; exact h.regNodup

theorem held_set {c : Nat} {x : Option (Cell E)} (hx : w.cells[c]? = some x) (p : Nat) :
    ∃ A B, w.held p = A ++ (bufFor p x).toList ++ B ∧ ∀ (w' : World E) y, w'.cells = w.cells.set c y →
      w'.held p = A ++ (bufFor p y).toList ++ B := by
  obtain ⟨A, B, h1, _, h2⟩ := split_at hx
  refine ⟨A.filterMap (bufFor p), B.filterMap (bufFor p), ?_, ?_⟩
  · rw [held_eq, h1, List.filterMap_append, List.filterMap_cons]
    cases bufFor p x <;> simp
  · intro w' y hw
    rw [held_eq, hw, h2, List.filterMap_append, List.filterMap_cons]
    cases bufFor p y <;> simp

theorem count_set_none {hs : List (Option Nat)} {n c : Nat} (h : hs[n]? = some (some c)) (c' : Nat) :
    (hs.set n none).count (some c') = if c' = c then hs.count (some c') - 1 else hs.count (some c') := by
  obtain ⟨A, B, h1, _, h2⟩ := split_at h
  rw [h2, h1]
  simp only [List.count_append, List.count_cons]
  by_cases he : c' = c
  · subst he; simp
  · simp [he, Ne.symm he]

theorem ids_set {l : List (HostPool E)} {p : Nat} {pool pool' : HostPool E} (hp : l[p]? = some pool)
    (hi : pool'.id = pool.id) (q : Nat) :
    (l.set p pool')[q]?.map HostPool.id = l[q]?.map HostPool.id := by
  have hlt := (List.getElem?_eq_some_iff.1 hp).1
  by_cases he : q = p
  · subst he; rw [List.getElem?_set_self hlt, hp]; simp [hi]
  · rw [List.getElem?_set_ne (Ne.symm he)]

theorem sim_clone (es : Nat) (h : Rel w a) (n : Nat) :
    ∃ a', a.Allows es (.clone n) (.ok (a', (w.clone n).2)) ∧ Rel (w.clone n).1 a' := by
  unfold World.clone
  simp only [Abs.Allows]
  rw [h.group]
  cases hc : w.cell? n with
  | none => exact ⟨a, rfl, h⟩
  | some e =>
    obtain ⟨c, cell⟩ := e
    obtain ⟨h1, h2⟩ := cell_eq hc
    simp only [Option.map_some]
    obtain ⟨g1, g2, g3⟩ := h.cells c cell h2
    refine ⟨_, by rw [h.handles], ?_⟩
    refine rel_set h h2 rfl rfl (fun _ => rfl) rfl rfl (by simp [h.handles]) rfl (fun _ _ => rfl) ?_
      (by simp) ?_ ?_
    · intro cell' hy
      injection hy with hy; subst hy
      refine ⟨g1, ?_, by simp, ?_⟩
      · simp [List.count_append, g2]
      · intro q b hq
        exact h.refs c cell.strong q b (by rw [h2, ← hq])
    · intro c' hne
      simp [List.count_append, Ne.symm hne]
    · intro p pool hpool
      obtain ⟨ap, e1, e2⟩ := h.pools p pool hpool
      refine ⟨ap, e1, ?_⟩
      obtain ⟨A, B, f1, f2⟩ := held_set h2 p
      rw [f2 _ _ rfl]
      rw [f1] at e2
      obtain ⟨s, i⟩ := cell
      rw [bufFor_inner p (s + 1) s]
      exact e2

theorem PoolRel.congr {held held' : List (Buf E)} {pool pool' : HostPool E} {ap ap' : AbsPool}
    (h : PoolRel held pool ap) (hi : pool'.id = pool.id) (hs : pool'.size = pool.size)
    (hb : pool'.bufferSize = pool.bufferSize) (hr : ap'.returning = pool'.returning.length)
    (hl : ap'.lens = ap.lens) (hy : ap'.bytes = ap.bytes) (hd : ap'.id = ap.id)
    (hp : (pool'.objects ++ pool'.returning ++ held').Perm (pool.objects ++ pool.returning ++ held)) :
    PoolRel held' pool' ap' := by
  refine ⟨by rw [hd, hi, h.id], by rw [hy, hb, h.bytes], by rw [hl, hs, h.size], hr, ?_, ?_⟩
  · rw [hs]; exact (hp.map _).trans h.perm
  · intro b hb'
    rw [hl]; exact h.lens b (hp.mem_iff.1 hb')

theorem sim_drop (es : Nat) (h : Rel w a) (n : Nat) :
    ∃ a', a.Allows es (.drop n) (.ok (a', (w.drop n).2)) ∧ Rel (w.drop n).1 a' := by
  unfold World.drop
  simp only [Abs.Allows]
  rw [h.group]
  cases hc : w.cell? n with
  | none => exact ⟨a, rfl, h⟩
  | some e =>
    obtain ⟨c, cell⟩ := e
    obtain ⟨h1, h2⟩ := cell_eq hc
    simp only [Option.map_some]
    obtain ⟨g1, g2, g3⟩ := h.cells c cell h2
    have hcnt : ∀ c', c' ≠ c → (w.handles.set n none).count (some c') = w.handles.count (some c') := by
      intro c' hne
      rw [count_set_none h1, if_neg hne]
    have hcntc : (w.handles.set n none).count (some c) = w.handles.count (some c) - 1 := by
      rw [count_set_none h1, if_pos rfl]
    by_cases hs : cell.strong = 1
    · rw [if_pos hs]
      have hnot : some c ∉ w.handles.set n none := by
        intro hm
        have := List.count_pos_iff.2 hm
        omega
      refine ⟨_, rfl, ?_⟩
      have hnc : (w.handles.set n none).contains (some c) = false := by simpa using hnot
      cases hi : cell.inner with
      | detached d =>
        refine rel_set h h2 (y := none) rfl rfl (fun _ => rfl) rfl ?_ (by simp [Abs.dropped, h.handles])
          rfl (fun _ _ => rfl) (by simp) (fun _ => hnot) hcnt ?_
        · simp [Abs.dropped, absInner]
        · intro p pool hpool
          obtain ⟨ap, e1, e2⟩ := h.pools p pool hpool
          refine ⟨ap, by simpa [Abs.dropped, absInner] using e1, ?_⟩
          obtain ⟨A, B, f1, f2⟩ := held_set h2 p
          rw [f2 _ _ rfl]
          rw [f1] at e2
          obtain ⟨s, i⟩ := cell
          simp only at hi
          subst hi
          exact e2
      | pooled q b =>
        have hq := h.refs c cell.strong q b (by rw [h2, ← hi])
        have hpq : w.pools[q]? = some w.pools[q] := List.getElem?_eq_getElem hq
        obtain ⟨apq, e1, e2⟩ := h.pools q _ hpq
        have hgb : giveBack w.pools (.pooled q b) =
            w.pools.set q { w.pools[q] with returning := b :: w.pools[q].returning } := by
          simp only [giveBack, hpq]
        have hap : (a.dropped n c (absInner (.pooled q b))).pools =
            a.pools.modify q (fun pool => { pool with returning := pool.returning + 1 }) := by
          simp only [Abs.dropped, h.handles, hnc, absInner]
          rfl
        refine rel_set h h2 (y := none) rfl rfl ?_ ?_ ?_ (by simp [Abs.dropped, h.handles])
          rfl (fun _ _ => rfl) (by simp) (fun _ => hnot) hcnt ?_
        · simp only [hgb]
          exact ids_set hpq rfl
        · simp [hgb]
        · rw [hap]; simp
        · simp only [hgb]
          intro p pool hpool
          obtain ⟨A, B, f1, f2⟩ := held_set h2 p
          rw [f2 _ none rfl, hap]
          by_cases hpq' : p = q
          · subst hpq'
            rw [List.getElem?_set_self hq] at hpool
            injection hpool with hpool
            subst hpool
            refine ⟨{ apq with returning := apq.returning + 1 }, by simp [e1], ?_⟩
            rw [f1] at e2
            refine e2.congr rfl rfl rfl (by simp [e2.returning]) rfl rfl rfl ?_
            have : bufFor p (some cell) = some b := by
              obtain ⟨s, i⟩ := cell
              simp only at hi
              subst hi
              simp [bufFor]
            rw [this]
            simp only [bufFor, Option.toList_none, Option.toList_some, List.append_nil]
            have p1 : ∀ (X Y A B : List (Buf E)), (X ++ b :: Y ++ (A ++ B)).Perm (X ++ Y ++ (A ++ [b] ++ B)) := by
              intro X Y A B
              have : X ++ b :: Y ++ (A ++ B) = X ++ b :: (Y ++ A ++ B) := by simp
              rw [this]
              have : X ++ Y ++ (A ++ [b] ++ B) = (X ++ Y ++ A) ++ b :: B := by simp
              rw [this]
              refine List.perm_middle.trans ?_
              refine List.Perm.trans ?_ List.perm_middle.symm
              simp
            exact p1 _ _ _ _
          · rw [List.getElem?_set_ne (Ne.symm hpq')] at hpool
            obtain ⟨ap, k1, k2⟩ := h.pools p pool hpool
            refine ⟨ap, by simp [List.getElem?_modify, Ne.symm hpq', k1], ?_⟩
            rw [f1] at k2
            have : bufFor p (some cell) = none := by
              obtain ⟨s, i⟩ := cell
              simp only at hi
              subst hi
              simp [bufFor, Ne.symm hpq']
            rw [this] at k2
            exact k2
    · rw [if_neg hs]
      refine ⟨_, rfl, ?_⟩
      have hin : (a.handles.set n none).contains (some c) = true := by
        rw [h.handles]
        have : 0 < (w.handles.set n none).count (some c) := by omega
        simpa using List.count_pos_iff.1 this
      have hap : (a.dropped n c (absInner cell.inner)).pools = a.pools := by
        simp only [Abs.dropped, hin]; rfl
      refine rel_set h h2 rfl rfl (fun _ => rfl) rfl (by rw [hap]) (by simp [Abs.dropped, h.handles])
        rfl (fun _ _ => rfl) ?_ (by simp) hcnt ?_
      · intro cell' hy
        injection hy with hy; subst hy
        refine ⟨g1, ?_, by simp only; omega, ?_⟩
        · simp only; rw [hcntc, g2]
        · intro q b hq
          exact h.refs c cell.strong q b (by rw [h2, ← hq])
      · intro p pool hpool
        obtain ⟨ap, e1, e2⟩ := h.pools p pool hpool
        refine ⟨ap, by rw [hap]; exact e1, ?_⟩
        obtain ⟨A, B, f1, f2⟩ := held_set h2 p
        rw [f2 _ _ rfl]
        rw [f1] at e2
        obtain ⟨s, i⟩ := cell
        rw [bufFor_inner p (s - 1) s]
        exact e2

/-- Taking a buffer out of pool `p` for a new handle. -/
theorem rel_pull (h : Rel w a) {p : Nat} {pool : HostPool E} {b b' : Buf E} {bs : List (Buf E)}
    (hp : w.pools[p]? = some pool) (ho : pool.objects = b :: bs) (ha : b'.addr = b.addr)
    (hd : b'.data.length = b.data.length) :
    let w0 : World E := { w with pools := w.pools.set p { pool with objects := bs } }
    Rel (w0.addHandle (.pooled p b')).1 (a.add ⟨some p, b'.data⟩).1 ∧
      (w0.addHandle (.pooled p b')).2 = (a.add ⟨some p, b'.data⟩).2 := by
  intro w0
  have hlt := (List.getElem?_eq_some_iff.1 hp).1
  refine rel_add h (inner := .pooled p b') (w0 := w0) rfl rfl rfl (by simp [w0]) (ids_set hp rfl) ?_ ?_
  · intro q b2 he
    injection he with h1 h2
    subst h1; exact hlt
  · intro q pool' hq
    by_cases he : q = p
    · subst he
      rw [List.getElem?_set_self hlt] at hq
      injection hq with hq
      subst hq
      obtain ⟨ap, h1, h2⟩ := h.pools q pool hp
      refine ⟨ap, h1, ?_⟩
      simp only [bufFor, if_pos, Option.toList_some]
      have hlens := h2.lens
      have hperm := h2.perm
      rw [ho] at hlens hperm
      refine ⟨h2.id, h2.bytes, h2.size, h2.returning, ?_, ?_⟩
      · refine List.Perm.trans ?_ hperm
        simp only [List.map_append, List.map_cons, List.map_nil, ha]
        have : ∀ (X Y Z : List Nat) (n : Nat), (X ++ Y ++ (Z ++ [n])).Perm (n :: X ++ Y ++ Z) := by
          intro X Y Z n
          have e : X ++ Y ++ (Z ++ [n]) = (X ++ Y ++ Z) ++ n :: [] := by simp
          rw [e]
          refine List.perm_middle.trans ?_
          simp
        exact this _ _ _ _
      · intro b2 hb2
        simp only [List.mem_append, List.mem_singleton] at hb2
        rcases hb2 with (hb2 | hb2) | hb2 | hb2
        · exact hlens b2 (by simp [hb2])
        · exact hlens b2 (by simp [hb2])
        · exact hlens b2 (by simp [hb2])
        · rw [hb2, hd]; exact hlens b (by simp)
    · have hq' : w.pools[q]? = some pool' := by
        rwa [List.getElem?_set_ne (Ne.symm he)] at hq
      obtain ⟨ap, h1, h2⟩ := h.pools q pool' hq'
      refine ⟨ap, h1, ?_⟩
      simp only [bufFor, if_neg (Ne.symm he), Option.toList_none, List.append_nil]
      exact h2

theorem Rel.full (h : Rel w a) {p : Nat} {pool : HostPool E} {ap : AbsPool} (hp : w.pools[p]? = some pool)
    (ha : a.pools[p]? = some ap) :
    a.inUse p + ap.returning < ap.lens.length ↔ pool.objects ≠ [] := by
  obtain ⟨ap', h1, h2⟩ := h.pools p pool hp
  rw [ha] at h1; injection h1 with h1; subst h1
  have := h2.total
  rw [h.inUse, h2.returning, h2.size, ← List.length_pos_iff]
  omega

theorem sim_acquire (es : Nat) (h : Rel w a) (p : Nat) :
    ∃ a', a.Allows es (.acquire p) (.ok (a', (w.acquire p).2)) ∧ Rel (w.acquire p).1 a' := by
  unfold World.acquire
  simp only [Abs.Allows]
  cases hp : w.pools[p]? with
  | none =>
    rw [h.pools_none.2 hp]
    exact ⟨a, rfl, h⟩
  | some pool =>
    obtain ⟨ap, h1, h2⟩ := h.pools p pool hp
    rw [h1]
    simp only [h.full hp h1, World.pull]
    cases ho : pool.objects with
    | nil =>
      simp only [ne_eq, not_true_eq_false, if_false]
      exact ⟨a, rfl, h⟩
    | cons b bs =>
      simp only [ne_eq, reduceCtorEq, not_false_eq_true, if_true]
      obtain ⟨g1, g2⟩ := rel_pull h hp ho (b' := b) rfl rfl
      refine ⟨_, ⟨b.data, h2.lens b (by simp [ho]), ?_⟩, g1⟩
      rw [g2]

theorem sim_copyFrom (es : Nat) (h : Rel w a) (p n : Nat) :
    (w.copyFrom p n = .panic ∧ a.Allows es (.copyFrom p n) .panic) ∨
    ∃ w' o a', w.copyFrom p n = .ok (w', o) ∧ a.Allows es (.copyFrom p n) (.ok (a', o)) ∧ Rel w' a' := by
  unfold World.copyFrom
  simp only [Abs.Allows]
  rw [h.group]
  cases hp : w.pools[p]? with
  | none =>
    rw [h.pools_none.2 hp]
    exact Or.inr ⟨w, _, a, rfl, rfl, h⟩
  | some pool =>
    obtain ⟨ap, h1, h2⟩ := h.pools p pool hp
    rw [h1]
    cases hc : w.cell? n with
    | none => exact Or.inr ⟨w, _, a, rfl, rfl, h⟩
    | some e =>
      obtain ⟨c, cell⟩ := e
      simp only [h.full hp h1, World.pull, Option.map_some, absInner_data]
      cases ho : pool.objects with
      | nil =>
        simp
      | cons b bs =>
        simp only [ne_eq, reduceCtorEq, not_false_eq_true, if_true]
        have hb := h2.lens b (by simp [ho])
        by_cases hl : b.data.length = cell.inner.data.length
        · right
          rw [if_pos hl]
          obtain ⟨g1, g2⟩ := rel_pull h hp ho (b' := ⟨b.addr, cell.inner.data⟩) rfl hl.symm
          refine ⟨_, _, _, rfl, ⟨b.data.length, hb, ?_⟩, g1⟩
          rw [if_pos hl]
          exact congrArg (fun o => Rs.ok (_, o)) g2
        · left
          rw [if_neg hl]
          refine ⟨rfl, b.data.length, hb, ?_⟩
          rw [if_neg hl]

theorem sim_detached (es : Nat) (h : Rel w a) (d : List E) :
    ∃ a', a.Allows es (.newDetached d) (.ok (a', (w.addHandle (.detached d)).2)) ∧
      Rel (w.addHandle (.detached d)).1 a' := by
  obtain ⟨g1, g2⟩ := rel_add h (inner := .detached d) (w0 := w) rfl rfl rfl rfl (fun _ => rfl)
    (by simp) (fun p pool hp => by
      obtain ⟨ap, h1, h2⟩ := h.pools p pool hp
      exact ⟨ap, h1, by simpa [bufFor] using h2⟩)
  refine ⟨_, ?_, g1⟩
  simp only [Abs.Allows]
  rw [g2]
  rfl

/-- Only the pools change. -/
theorem rel_pools {w' : World E} {a' : Abs E} (h : Rel w a) (hc : w'.cells = w.cells)
    (hh : w'.handles = w.handles) (hr : w'.registry = w.registry)
    (hid : ∀ q : Nat, w'.pools[q]?.map HostPool.id = w.pools[q]?.map HostPool.id)
    (hl : w'.pools.length = w.pools.length) (hal : a'.pools.length = a.pools.length)
    (hag : a'.groups = a.groups) (hah : a'.handles = a.handles)
    (hp : ∀ (p : Nat) (pool : HostPool E), w'.pools[p]? = some pool → ∃ ap, a'.pools[p]? = some ap ∧
      PoolRel (w.held p) pool ap) : Rel w' a' := by
  have hheld : ∀ p, w'.held p = w.held p := by intro p; rw [held_eq, held_eq, hc]
  refine ⟨by rw [hah, hh, h.handles], by rw [hag, hc, h.glen], ?_, ?_, by rw [hal, hl, h.plen], ?_, ?_, ?_,
    by rw [hr]; exact h.regNodup⟩
  · rw [hc, hag, hh]; exact h.cells
  · rw [hc, hh]; exact h.live
  · rw [hc, hl]; exact h.refs
  · intro p pool hpool
    rw [hheld]; exact hp p pool hpool
  · intro id p
    rw [hr, h.reg]; exact reg_congr hid id p

theorem eraseIdx_perm {α : Type} {l : List α} {k : Nat} {x : α} (h : l[k]? = some x) :
    (x :: l.eraseIdx k).Perm l := by
  obtain ⟨hk, hx⟩ := List.getElem?_eq_some_iff.1 h
  rw [List.eraseIdx_eq_take_drop_succ, ← hx]
  have : l = l.take k ++ l[k] :: l.drop (k + 1) := by rw [List.getElem_cons_drop]; simp
  exact (List.perm_middle.symm).trans (by rw [← this])

theorem sim_finish (es : Nat) (h : Rel w a) (p k : Nat) :
    ∃ a', a.Allows es (.finishDrop p k) (.ok (a', (w.finishDrop p k).2)) ∧ Rel (w.finishDrop p k).1 a' := by
  unfold World.finishDrop
  simp only [Abs.Allows]
  cases hp : w.pools[p]? with
  | none =>
    rw [h.pools_none.2 hp]
    exact ⟨a, rfl, h⟩
  | some pool =>
    obtain ⟨ap, h1, h2⟩ := h.pools p pool hp
    rw [h1]
    simp only
    cases hk : pool.returning[k]? with
    | none =>
      have hk' : ¬ k < ap.returning := by
        rw [h2.returning]; have := List.getElem?_eq_none_iff.1 hk; omega
      simp only [if_neg hk']
      exact ⟨a, rfl, h⟩
    | some b =>
      have hlt := (List.getElem?_eq_some_iff.1 hk).1
      have hplt := (List.getElem?_eq_some_iff.1 hp).1
      have hk' : k < ap.returning := by rw [h2.returning]; exact hlt
      simp only [if_pos hk']
      refine ⟨_, rfl, ?_⟩
      refine rel_pools h rfl rfl rfl (ids_set hp rfl) (by simp) (by simp) rfl rfl ?_
      intro q pool' hq
      simp only at hq ⊢
      by_cases he : q = p
      · subst he
        rw [List.getElem?_set_self hplt] at hq
        injection hq with hq
        subst hq
        refine ⟨_, List.getElem?_set_self (by rw [h.plen]; exact hplt), ?_⟩
        refine h2.congr rfl rfl rfl ?_ rfl rfl rfl ?_
        · simp only [List.length_eraseIdx, hlt, h2.returning]; simp
        · simp only
          refine List.Perm.append_right _ ?_
          rw [List.cons_append]
          refine List.perm_middle.symm.trans ?_
          exact (eraseIdx_perm hk).append_left _
      · rw [List.getElem?_set_ne (Ne.symm he)] at hq
        obtain ⟨ap', k1, k2⟩ := h.pools q pool' hq
        exact ⟨ap', by rw [List.getElem?_set_ne (Ne.symm he)]; exact k1, k2⟩

theorem sim_read (es : Nat) (h : Rel w a) (n : Nat) : a.Allows es (.read n) (.ok (a, w.read n)) := by
  unfold World.read
  simp only [Abs.Allows]
  rw [h.group]
  cases hc : w.cell? n with
  | none => rfl
  | some e => simp

theorem absInner_set (i : Inner E) (d : List E) : absInner (i.setData d) = ⟨(absInner i).pool, d⟩ := by
  cases i <;> rfl

theorem rel_write (h : Rel w a) {n c : Nat} {cell : Cell E} {d : List E} (hc : w.cell? n = some (c, cell))
    (hd : d.length = cell.inner.data.length) :
    Rel { w with cells := w.cells.set c (some { cell with inner := cell.inner.setData d }) }
      { a with groups := a.groups.set c ⟨(absInner cell.inner).pool, d⟩ } := by
  obtain ⟨h1, h2⟩ := cell_eq hc
  obtain ⟨g1, g2, g3⟩ := h.cells c cell h2
  have hlt := (List.getElem?_eq_some_iff.1 h2).1
  refine rel_set h h2 rfl rfl (fun _ => rfl) rfl rfl h.handles (by simp) ?_ ?_ (by simp)
    (fun _ _ => rfl) ?_
  · intro c' hne
    exact List.getElem?_set_ne (Ne.symm hne)
  · intro cell' hy
    injection hy with hy; subst hy
    refine ⟨?_, g2, g3, ?_⟩
    · simp only [absInner_set]
      exact List.getElem?_set_self (by rw [h.glen]; exact hlt)
    · intro q b hq
      simp only at hq
      cases hin : cell.inner with
      | detached d => rw [hin] at hq; simp [Inner.setData] at hq
      | pooled q' b' =>
        rw [hin] at hq
        simp only [Inner.setData, Inner.pooled.injEq] at hq
        rw [← hq.1]
        exact h.refs c cell.strong q' b' (by rw [h2, ← hin])
  · intro p pool hpool
    obtain ⟨ap, e1, e2⟩ := h.pools p pool hpool
    refine ⟨ap, e1, ?_⟩
    obtain ⟨A, B, f1, f2⟩ := held_set h2 p
    rw [f2 _ _ rfl]
    rw [f1] at e2
    obtain ⟨s, inner⟩ := cell
    cases inner with
    | detached d => exact e2
    | pooled q b =>
      by_cases hq : q = p
      · subst hq
        simp only [bufFor, Inner.setData, Inner.data, if_true, Option.toList_some] at e2 ⊢
        refine ⟨e2.id, e2.bytes, e2.size, e2.returning, ?_, ?_⟩
        · have := e2.perm
          simpa using this
        · intro b2 hb2
          have hl := e2.lens
          simp only [List.mem_append, List.mem_singleton] at hb2 hl
          rcases hb2 with hb2 | (hb2 | hb2) | hb2
          · exact hl b2 (Or.inl hb2)
          · exact hl b2 (Or.inr (Or.inl (Or.inl hb2)))
          · rw [hb2]
            simp only [hd]
            exact hl b (Or.inr (Or.inl (Or.inr rfl)))
          · exact hl b2 (Or.inr (Or.inr hb2))
      · simp only [bufFor, Inner.setData, if_neg hq] at e2 ⊢
        exact e2

theorem sim_write (es : Nat) (h : Rel w a) (n i : Nat) (v : E) :
    (w.write n i v = .panic ∧ a.Allows es (.write n i v) .panic) ∨
    ∃ w' o a', w.write n i v = .ok (w', o) ∧ a.Allows es (.write n i v) (.ok (a', o)) ∧ Rel w' a' := by
  unfold World.write
  simp only [Abs.Allows]
  rw [h.group]
  cases hc : w.cell? n with
  | none => exact Or.inr ⟨w, _, a, rfl, rfl, h⟩
  | some e =>
    obtain ⟨c, cell⟩ := e
    obtain ⟨h1, h2⟩ := cell_eq hc
    obtain ⟨g1, g2, g3⟩ := h.cells c cell h2
    have hlt := (List.getElem?_eq_some_iff.1 h2).1
    simp only [Option.map_some, absInner_data]
    by_cases hi : i < cell.inner.data.length
    · right
      simp only [if_pos hi]
      refine ⟨_, _, _, rfl, rfl, ?_⟩
      exact rel_write h hc (List.length_set ..)
    · left
      simp only [if_neg hi]
      exact ⟨trivial, trivial⟩

theorem rel_newPool (h : Rel w a) (id : String) {bufs : List (Buf E)} {lens : List Nat} (bytes : Nat)
    (haddr : (bufs.map Buf.addr).Perm (List.range lens.length)) (hmem : ∀ x, x ∈ bufs → x.data.length ∈ lens) :
    Rel { w with
          pools := w.pools ++ [⟨id, bufs, [], lens.length, bytes⟩]
          registry := register w.registry id w.pools.length }
      { a with pools := a.pools ++ [⟨id, lens, bytes, 0⟩] } := by
  have hheldnew : w.held w.pools.length = [] := by
    rw [held_eq, List.filterMap_eq_nil_iff]
    intro x hx
    cases x with
    | none => rfl
    | some cell =>
      obtain ⟨s, i⟩ := cell
      cases i with
      | detached d => rfl
      | pooled q b =>
        obtain ⟨c, hc⟩ := List.mem_iff_getElem?.1 hx
        have := h.refs c s q b hc
        simp only [bufFor]
        rw [if_neg (by omega)]
  constructor
  · exact h.handles
  · exact h.glen
  · exact h.cells
  · exact h.live
  · simp [h.plen]
  · intro c s q b2 hc
    have := h.refs c s q b2 hc
    simp only [List.length_append, List.length_singleton]
    omega
  · intro p pool hp
    simp only at hp ⊢
    have hh : ∀ (l : List (HostPool E)) (r : List (String × Nat)),
        ({ w with pools := l, registry := r } : World E).held p = w.held p := fun _ _ => rfl
    rw [hh]
    by_cases hlt : p < w.pools.length
    · rw [List.getElem?_append_left hlt] at hp
      obtain ⟨ap, h1, h2⟩ := h.pools p pool hp
      exact ⟨ap, by rw [List.getElem?_append_left (by rw [h.plen]; exact hlt)]; exact h1, h2⟩
    · have he : p = w.pools.length := by
        have := (List.getElem?_eq_some_iff.1 hp).1
        simp at this; omega
      subst he
      simp at hp
      subst hp
      refine ⟨⟨id, lens, bytes, 0⟩, by rw [← h.plen]; simp, ?_⟩
      rw [hheldnew]
      refine ⟨rfl, rfl, rfl, rfl, ?_, ?_⟩
      · simpa using haddr
      · intro x hx
        exact hmem x (by simpa using hx)
  · intro i p
    have key : ∀ (q : Nat) (x : HostPool E), (w.pools ++ [x])[q]? =
        if q < w.pools.length then w.pools[q]? else if q = w.pools.length then some x else none := by
      intro q x
      split
      · rename_i hq; rw [List.getElem?_append_left hq]
      · split
        · rename_i hq; subst hq; simp
        · rw [List.getElem?_eq_none]; simp; omega
    simp only [register, List.mem_append, List.mem_filter, List.mem_singleton, Prod.mk.injEq,
      bne_iff_ne, ne_eq, h.reg, key]
    constructor
    · rintro (⟨⟨pool, h1, h2, h3⟩, h4⟩ | ⟨rfl, rfl⟩)
      · have hlt := (List.getElem?_eq_some_iff.1 h1).1
        refine ⟨pool, by rw [if_pos hlt]; exact h1, h2, ?_⟩
        intro q pool' hq hpq
        split at hpq
        · exact h3 q pool' hq hpq
        · split at hpq
          · injection hpq with hpq
            rw [← hpq]
            exact fun hx => h4 hx.symm
          · simp at hpq
      · refine ⟨_, by simp; rfl, rfl, ?_⟩
        intro q pool' hq hpq
        rw [if_neg (by omega), if_neg (by omega)] at hpq
        simp at hpq
    · rintro ⟨pool, h1, h2, h3⟩
      split at h1
      · rename_i hlt
        left
        refine ⟨⟨pool, h1, h2, ?_⟩, ?_⟩
        · intro q pool' hq hpq
          exact h3 q pool' hq (by rw [if_pos (List.getElem?_eq_some_iff.1 hpq).1]; exact hpq)
        · intro he
          exact h3 w.pools.length _ hlt (by simp; rfl) he.symm
      · split at h1
        · rename_i hq
          right
          injection h1 with h1
          rw [← h1] at h2
          exact ⟨h2.symm, hq⟩
        · simp at h1
  · simp only [register, List.map_append, List.map_cons, List.map_nil]
    rw [List.nodup_append]
    refine ⟨(List.Sublist.map _ List.filter_sublist).nodup h.regNodup, by simp, ?_⟩
    intro x hx y hy
    simp only [List.mem_singleton] at hy
    obtain ⟨e, he, rfl⟩ := List.mem_map.1 hx
    simp only [List.mem_filter, bne_iff_ne] at he
    rw [hy]; exact he.2

theorem sim_newPool (es : Nat) (h : Rel w a) (id : String) (inits : List (List E)) :
    (w.newPool es id inits = .panic ∧ a.Allows es (.newPool id inits) .panic) ∨
    ∃ w' o a', w.newPool es id inits = .ok (w', o) ∧ a.Allows es (.newPool id inits) (.ok (a', o)) ∧
      Rel w' a' := by
  unfold World.newPool
  simp only [Abs.Allows]
  cases hm : makeBufs inits with
  | nil =>
    left
    have : inits = [] := by
      have := congrArg List.length hm
      simp [makeBufs] at this
      exact this
    simp only [if_pos this]
    exact ⟨trivial, trivial⟩
  | cons b bs =>
    right
    have hlen : (b :: bs).length = inits.length := by rw [← hm]; simp [makeBufs]
    have hne : inits ≠ [] := by
      intro he; rw [he] at hlen; simp at hlen
    have hmem : ∀ x, x ∈ b :: bs → x.data.length ∈ inits.map List.length := by
      intro x hx
      rw [← hm] at hx
      simp only [makeBufs, List.mem_reverse, List.mem_map] at hx
      obtain ⟨e, he, rfl⟩ := hx
      simp only
      have : e.1 ∈ inits := by
        rw [List.mem_iff_getElem?]
        exact ⟨e.2, List.mem_zipIdx_iff_getElem?.1 (by exact he)⟩
      exact List.mem_map.2 ⟨e.1, this, rfl⟩
    have haddr : ((b :: bs).map Buf.addr).Perm (List.range inits.length) := by
      rw [← hm]
      simp only [makeBufs, List.map_reverse, List.map_map]
      refine (List.reverse_perm _).trans ?_
      have : (inits.zipIdx.map (Buf.addr ∘ fun e : List E × Nat => (⟨e.2, e.1⟩ : Buf E))) =
          inits.zipIdx.map Prod.snd := rfl
      rw [this, List.zipIdx_map_snd, List.range_eq_range']
    simp only [if_neg hne]
    by_cases hid : id.utf8ByteSize ≤ 64
    · simp only [if_pos hid]
      refine ⟨_, _, _, rfl, ⟨b.data.length, hmem b (by simp), by rw [h.plen]⟩, ?_⟩
      have key := rel_newPool h id (bufs := b :: bs) (lens := inits.map List.length) (b.data.length * es)
        (by simpa using haddr) hmem
      simpa using key
    · simp only [if_neg hid]
      exact ⟨w, _, a, rfl, rfl, h⟩

theorem sim_statistics (es : Nat) (h : Rel w a) :
    a.Allows es .statistics (.ok (a, .stats w.statistics)) := by
  simp only [Abs.Allows]
  refine ⟨_, rfl, ?_, ?_⟩
  · have hid : ∀ e ∈ w.registry, ∃ pool, w.pools[e.2]? = some pool ∧ pool.id = e.1 := by
      intro e he
      obtain ⟨pool, h1, h2, _⟩ := (h.reg e.1 e.2).1 he
      exact ⟨pool, h1, h2⟩
    have hn := h.regNodup
    unfold World.statistics
    generalize w.registry = r at hid hn
    induction r with
    | nil => simp
    | cons e r ih =>
      obtain ⟨pool, h1, h2⟩ := hid e (by simp)
      simp only [List.filterMap_cons, h1, Option.map_some, List.nodup_cons]
      simp only [List.map_cons, List.nodup_cons] at hn
      refine ⟨?_, ih (fun e he => hid e (by simp [he])) hn.2⟩
      intro hm
      obtain ⟨e', he', hx⟩ := List.mem_filterMap.1 hm
      obtain ⟨pool', g1, g2⟩ := hid e' (by simp [he'])
      rw [g1] at hx
      simp only [Option.map_some, Option.some.injEq, Prod.mk.injEq] at hx
      apply hn.1
      rw [← h2, ← hx.1, g2]
      exact List.mem_map.2 ⟨e', he', rfl⟩
  · intro e
    unfold World.statistics
    rw [List.mem_filterMap]
    constructor
    · rintro ⟨⟨id, p⟩, hm, hx⟩
      obtain ⟨pool, h1, h2, h3⟩ := (h.reg id p).1 hm
      obtain ⟨ap, g1, g2⟩ := h.pools p pool h1
      simp only [h1, Option.map_some, Option.some.injEq] at hx
      refine ⟨p, ap, g1, ?_, ?_⟩
      · intro q ap' hq hap
        have hlt : q < w.pools.length := by rw [← h.plen]; exact (List.getElem?_eq_some_iff.1 hap).1
        obtain ⟨ap2, k1, k2⟩ := h.pools q _ (List.getElem?_eq_getElem hlt)
        rw [hap] at k1; injection k1 with k1; subst k1
        rw [k2.id, g2.id, h2]
        exact h3 q _ hq (List.getElem?_eq_getElem hlt)
      · rw [← hx, h.left h1 g1, g2.id, g2.size, g2.bytes]
    · rintro ⟨p, ap, g1, g2, rfl⟩
      have hlt : p < w.pools.length := by rw [← h.plen]; exact (List.getElem?_eq_some_iff.1 g1).1
      have h1 := List.getElem?_eq_getElem hlt
      obtain ⟨ap2, k1, k2⟩ := h.pools p _ h1
      rw [g1] at k1; injection k1 with k1; subst k1
      refine ⟨(w.pools[p].id, p), (h.reg _ _).2 ⟨_, h1, rfl, ?_⟩, ?_⟩
      · intro q pool' hq hpq
        obtain ⟨ap3, m1, m2⟩ := h.pools q _ hpq
        rw [← m2.id, ← k2.id]
        exact g2 q ap3 hq m1
      · simp only [h1, Option.map_some]
        rw [h.left h1 g1, k2.id, k2.size, k2.bytes]

theorem sim_step (es : Nat) (h : Rel w a) (op : Op E) :
    (w.step es op = .panic ∧ a.Allows es op .panic) ∨
    ∃ w' o a', w.step es op = .ok (w', o) ∧ a.Allows es op (.ok (a', o)) ∧ Rel w' a' := by
  cases op with
  | newPool id inits => exact sim_newPool es h id inits
  | acquire p =>
    obtain ⟨a', h1, h2⟩ := sim_acquire es h p
    exact Or.inr ⟨_, _, a', rfl, h1, h2⟩
  | copyFrom p n => exact sim_copyFrom es h p n
  | newDetached d =>
    obtain ⟨a', h1, h2⟩ := sim_detached es h d
    exact Or.inr ⟨_, _, a', rfl, h1, h2⟩
  | clone n =>
    obtain ⟨a', h1, h2⟩ := sim_clone es h n
    exact Or.inr ⟨_, _, a', rfl, h1, h2⟩
  | drop n =>
    obtain ⟨a', h1, h2⟩ := sim_drop es h n
    exact Or.inr ⟨_, _, a', rfl, h1, h2⟩
  | finishDrop p k =>
    obtain ⟨a', h1, h2⟩ := sim_finish es h p k
    exact Or.inr ⟨_, _, a', rfl, h1, h2⟩
  | read n => exact Or.inr ⟨_, _, a, rfl, sim_read es h n, h⟩
  | write n i v => exact sim_write es h n i v
  | spaceLeft p =>
    refine Or.inr ⟨_, _, a, rfl, ?_, h⟩
    simp only [Abs.Allows]
    cases hp : w.pools[p]? with
    | none => rw [h.pools_none.2 hp]
    | some pool =>
      obtain ⟨ap, h1, h2⟩ := h.pools p pool hp
      rw [h1]
      simp only [h.left hp h1]
  | statistics => exact Or.inr ⟨_, _, a, rfl, sim_statistics es h, h⟩

theorem reach_rel {es : Nat} {w : World E} (h : Reach es w) : ∃ a, Rel w a := by
  induction h with
  | empty => exact ⟨_, rel_empty⟩
  | step _ hs ih =>
    obtain ⟨a, ha⟩ := ih
    rcases sim_step es ha _ with ⟨h1, _⟩ | ⟨w', o, a', h1, _, h3⟩
    · rw [hs] at h1; simp at h1
    · rw [hs] at h1
      simp only [Rs.ok.injEq, Prod.mk.injEq] at h1
      rw [h1.1]
      exact ⟨a', h3⟩

end Pool
end Verif
