import Verif.Spec.UnifiedLog
import Verif.Proofs.UnifiedLogRead
/-! Histories of operations on sections. -/
namespace Verif
namespace ULog
open Bincode

def secOf (i : Nat) (e : Issued) : Sec :=
  ⟨e.h.req, e.h.header.entryType, e.data, if e.isOpen then some i else none⟩

/-- The open handles. -/
def SecSys.own (s : SecSys) (i : Nat) : Option Handle :=
  match s.issued[i]? with
  | some e => if e.isOpen then some e.h else none
  | none => none

structure SecInv (page slabSize : Nat) (s : SecSys) (lay : List (List Sec)) : Prop where
  inv : Inv s.lg lay s.own
  pageEq : s.lg.pageSize = page
  slabEq : s.lg.slabSize = slabSize
  nonempty : NonEmpty lay
  flat : lay.flatten = s.issued.mapIdx secOf
  cells : cells page 0 (shape lay) = s.issued.map (fun e => (e.h.slab, e.h.off, e.h.req))
  bound : ∀ e ∈ s.issued, e.h.off + align page e.h.req ≤ slabSize ∧
    e.h.header.sectionSize.toNat = align page e.h.req ∧ 15 ≤ e.h.req

theorem own_open {s : SecSys} {i : Nat} {e : Issued} (h : s.issued[i]? = some e)
    (ho : e.isOpen = true) : s.own i = some e.h := by
  simp [SecSys.own, h, ho]

/-- The section of an open handle is the one with its index. -/
theorem flat_index {l : List Issued} {i : Nat} {A B : List Sec} {s : Sec}
    (h : l.mapIdx secOf = A ++ s :: B) (ho : s.owner = some i) :
    A.length = i ∧ ∃ e, l[i]? = some e ∧ s = secOf i e := by
  have h1 : (l.mapIdx secOf)[A.length]? = some s := by
    rw [h, List.getElem?_append_right (Nat.le_refl _)]; simp
  rw [List.getElem?_mapIdx] at h1
  obtain ⟨e, he, rfl⟩ := Option.map_eq_some_iff.1 h1
  have : A.length = i := by
    simp only [secOf] at ho
    split at ho
    · exact Option.some.inj ho
    · exact absurd ho (by simp)
  subst this
  exact ⟨rfl, e, he, rfl⟩

theorem mapIdx_set_eq {l : List Issued} {i : Nat} {e' : Issued} {A B : List Sec} {s : Sec}
    (h : l.mapIdx secOf = A ++ s :: B) (hi : A.length = i) :
    (l.set i e').mapIdx secOf = A ++ secOf i e' :: B := by
  have : (l.set i e').mapIdx secOf = (l.mapIdx secOf).set i (secOf i e') := by
    apply List.ext_getElem?
    intro j
    rw [List.getElem?_mapIdx, List.getElem?_set, List.getElem?_set, List.length_mapIdx]
    split
    · rename_i e; subst e
      split <;> simp
    · rw [List.getElem?_mapIdx]
  rw [this, h, ← hi]
  simp

theorem own_set {s : SecSys} {i : Nat} {e' : Issued} {lg : Logger} (hi : i < s.issued.length) :
    (⟨lg, s.issued.set i e'⟩ : SecSys).own = upd s.own i (if e'.isOpen then some e'.h else none) := by
  funext j
  unfold SecSys.own upd
  simp only [List.getElem?_set]
  by_cases h : i = j
  · subst h; simp [hi]
  · simp [h, Ne.symm h]

theorem own_append {s : SecSys} {h : Handle} {lg : Logger} :
    (⟨lg, s.issued ++ [⟨h, true, []⟩]⟩ : SecSys).own = upd s.own s.issued.length (some h) := by
  funext j
  unfold SecSys.own upd
  simp only [List.getElem?_append]
  by_cases h1 : j < s.issued.length
  · simp [h1, Nat.ne_of_lt h1]
  · by_cases h2 : j = s.issued.length
    · subst h2; simp
    · have h3 : j - s.issued.length ≠ 0 := by omega
      simp [h1, h2, h3]

theorem step_inv {page slabSize : Nat} {s : SecSys} {lay : List (List Sec)} (hp : 13 < page)
    (hi : SecInv page slabSize s lay) {op : SecOp} (hop : SecOpOk page slabSize op) :
    ∃ s' lay', s.step op = .ok s' ∧ SecInv page slabSize s' lay' ∧
      (∀ sl' ∈ s'.lg.live, (∃ sl ∈ s.lg.live, sl.suffix = sl'.suffix ∧ sl.flushed ≤ sl'.flushed) ∨
        (sl'.suffix = s.lg.front.suffix + 1)) ∧
      (∀ i, op = .close i → ∀ e, s.issued[i]? = some e → e.isOpen = true →
        ∃ sl' ∈ s'.lg.live, sl'.suffix = e.h.slab ∧
          sl'.flushed = (sl'.inFlight.head?).getD sl'.cgp) := by
  cases op with
  | add t req =>
    have hop : SizeOk page slabSize req := hop
    have hnone : s.own s.issued.length = none := by simp [SecSys.own]
    obtain ⟨lg', h, lay', h1, hi', hne', hfl, ht, hu, hr, hpg, hss, hsl, hb, hc, hfl2⟩ :=
      inv_addSection (t := t) (req := req) hi.inv hi.nonempty
        (by rw [hi.pageEq]; exact ⟨hp, hop.min, hop.max⟩)
        (by rw [hi.pageEq, hi.slabEq]; exact hop.fits) hnone
    refine ⟨⟨lg', s.issued ++ [⟨h, true, []⟩]⟩, lay', ?_, ⟨?_, hpg.trans hi.pageEq, hss.trans hi.slabEq, hne', ?_, ?_, ?_⟩, ?_, ?_⟩
    · simp [SecSys.step, h1]
    · rw [own_append]; exact hi'
    · rw [hfl, hi.flat, List.mapIdx_append]
      simp [secOf, ht, hr]
    · rw [hi.pageEq] at hc
      rw [hc, hi.cells]
      simp [hr]
    · intro e he
      rcases List.mem_append.1 he with he | he
      · exact hi.bound e he
      · have : e = ⟨h, true, []⟩ := by simpa using he
        subst this
        obtain ⟨pre, x, post, w⟩ := hi'.owns s.issued.length h (by simp [upd])
        rw [hi.pageEq, hi.slabEq] at hb
        refine ⟨by rw [hr]; exact hb, ?_, by rw [hr]; exact hop.min⟩
        rw [w.header, ← w.req, hr, hpg, hi.pageEq]
        show (UInt32.ofNat _).toNat = _
        rw [UInt32.toNat_ofNat']
        exact Nat.mod_eq_of_lt hop.max
    · intro sl' hsl'
      rcases hfl2 sl' hsl' with ⟨sl, h1, h2, h3⟩ | ⟨h1, _⟩
      · exact .inl ⟨sl, h1, h2, by omega⟩
      · exact .inr h1
    · intro i hi; cases hi
  | write i obj =>
    cases he : s.issued[i]? with
    | none =>
      exact ⟨s, lay, by simp [SecSys.step, he], hi, fun sl h => .inl ⟨sl, h, rfl, Nat.le_refl _⟩,
        fun i hi => by cases hi⟩
    | some e =>
      obtain ⟨h, o, data⟩ := e
      cases o with
      | false =>
        exact ⟨s, lay, by simp [SecSys.step, he], hi, fun sl h => .inl ⟨sl, h, rfl, Nat.le_refl _⟩,
          fun i hi => by cases hi⟩
      | true =>
        have hlt := (List.getElem?_eq_some_iff.1 he).1
        obtain ⟨files', h', b, lay', A, x, B, d, h1, hi', hA, hB, ho, het, hu, hrq, e1, e2, e3, e4,
          e5, hb1, hb2, _, hsh⟩ := inv_encodeInto hi.inv (own_open he rfl) obj
        simp only at h1 e1 e2 e3 e4
        rw [hi.flat] at hA
        obtain ⟨hAl, e', he', hx⟩ := flat_index hA ho
        rw [he] at he'
        obtain rfl := Option.some.inj he'
        have hd : (if b then data ++ obj.flatten else data) = data ++ d := by
          cases b with
          | true => simp [hb1 rfl]
          | false => simp [hb2 rfl]
        refine ⟨⟨{ s.lg with files := files' }, s.issued.set i ⟨h', true, data ++ d⟩⟩, lay', ?_,
          ⟨?_, hi.pageEq, hi.slabEq, ?_, ?_, ?_, ?_⟩, fun sl h => .inl ⟨sl, h, rfl, Nat.le_refl _⟩,
          fun i hi => by cases hi⟩
        · simp [SecSys.step, he, h1, hd]
        · rw [own_set hlt]; exact hi'
        · intro k hk hc
          have e1 := congrArg (fun l => l[k]?) hsh
          unfold shape at e1
          simp only [List.getElem?_map, hc] at e1
          simp only [Option.map_some, List.map_nil] at e1
          obtain ⟨x, hx, hx2⟩ := Option.map_eq_some_iff.1 e1.symm
          have : x = [] := by simpa using hx2
          subst this
          exact hi.nonempty k hk hx
        · rw [hB, mapIdx_set_eq hA hAl, hx]
          simp [secOf, e1, e4]
        · rw [hsh, hi.cells]
          apply List.ext_getElem?
          intro j
          rw [List.getElem?_map, List.getElem?_map, List.getElem?_set]
          split
          · rename_i hij; subst hij
            rw [he]
            simp [e2, e3, e4]
          · rfl
        · intro e hem
          rcases List.mem_or_eq_of_mem_set hem with hem | rfl
          · exact hi.bound e hem
          · have := hi.bound _ (List.mem_of_getElem? he)
            simp only [e1, e3, e4] at this ⊢
            exact this
  | close i =>
    cases he : s.issued[i]? with
    | none =>
      refine ⟨s, lay, by simp [SecSys.step, he], hi, fun sl h => .inl ⟨sl, h, rfl, Nat.le_refl _⟩, ?_⟩
      intro j hj e hje
      cases hj; rw [he] at hje; exact absurd hje (by simp)
    | some e =>
      obtain ⟨h, o, data⟩ := e
      cases o with
      | false =>
        refine ⟨s, lay, by simp [SecSys.step, he], hi, fun sl h => .inl ⟨sl, h, rfl, Nat.le_refl _⟩, ?_⟩
        intro j hj e hje ho
        cases hj; rw [he] at hje
        obtain rfl := Option.some.inj hje
        exact absurd ho (by simp)
      | true =>
        have hlt := (List.getElem?_eq_some_iff.1 he).1
        obtain ⟨sl, sl', file', hsl, hsuf, hfs, hs1, hs2, hs3, hs4, hs5, lay', A, x, B, hi', hA, hB, ho,
          het, hrq, hsh⟩ := inv_flushSection hi.inv (own_open he rfl)
        simp only at hfs hs1 hsuf
        rw [hi.flat] at hA
        obtain ⟨hAl, e', he', hx⟩ := flat_index hA ho
        rw [he] at he'
        obtain rfl := Option.some.inj he'
        have hlive := live_replace s.lg h.slab sl' file'
        refine ⟨⟨s.lg.replace h.slab sl' file', s.issued.set i ⟨h, false, data⟩⟩, lay', ?_,
          ⟨?_, hi.pageEq, hi.slabEq, ?_, ?_, ?_, ?_⟩, ?_, ?_⟩
        · simp [SecSys.step, he, hfs]
        · rw [own_set hlt]; exact hi'
        · intro k hk hc
          have e1 := congrArg (fun l => l[k]?) hsh
          unfold shape at e1
          simp only [List.getElem?_map, hc] at e1
          simp only [Option.map_some, List.map_nil] at e1
          obtain ⟨x, hx, hx2⟩ := Option.map_eq_some_iff.1 e1.symm
          have : x = [] := by simpa using hx2
          subst this
          exact hi.nonempty k hk hx
        · rw [hB, mapIdx_set_eq hA hAl, hx]
          simp [secOf]
        · rw [hsh, hi.cells]
          apply List.ext_getElem?
          intro j
          rw [List.getElem?_map, List.getElem?_map, List.getElem?_set]
          split
          · rename_i hij; subst hij
            rw [he]
            simp
          · rfl
        · intro e hem
          rcases List.mem_or_eq_of_mem_set hem with hem | rfl
          · exact hi.bound e hem
          · have := hi.bound _ (List.mem_of_getElem? he)
            exact this
        · intro y hy
          simp only [hlive] at hy
          obtain ⟨z, hz, rfl⟩ := List.mem_map.1 hy
          left
          refine ⟨z, hz, (subst_suffix hs1 z).symm, ?_⟩
          unfold subst
          split
          · rename_i hzk
            have : z = sl := hi.inv.live_inj hz hsl (by rw [hzk, hsuf])
            subst this; exact hs3
          · exact Nat.le_refl _
        · intro j hj e hje _
          cases hj
          rw [he] at hje
          obtain rfl := Option.some.inj hje
          refine ⟨sl', ?_, hs1, hs5⟩
          simp only [hlive]
          refine List.mem_map.2 ⟨sl, hsl, ?_⟩
          unfold subst; rw [if_pos hsuf]

theorem reachable_inv {page slabSize : Nat} {s : SecSys} (hp : 13 < page) (hs : 10 ≤ slabSize)
    (h : Reachable page slabSize s) : ∃ lay, SecInv page slabSize s lay := by
  induction h with
  | @new lg h =>
    obtain ⟨lg', h1, h2, h3, h4⟩ := inv_new (slabSize := slabSize) (page := page) (by omega) hs
    rw [h] at h1
    obtain rfl := Rs.ok.inj h1
    refine ⟨[[]], ?_, h3, h4, ?_, rfl, rfl, by simp⟩
    · have : (⟨lg, []⟩ : SecSys).own = fun _ => none := by funext j; simp [SecSys.own]
      rw [this]; exact h2
    · intro k hk hc
      have := (List.getElem?_eq_some_iff.1 hc).1
      simp at this; omega
  | step _ hop h ih =>
    obtain ⟨lay, hi⟩ := ih
    obtain ⟨s', lay', h1, h2, _⟩ := step_inv hp hi hop
    rw [h] at h1
    obtain rfl := Rs.ok.inj h1
    exact ⟨lay', h2⟩

theorem mem_cellsFrom_lay {page k off : Nat} {x : List Sec} {c : Nat × Nat × Nat}
    (h : c ∈ cellsFrom page k off (x.map Sec.req)) :
    ∃ pre s post, x = pre ++ s :: post ∧ c.2.1 = endOf page off pre ∧ c.2.2 = s.req := by
  induction x generalizing off with
  | nil => simp [cellsFrom] at h
  | cons y x ih =>
    rcases List.mem_cons.1 h with rfl | h
    · exact ⟨[], y, x, rfl, rfl, rfl⟩
    · obtain ⟨pre, s, post, h1, h2, h3⟩ := ih h
      exact ⟨y :: pre, s, post, by simp [h1], h2, h3⟩

/-- Each section handed out has its place. -/
theorem mem_cells_lay {page k : Nat} {lay : List (List Sec)} {c : Nat × Nat × Nat}
    (h : c ∈ cells page k (shape lay)) :
    ∃ pre s post, lay[c.1 - k]? = some (pre ++ s :: post) ∧
      c.2.1 = endOf page (startOf page c.1) pre ∧ c.2.2 = s.req := by
  induction lay generalizing k with
  | nil => simp [shape, cells] at h
  | cons x l ih =>
    rcases List.mem_append.1 (show c ∈ cellsFrom page k (startOf page k) (x.map Sec.req) ++
      cells page (k + 1) (shape l) from h) with h | h
    · have hk := (mem_cellsFrom h).1
      rw [hk]
      obtain ⟨pre, s, post, h1, h2, h3⟩ := mem_cellsFrom_lay h
      exact ⟨pre, s, post, by simp [h1], h2, h3⟩
    · have hk := (mem_cells h).1
      obtain ⟨pre, s, post, h1, h2, h3⟩ := ih h
      refine ⟨pre, s, post, ?_, h2, h3⟩
      rw [show c.1 - k = (c.1 - (k + 1)) + 1 by omega]
      exact h1

/-- Sections owned by the same handle are in the same slab. -/
theorem owner_slab {lay : List (List Sec)} (hu : (lay.flatten.filterMap Sec.owner).Nodup)
    {a b i : Nat} {xs ys : List Sec} {x y : Sec} (ha : lay[a]? = some xs) (hb : lay[b]? = some ys)
    (hx : x ∈ xs) (hy : y ∈ ys) (hxo : x.owner = some i) (hyo : y.owner = some i) : a = b := by
  rw [List.filterMap_flatten] at hu
  have hp := (List.pairwise_flatten.1 hu).2
  have key : ∀ (a b : Nat) (xs ys : List Sec) (x y : Sec), lay[a]? = some xs → lay[b]? = some ys →
      x ∈ xs → y ∈ ys → x.owner = some i → y.owner = some i → ¬ a < b := by
    intro a b xs ys x y ha hb hx hy hxo hyo hlt
    obtain ⟨ha1, ha2⟩ := List.getElem?_eq_some_iff.1 ha
    obtain ⟨hb1, hb2⟩ := List.getElem?_eq_some_iff.1 hb
    have := List.pairwise_iff_getElem.1 hp a b (by simpa using ha1) (by simpa using hb1) hlt i
      (by rw [List.getElem_map, ha2]; exact List.mem_filterMap.2 ⟨x, hx, hxo⟩) i
      (by rw [List.getElem_map, hb2]; exact List.mem_filterMap.2 ⟨y, hy, hyo⟩)
    exact this rfl
  have h1 := key a b xs ys x y ha hb hx hy hxo hyo
  have h2 := key b a ys xs y x hb ha hy hx hyo hxo
  omega

theorem openOffs_mem {page off : Nat} {l : List Sec} {o : Nat} (h : o ∈ openOffs page off l) :
    ∃ pre s post i, l = pre ++ s :: post ∧ s.owner = some i ∧ o = endOf page off pre := by
  induction l generalizing off with
  | nil => simp [openOffs] at h
  | cons x l ih =>
    simp only [openOffs, List.mem_append] at h
    rcases h with h | h
    · split at h
      · rename_i hx
        obtain ⟨i, hi⟩ := Option.isSome_iff_exists.1 hx
        simp at h; subst h
        exact ⟨[], x, l, i, rfl, hi, rfl⟩
      · simp at h
    · obtain ⟨pre, s, post, i, rfl, h2, h3⟩ := ih h
      exact ⟨x :: pre, s, post, i, rfl, h2, h3⟩

/-- The open offsets recorded for a slab are those of its open handles. -/
theorem inFlight_iff {page slabSize : Nat} {s : SecSys} {lay : List (List Sec)}
    (hi : SecInv page slabSize s lay) {sl : Slab} (hsl : sl ∈ s.lg.live) (o : Nat) :
    o ∈ sl.inFlight ↔ ∃ e ∈ s.issued, e.isOpen = true ∧ e.h.slab = sl.suffix ∧ e.h.off = o := by
  obtain ⟨file, secs, hf, hl⟩ := hi.inv.slab_at hsl
  have hok := hi.inv.live sl hsl file secs hf hl
  rw [hok.inFlight]
  constructor
  · intro h
    obtain ⟨pre, x, post, i, rfl, hxo, rfl⟩ := openOffs_mem h
    have hm : x ∈ lay.flatten := List.mem_flatten.2 ⟨_, List.mem_of_getElem? hl, by simp⟩
    obtain ⟨h, hh⟩ := hi.inv.own_conv x hm i hxo
    obtain ⟨pre', y, post', w⟩ := hi.inv.owns i h hh
    have hslab := owner_slab hi.inv.uniq hl w.at_ (x := x) (y := y) (by simp) (by simp) hxo w.owner
    have e : pre ++ x :: post = pre' ++ y :: post' := by
      have := w.at_; rw [← hslab, hl] at this; exact Option.some.inj this
    -- same owner: same position
    have hpp : pre = pre' := by
      have hu := hi.inv.uniq
      rw [List.filterMap_flatten] at hu
      have hu1 := (List.pairwise_flatten.1 hu).1 _
        (List.mem_map.2 ⟨_, List.mem_of_getElem? hl, rfl⟩)
      rcases List.append_eq_append_iff.1 e with ⟨c, hc1, hc2⟩ | ⟨c, hc1, hc2⟩
      · cases c with
        | nil => simpa using hc1.symm
        | cons z c =>
          exfalso
          simp only [List.cons_append, List.cons.injEq] at hc2
          obtain ⟨rfl, rfl⟩ := hc2
          simp only [List.filterMap_append, List.filterMap_cons_some hxo,
            List.filterMap_cons_some w.owner] at hu1
          have := (List.pairwise_append.1 hu1).2.1
          rw [List.pairwise_cons] at this
          exact this.1 i (by simp) rfl
      · cases c with
        | nil => simpa using hc1
        | cons z c =>
          exfalso
          simp only [List.cons_append, List.cons.injEq] at hc2
          obtain ⟨rfl, rfl⟩ := hc2
          rw [hc1] at hu1
          simp only [List.append_assoc, List.cons_append, List.filterMap_append,
            List.filterMap_cons_some hxo, List.filterMap_cons_some w.owner] at hu1
          have := (List.pairwise_append.1 hu1).2.1
          rw [List.pairwise_cons] at this
          exact this.1 i (by simp) rfl
    unfold SecSys.own at hh
    cases hei : s.issued[i]? with
    | none => simp [hei] at hh
    | some e' =>
      rw [hei] at hh
      simp only at hh
      split at hh
      · rename_i hop
        obtain rfl := Option.some.inj hh
        refine ⟨e', List.mem_of_getElem? hei, hop, hslab.symm, ?_⟩
        rw [w.off, ← hslab, hpp]
      · exact absurd hh (by simp)
  · rintro ⟨e, he, hop, hslab, rfl⟩
    obtain ⟨i, hei⟩ := List.getElem?_of_mem he
    obtain ⟨pre, x, post, w⟩ := hi.inv.owns i e.h (own_open hei hop)
    have hat := w.at_
    rw [hslab, hl] at hat
    obtain rfl := Option.some.inj hat
    rw [openOffs_append, w.off, hslab]
    simp [openOffs, w.owner]

end ULog
end Verif
