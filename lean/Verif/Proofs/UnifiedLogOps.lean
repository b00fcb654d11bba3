import Verif.Proofs.UnifiedLogInv
/-! The operations of the write side preserve the invariant. -/
namespace Verif
namespace ULog
open Bincode
variable {lg : Logger} {lay : List (List Sec)} {own own' : Nat → Option Handle}

/-- Replaces the slab entry with the suffix `k`. -/
def subst (k : Nat) (sl : Slab) (x : Slab) : Slab := if x.suffix = k then sl else x

theorem subst_suffix {k : Nat} {sl : Slab} (h : sl.suffix = k) (x : Slab) :
    (subst k sl x).suffix = x.suffix := by
  unfold subst; split
  · omega
  · rfl

def Logger.replace (lg : Logger) (k : Nat) (sl : Slab) (file : Bytes) : Logger :=
  { lg with files := lg.files.set k file, back := lg.back.map (subst k sl),
            front := subst k sl lg.front }

theorem live_replace (lg : Logger) (k : Nat) (sl : Slab) (file : Bytes) :
    (lg.replace k sl file).live = lg.live.map (subst k sl) := by
  simp [Logger.live, Logger.replace]

theorem getElem?_set_cases {α : Type} {l : List α} {k j : Nat} {a b : α}
    (h : (l.set k a)[j]? = some b) : (j = k ∧ b = a ∧ k < l.length) ∨ (j ≠ k ∧ l[j]? = some b) := by
  rw [List.getElem?_set] at h
  split at h
  · rename_i e
    split at h
    · exact .inl ⟨e.symm, by simpa using h.symm, by assumption⟩
    · simp at h
  · rename_i e
    exact .inr ⟨fun c => e c.symm, h⟩

/-- One slab changes. -/
theorem Inv.replace (hi : Inv lg lay own) {sl sl' : Slab} {file' : Bytes}
    {secs' : List Sec} (hsl : sl ∈ lg.live)
    (hsuf : sl'.suffix = sl.suffix)
    (hsecs : SecsOk lg.pageSize file' (startOf lg.pageSize sl.suffix) secs')
    (hok : SlabOk lg.pageSize lg.slabSize (startOf lg.pageSize sl.suffix) sl' file' secs')
    (hback : sl ∈ lg.back → sl'.cgp = endOf lg.pageSize (startOf lg.pageSize sl.suffix) secs')
    (hmain : sl.suffix = 0 →
      slice file' 0 (enc (mainHd lg.pageSize)).length = enc (mainHd lg.pageSize))
    (howns : ∀ i h, own' i = some h →
      ∃ pre s post, Owns lg.pageSize (lay.set sl.suffix secs') i h pre s post)
    (hconv : ∀ s ∈ (lay.set sl.suffix secs').flatten, ∀ i, s.owner = some i → ∃ h, own' i = some h)
    (huniq : ((lay.set sl.suffix secs').flatten.filterMap Sec.owner).Nodup) :
    Inv (lg.replace sl.suffix sl' file') (lay.set sl.suffix secs') own' := by
  refine ⟨hi.page_pos, ?_, ?_, ?_, ?_, ?_, ?_, ?_, hi.main, ?_, howns, hconv, huniq⟩
  · simp [Logger.replace, hi.files_len]
  · show (subst _ _ lg.front).suffix + 1 = _
    rw [subst_suffix hsuf, List.length_set]; exact hi.front_suffix
  · rw [live_replace, List.map_map]
    have : Slab.suffix ∘ subst sl.suffix sl' = Slab.suffix := by
      funext x; exact subst_suffix hsuf x
    rw [this]; exact hi.sorted
  · intro k file secs hf hl
    rcases getElem?_set_cases hf with ⟨rfl, rfl, _⟩ | ⟨hk, hf⟩
    · rcases getElem?_set_cases hl with ⟨_, rfl, _⟩ | ⟨hk, _⟩
      · exact hsecs
      · exact absurd rfl hk
    · rcases getElem?_set_cases hl with ⟨h, _, _⟩ | ⟨_, hl⟩
      · exact absurd h hk
      · exact hi.secs k file secs hf hl
  · intro x hx file secs hf hl
    rw [live_replace] at hx
    obtain ⟨y, hy, rfl⟩ := List.mem_map.1 hx
    rw [subst_suffix hsuf] at hf hl ⊢
    rcases getElem?_set_cases hf with ⟨hk, rfl, _⟩ | ⟨hk, hf⟩
    · rcases getElem?_set_cases hl with ⟨_, rfl, _⟩ | ⟨hk', _⟩
      · rw [hk]; unfold subst; rw [if_pos hk]; exact hok
      · exact absurd hk hk'
    · rcases getElem?_set_cases hl with ⟨h, _, _⟩ | ⟨_, hl⟩
      · exact absurd h hk
      · unfold subst; rw [if_neg hk]; exact hi.live y hy file secs hf hl
  · intro x hx secs hl
    obtain ⟨y, hy, rfl⟩ := List.mem_map.1 (show x ∈ lg.back.map _ from hx)
    rw [subst_suffix hsuf] at hl ⊢
    rcases getElem?_set_cases hl with ⟨hk, rfl, _⟩ | ⟨hk, hl⟩
    · have : y = sl := hi.live_inj (by simp [Logger.live, hy]) hsl hk
      subst this
      unfold subst; rw [if_pos rfl]; exact hback hy
    · unfold subst; rw [if_neg hk]; exact hi.back y hy secs hl
  · intro k file secs hf hl hn
    have hn' : ∀ x ∈ lg.live, x.suffix ≠ k := by
      intro x hx e
      refine hn (subst sl.suffix sl' x) ?_ ?_
      · rw [live_replace]; exact List.mem_map_of_mem hx
      · rw [subst_suffix hsuf]; exact e
    have hk : k ≠ sl.suffix := fun e => hn' sl hsl e.symm
    rcases getElem?_set_cases hf with ⟨h, _, _⟩ | ⟨_, hf⟩
    · exact absurd h hk
    rcases getElem?_set_cases hl with ⟨h, _, _⟩ | ⟨_, hl⟩
    · exact absurd h hk
    exact hi.trimmed k file secs hf hl hn'
  · intro file hf
    rcases getElem?_set_cases hf with ⟨h, rfl, _⟩ | ⟨_, hf⟩
    · exact hmain h.symm
    · exact hi.main_at file hf

/-- Changing one section of the layout. -/
theorem flatten_set {k : Nat} {pre post : List Sec} {s s' : Sec}
    (h : lay[k]? = some (pre ++ s :: post)) :
    ∃ A B, lay.flatten = A ++ s :: B ∧ (lay.set k (pre ++ s' :: post)).flatten = A ++ s' :: B := by
  obtain ⟨hk, e⟩ := List.getElem?_eq_some_iff.1 h
  have e1 : lay = lay.take k ++ (pre ++ s :: post) :: lay.drop (k + 1) := by
    rw [← e, List.getElem_cons_drop, List.take_append_drop]
  refine ⟨(lay.take k).flatten ++ pre, post ++ (lay.drop (k + 1)).flatten, ?_, ?_⟩
  · conv => lhs; rw [e1]
    simp
  · rw [List.set_eq_take_append_cons_drop, if_pos hk]
    simp

theorem shape_set {k : Nat} {pre post : List Sec} {s s' : Sec}
    (h : lay[k]? = some (pre ++ s :: post)) (hr : s'.req = s.req) :
    shape (lay.set k (pre ++ s' :: post)) = shape lay := by
  unfold shape
  rw [List.map_set]
  apply List.ext_getElem?
  intro j
  rw [List.getElem?_set]
  split
  · rename_i e; subst e
    rw [if_pos (by rw [List.length_map]; exact (List.getElem?_eq_some_iff.1 h).1),
      List.getElem?_map, h]
    simp [hr]
  · rfl

/-- Owners after a change of one section that keeps its owner, offsets unchanged. -/
theorem owns_update {page : Nat} {i : Nat} {h : Handle} {pre post : List Sec} {s s' : Sec}
    (w : Owns page lay i h pre s post)
    (hreq : s'.req = s.req)
    {j : Nat} {g : Handle} (hj : j ≠ i) {pre' post' : List Sec} {x : Sec}
    (v : Owns page lay j g pre' x post') :
    ∃ p x q, Owns page (lay.set h.slab (pre ++ s' :: post)) j g p x q := by
  by_cases hs : g.slab = h.slab
  · -- same slab: the position of the other section is not affected
    have e : pre' ++ x :: post' = pre ++ s :: post := by
      have := v.at_; rw [hs, w.at_] at this
      exact (Option.some.inj this).symm
    rcases List.append_eq_append_iff.1 e with ⟨c, hc1, hc2⟩ | ⟨c, hc1, hc2⟩
    · cases c with
      | nil =>
        simp at hc2
        exact absurd (Option.some.inj (v.owner.symm.trans (hc2.1 ▸ w.owner))) hj
      | cons y c =>
        -- x before s
        simp only [List.cons_append, List.cons.injEq] at hc2
        obtain ⟨rfl, rfl⟩ := hc2
        refine ⟨pre', x, c ++ s' :: post, ?_, v.owner, v.off, v.req, v.header, v.used⟩
        rw [hs, List.getElem?_set_self ((List.getElem?_eq_some_iff.1 w.at_).1), hc1]
        simp
    · cases c with
      | nil =>
        simp at hc2
        exact absurd (Option.some.inj (v.owner.symm.trans (hc2.1 ▸ w.owner))) hj
      | cons y c =>
        simp only [List.cons_append, List.cons.injEq] at hc2
        obtain ⟨rfl, rfl⟩ := hc2
        refine ⟨pre ++ s' :: c, x, post', ?_, v.owner, ?_, v.req, v.header, v.used⟩
        · rw [hs, List.getElem?_set_self ((List.getElem?_eq_some_iff.1 w.at_).1)]
          simp
        · rw [v.off, hc1, endOf_update hreq]
  · exact ⟨pre', x, post', by rw [List.getElem?_set_ne (Ne.symm hs)]; exact v.at_, v.owner, v.off,
      v.req, v.header, v.used⟩

/-- The table of handles with one entry changed. -/
def upd (own : Nat → Option Handle) (i : Nat) (a : Option Handle) : Nat → Option Handle :=
  fun j => if j = i then a else own j

theorem modify_eq_set {α : Type} {l : List α} {k : Nat} {a : α} (f : α → α) (h : l[k]? = some a) :
    l.modify k f = l.set k (f a) := by
  apply List.ext_getElem?
  intro j
  rw [List.getElem?_modify, List.getElem?_set]
  split
  · rename_i e; subst e
    rw [if_pos (List.getElem?_eq_some_iff.1 h).1, h]; rfl
  · cases l[j]? <;> rfl

theorem subst_self_map (hi : Inv lg lay own) {sl : Slab} (hsl : sl ∈ lg.live) (file : Bytes) :
    lg.replace sl.suffix sl file = { lg with files := lg.files.set sl.suffix file } := by
  have h : ∀ x ∈ lg.live, subst sl.suffix sl x = x := by
    intro x hx
    unfold subst
    split
    · rename_i e; exact (hi.live_inj hx hsl e).symm
    · rfl
  unfold Logger.replace
  have h1 : lg.back.map (subst sl.suffix sl) = lg.back := by
    conv => rhs; rw [← List.map_id lg.back]
    exact List.map_congr_left (fun x hx => h x (by simp [Logger.live, hx]))
  have h2 : subst sl.suffix sl lg.front = lg.front := h _ (by simp [Logger.live])
  rw [h1, h2]

theorem SlabOk.of_secs {page slabSize start : Nat} {sl : Slab} {file file' : Bytes}
    {secs secs' : List Sec} (h : SlabOk page slabSize start sl file secs)
    (hlen : file'.length = file.length)
    (h1 : openOffs page start secs' = openOffs page start secs)
    (h2 : endOf page start secs' = endOf page start secs)
    (h3 : lastEnd page start secs' = lastEnd page start secs)
    (h4 : ∀ a n, endOf page start secs ≤ a → a + n ≤ file.length →
      slice file' a n = slice file a n) :
    SlabOk page slabSize start sl file' secs' :=
  ⟨hlen.trans h.len, by rw [h1]; exact h.inFlight, h.flushed_cgp, h.flushed_open,
    by rw [h2]; exact h.cgp, by rw [h3]; exact h.last, fun a n ha hn => by
      rw [h2] at ha; rw [hlen] at hn; rw [h4 a n ha hn]; exact h.tail a n ha hn⟩

/-- Encoding an object into an open section. -/
theorem inv_encodeInto (hi : Inv lg lay own) {i : Nat} {h : Handle} (ho : own i = some h)
    (obj : List Bytes) :
    ∃ files' h' b lay' A s B d, encodeInto lg.files h obj = .ok (files', h', b) ∧
      Inv { lg with files := files' } lay' (upd own i (some h')) ∧
      lay.flatten = A ++ s :: B ∧ lay'.flatten = A ++ { s with data := s.data ++ d } :: B ∧
      s.owner = some i ∧ s.et = h.header.entryType ∧ h.used = s.data.length ∧ h.req = s.req ∧
      h'.header = h.header ∧ h'.slab = h.slab ∧ h'.off = h.off ∧ h'.req = h.req ∧
      h'.used = h.used + d.length ∧
      (b = true → d = obj.flatten) ∧ (b = false → d = []) ∧
      (15 + h.used + obj.flatten.length ≤ h.req → b = true) ∧ shape lay' = shape lay := by
  obtain ⟨pre, s, post, w⟩ := hi.owns i h ho
  obtain ⟨sl, hsl, hsuf⟩ := hi.owner_live ho
  obtain ⟨file, hf⟩ := hi.lookup w.at_
  have hsecs := hi.secs _ _ _ hf w.at_
  have hso := ((secsOk_append _ _ _ _ _).1 hsecs).2.1
  have hroom := hso.room
  have hin := hso.inside
  have hreq := w.req
  have hused := w.used
  have hoff := w.off
  have hp := hi.page_pos
  have hhl := enc_header_le (s.header lg.pageSize)
  generalize hr : fitChunks (h.req - (maxHeader + h.used)) obj = r
  have hlen : r.1.length ≤ h.req - (maxHeader + h.used) := by rw [← hr]; exact fitChunks_length _ _
  have hmx : maxHeader = 15 := rfl
  -- what the write does to the file
  have hfit : h.off + maxHeader + h.used + r.1.length ≤ file.length := by omega
  let file' := writeAt file (h.off + maxHeader + h.used) r.1
  have hlen' : file'.length = file.length := length_writeAt hfit
  let s' (d : Bytes) : Sec := { s with data := s.data ++ d }
  have key : ∀ d, (d = r.1 ∨ d = []) → Inv { lg with files := lg.files.set h.slab file' }
      (lay.set h.slab (pre ++ s' d :: post))
      (upd own i (some { h with used := h.used + d.length })) := by
    intro d hd
    have hd' : d.length ≤ r.1.length := by
      rcases hd with rfl | rfl
      · exact Nat.le_refl _
      · simp
    have hrq : (s' d).req = s.req := rfl
    have how : (s' d).owner = some i := w.owner
    have hhead : (s' d).header lg.pageSize = s.header lg.pageSize := by
      have : (s' d).filled = s.filled := by
        unfold Sec.filled
        have : (s' d).owner = s.owner := rfl
        rw [this, w.owner]; simp
      unfold Sec.header
      rw [this]
    have hsec' : SecOk lg.pageSize file' (endOf lg.pageSize (startOf lg.pageSize h.slab) pre) (s' d) := by
      refine ⟨hso.req, hso.size, ?_, ?_, ?_, ?_, fun _ => ?_⟩
      · rw [hlen']; exact hin
      · show 15 + (s.data ++ d).length ≤ s.req
        rw [List.length_append]; omega
      · rw [hhead, slice_writeAt_before (by omega) (by rw [hoff]; omega)]
        exact hso.header
      · show slice file' _ (s.data ++ d).length = s.data ++ d
        rw [List.length_append, slice_add]
        congr 1
        · rw [slice_writeAt_before (by omega) (by rw [hoff]; omega)]
          exact hso.data
        · rcases hd with rfl | rfl
          · have e : endOf lg.pageSize (startOf lg.pageSize h.slab) pre + 15 + s.data.length =
              h.off + maxHeader + h.used := by omega
            rw [e]
            exact slice_writeAt_self (by omega)
          · simp [slice]
      · rw [hhead, slice_writeAt_before (by omega) (by rw [hoff]; omega)]
        exact hso.gap (by rw [w.owner]; rfl)
    have hsecs' : SecsOk lg.pageSize file' (startOf lg.pageSize h.slab) (pre ++ s' d :: post) :=
      hsecs.update hp (by omega) (by omega) rfl hsec'
    have hlive := hi.live sl hsl file _ (by rw [hsuf]; exact hf) (by rw [hsuf]; exact w.at_)
    obtain ⟨A, B, hA, hB⟩ := flatten_set (s' := s' d) w.at_
    have hconv' : ∀ x ∈ (lay.set h.slab (pre ++ s' d :: post)).flatten, ∀ j, x.owner = some j →
        ∃ g, upd own i (some { h with used := h.used + d.length }) j = some g := by
      intro x hx j hj
      unfold upd
      split
      · exact ⟨_, rfl⟩
      · rename_i hne
        refine hi.own_conv x ?_ j hj
        rw [hA]; rw [hB] at hx
        simp only [List.mem_append, List.mem_cons] at hx ⊢
        rcases hx with hx | rfl | hx
        · exact .inl hx
        · exact absurd (Option.some.inj (hj.symm.trans w.owner)) hne
        · exact .inr (.inr hx)
    have := hi.replace (sl := sl) (sl' := sl) (file' := file') (secs' := pre ++ s' d :: post)
      (own' := upd own i (some { h with used := h.used + d.length })) hsl rfl
      (by rw [hsuf]; exact hsecs')
      (by
        rw [hsuf] at hlive ⊢
        exact hlive.of_secs hlen' (openOffs_update hrq rfl) (endOf_update hrq)
          (lastEnd_update hrq _) (fun a n ha _ => by
            have := end_le_endOf hp (startOf lg.pageSize h.slab) pre s post
            exact slice_writeAt_after (by omega) (by omega)))
      (fun hb => by
        have := hi.back sl hb _ (by rw [hsuf]; exact w.at_)
        rw [hsuf] at this ⊢
        rw [endOf_update hrq]; exact this)
      (fun h0 => by
        have h0' : h.slab = 0 := by omega
        have hst : startOf lg.pageSize h.slab = lg.pageSize := by simp [startOf, h0']
        have := hi.main
        have := le_endOf lg.pageSize (startOf lg.pageSize h.slab) pre
        rw [slice_writeAt_before (by omega) (by omega)]
        exact hi.main_at file (by rw [← h0']; exact hf))
      (fun j g hj => by
        rw [hsuf]
        unfold upd at hj
        split at hj
        · rename_i e; subst e
          obtain rfl := (Option.some.inj hj).symm
          refine ⟨pre, s' d, post, ?_, w.owner, w.off, w.req, w.header, ?_⟩
          · exact List.getElem?_set_self (List.getElem?_eq_some_iff.1 w.at_).1
          · show h.used + d.length = (s.data ++ d).length
            rw [List.length_append]; omega
        · rename_i hne
          obtain ⟨p, x, q, v⟩ := hi.owns j g hj
          exact owns_update w (s' := s' d) rfl hne v)
      (by rw [hsuf]; exact hconv')
      (by
        rw [hsuf, hB]
        have := hi.uniq
        rw [hA, List.filterMap_append, List.filterMap_cons_some w.owner] at this
        rw [List.filterMap_append, List.filterMap_cons_some how]
        exact this)
    rw [subst_self_map hi hsl, hsuf] at this
    exact this
  have hunf : encodeInto lg.files h obj = if r.2 then
      .ok (lg.files.set h.slab file', { h with used := h.used + r.1.length }, true)
      else .ok (lg.files.set h.slab file', h, false) := by
    unfold encodeInto
    rw [if_neg (by omega)]
    simp only [hr]
    rw [modify_eq_set _ hf]
  rw [hunf]
  have hsub : s.et = h.header.entryType := by rw [w.header]; rfl
  have hshape : ∀ d, shape (lay.set h.slab (pre ++ s' d :: post)) = shape lay :=
    fun d => shape_set w.at_ rfl
  cases hb : r.2 with
  | true =>
    obtain ⟨A, B, hA, hB⟩ := flatten_set (s' := s' r.1) w.at_
    refine ⟨_, _, true, _, A, s, B, r.1, rfl, key r.1 (.inl rfl), hA, hB, w.owner, hsub, hused,
      hreq, rfl, rfl, rfl, rfl, rfl, fun _ => ?_, fun h => absurd h (by simp), fun _ => rfl, hshape _⟩
    rw [← hr] at hb ⊢
    exact fitChunks_ok hb
  | false =>
    obtain ⟨A, B, hA, hB⟩ := flatten_set (s' := s' []) w.at_
    refine ⟨_, h, false, _, A, s, B, [], rfl, key [] (.inr rfl), hA, hB, w.owner, hsub, hused,
      hreq, rfl, rfl, rfl, rfl, rfl, fun h => absurd h (by simp), fun _ => rfl, fun hle => ?_,
      hshape _⟩
    rw [← hr, fitChunks_fits (by omega)] at hb
    exact hb.symm

end ULog
end Verif
