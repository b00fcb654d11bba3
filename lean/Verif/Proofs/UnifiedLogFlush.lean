import Verif.Proofs.UnifiedLogOps
/-! Closing a section preserves the invariant. -/
namespace Verif
namespace ULog
open Bincode
variable {lg : Logger} {lay : List (List Sec)} {own own' : Nat → Option Handle}

theorem flushUntil_ok {s : Slab} {pos : Nat} (h : s.flushed ≤ pos) :
    s.flushUntil pos = .ok { s with flushed := pos } := by
  unfold Slab.flushUntil
  split
  · rename_i hc
    congr 1
    cases s; simp at *; omega
  · rw [if_neg (by omega)]

theorem updateHeader_slab (h : Handle) : h.updateHeader.slab = h.slab ∧ h.updateHeader.off = h.off ∧
    h.updateHeader.req = h.req := by
  unfold Handle.updateHeader; split <;> simp

theorem updateHeader_header {page : Nat} {h : Handle} {s : Sec} {i : Nat}
    (hreq : 15 + s.data.length ≤ s.req) (hsz : align page s.req < 4294967296)
    (ho : s.owner = some i)
    (hh : h.header = mkHeader s.et (UInt32.ofNat (align page s.req)) 0)
    (hu : h.used = s.data.length) :
    h.updateHeader.header = Sec.header page { s with owner := none } := by
  unfold Handle.updateHeader Sec.header Sec.filled
  rw [hh, hu]
  simp only [mkHeader]
  by_cases h1 : s.et = .empty
  · simp [h1, hh, mkHeader]
  · by_cases h2 : s.data.length = 0
    · simp [h1, h2, hh, mkHeader]
    · simp [h1, h2]

/-- `flush_section` on the slab of the section. -/
theorem slab_flush {page slabSize start : Nat} {sl : Slab} {file : Bytes} {pre post : List Sec}
    {s : Sec} {i : Nat} {h : Handle} (hp : 0 < page)
    (hok : SlabOk page slabSize start sl file (pre ++ s :: post))
    (hsecs : SecsOk page file start (pre ++ s :: post))
    (howner : s.owner = some i) (hoff : h.off = endOf page start pre) (hreq : h.req = s.req)
    (hh : h.header = mkHeader s.et (UInt32.ofNat (align page s.req)) 0)
    (hu : h.used = s.data.length) :
    ∃ sl' file', sl.flushSection file h = .ok (sl', file') ∧
      file' = writeAt file h.off (enc (Sec.header page { s with owner := none })) ∧
      SlabOk page slabSize start sl' file' (pre ++ { s with owner := none } :: post) ∧
      SecsOk page file' start (pre ++ { s with owner := none } :: post) ∧
      sl'.suffix = sl.suffix ∧ sl'.cgp = sl.cgp ∧ sl.flushed ≤ sl'.flushed ∧
      sl'.inFlight = sl.inFlight.filter (· != h.off) ∧
      sl'.flushed = (sl'.inFlight.head?).getD sl'.cgp := by
  have hso := ((secsOk_append _ _ _ _ _).1 hsecs).2.1
  have hd := updateHeader_header hso.room hso.size howner hh hu
  obtain ⟨_, ho', hr'⟩ := updateHeader_slab h
  have hhl := enc_header_le (Sec.header page { s with owner := none })
  have hq := hso.req
  have hin := hso.inside
  have hroom := hso.room
  have hfilt := openOffs_filter hp hsecs (s' := { s with owner := none }) rfl rfl
  rw [← hok.inFlight, ← hoff] at hfilt
  let file' := writeAt file h.off (enc (Sec.header page { s with owner := none }))
  have hlen' : file'.length = file.length := length_writeAt (by omega)
  have hsec' : SecOk page file' (endOf page start pre) { s with owner := none } := by
    refine ⟨hq, hso.size, by rw [hlen']; exact hin, hso.room, ?_, ?_, fun h => absurd h (by simp)⟩
    · rw [← hoff]; exact slice_writeAt_self (by omega)
    · show slice file' _ s.data.length = s.data
      rw [slice_writeAt_after (by omega) (by omega)]
      exact hso.data
  have hsecs' := hsecs.update (s' := { s with owner := none }) hp (o := h.off)
    (d := enc (Sec.header page { s with owner := none })) (by omega) (by omega) rfl hsec'
  have hsub : ∀ o ∈ sl.inFlight.filter (· != h.off), sl.flushed ≤ o := fun o ho =>
    hok.flushed_open o (List.mem_filter.1 ho).1
  have hbase : ∀ f, sl.flushed ≤ f → f ≤ sl.cgp → (∀ o ∈ sl.inFlight.filter (· != h.off), f ≤ o) →
      SlabOk page slabSize start { sl with inFlight := sl.inFlight.filter (· != h.off), flushed := f }
        file' (pre ++ { s with owner := none } :: post) := by
    intro f _ hf2 hf3
    refine ⟨hlen'.trans hok.len, hfilt, hf2, hf3, ?_, ?_, fun a n ha hn => ?_⟩
    · rw [endOf_update (s := s) (s' := { s with owner := none }) rfl]; exact hok.cgp
    · rw [lastEnd_update (s := s) (s' := { s with owner := none }) rfl]; exact hok.last
    · rw [endOf_update (s := s) (s' := { s with owner := none }) rfl] at ha
      rw [hlen'] at hn
      have := end_le_endOf hp start pre s post
      rw [slice_writeAt_after (by omega) (by omega)]
      exact hok.tail a n ha hn
  unfold Slab.flushSection
  simp only [ho', hd, hr']
  rw [if_neg (by omega)]
  have hcgp := hok.flushed_cgp
  cases he : sl.inFlight.filter (· != h.off) with
  | nil =>
    simp only
    rw [flushUntil_ok (by exact hcgp)]
    rw [he] at hbase
    exact ⟨_, _, rfl, rfl, hbase sl.cgp hcgp (Nat.le_refl _) (by simp), hsecs', rfl, rfl, hcgp, rfl, rfl⟩
  | cons o os =>
    simp only
    rw [he] at hbase hsub
    have ho1 : sl.flushed ≤ o := hsub o (by simp)
    have hos : ∀ o' ∈ o :: os, o ≤ o' := by
      have hpw := openOffs_sorted hp hsecs'
      rw [← hfilt, he] at hpw
      intro o' ho'
      rcases List.mem_cons.1 ho' with rfl | h'
      · exact Nat.le_refl _
      · exact Nat.le_of_lt ((List.pairwise_cons.1 hpw).1 o' h')
    have hoc : o ≤ sl.cgp := by
      have hm : o ∈ openOffs page start (pre ++ { s with owner := none } :: post) := by
        rw [← hfilt, he]; simp
      have := openOffs_bounds hp hsecs' hm
      -- an open section begins before the last allocated byte
      have hl := hok.last
      rw [← lastEnd_update (s := s) (s' := { s with owner := none }) rfl] at hl
      exact Nat.le_trans (openOffs_le_lastEnd hp hm) hl
    by_cases hlt : sl.flushed < o
    · rw [if_pos hlt, flushUntil_ok (by exact ho1)]
      exact ⟨_, _, rfl, rfl, hbase o ho1 hoc hos, hsecs', rfl, rfl, ho1, rfl, rfl⟩
    · have he' : sl.flushed = o := by omega
      rw [if_neg hlt]
      exact ⟨_, _, rfl, rfl, hbase sl.flushed (Nat.le_refl _) hcgp hsub, hsecs', rfl, rfl,
        Nat.le_refl _, rfl, he'⟩

theorem flushBack_none {files : List Bytes} {h : Handle} {l : List Slab}
    (hn : ∀ s ∈ l, s.suffix ≠ h.slab) : flushBack files h l = .ok none := by
  induction l with
  | nil => rfl
  | cons x l ih =>
    unfold flushBack
    rw [if_neg (hn x (by simp)), ih (fun s hs => hn s (by simp [hs]))]

theorem flushBack_some {files files' : List Bytes} {h : Handle} {l : List Slab} {sl sl' : Slab}
    (hs : (l.map Slab.suffix).Pairwise (· < ·)) (hm : sl ∈ l) (he : sl.suffix = h.slab)
    (hf : flushIn files sl h = .ok (sl', files')) :
    flushBack files h l = .ok (some (l.map (subst h.slab sl'), files')) := by
  induction l with
  | nil => simp at hm
  | cons x l ih =>
    rw [List.map_cons, List.pairwise_cons] at hs
    unfold flushBack
    rcases List.mem_cons.1 hm with rfl | hm'
    · rw [if_pos he, hf]
      simp only
      have e1 : subst h.slab sl' sl = sl' := by unfold subst; rw [if_pos he]
      have e2 : l.map (subst h.slab sl') = l := by
        conv => rhs; rw [← List.map_id l]
        apply List.map_congr_left
        intro y hy
        have := hs.1 y.suffix (List.mem_map_of_mem hy)
        unfold subst; rw [if_neg (by omega)]; rfl
      rw [List.map_cons, e1, e2]
    · have := hs.1 sl.suffix (List.mem_map_of_mem hm')
      rw [if_neg (by omega), ih hs.2 hm']
      simp only
      have e1 : subst h.slab sl' x = x := by unfold subst; rw [if_neg (by omega)]
      rw [List.map_cons, e1]

theorem flushSection_eq (hi : Inv lg lay own) {h : Handle} {sl sl' : Slab} {file file' : Bytes}
    (hsl : sl ∈ lg.live) (he : sl.suffix = h.slab) (hf : lg.files[h.slab]? = some file)
    (hfl : sl.flushSection file h = .ok (sl', file')) :
    lg.flushSection h = .ok (lg.replace h.slab sl' file') := by
  have hs := hi.sorted
  unfold Logger.live at hs
  rw [List.map_append, List.pairwise_append] at hs
  have hin : flushIn lg.files sl h = .ok (sl', lg.files.set h.slab file') := by
    unfold flushIn
    rw [he, hf]
    simp only
    rw [hfl]
  unfold Logger.flushSection
  rcases List.mem_append.1 hsl with hb | hb
  · rw [flushBack_some hs.1 hb he hin]
    simp only
    have hlt := hs.2.2 sl.suffix (List.mem_map_of_mem hb) lg.front.suffix (by simp)
    have e : subst h.slab sl' lg.front = lg.front := by unfold subst; rw [if_neg (by omega)]
    unfold Logger.replace
    rw [e]
  · obtain rfl : sl = lg.front := by simpa using hb
    rw [flushBack_none]
    · simp only
      rw [if_neg (by rw [he]; simp), hin]
      have e : subst h.slab sl' lg.front = sl' := by unfold subst; rw [if_pos he]
      have e2 : lg.back.map (subst h.slab sl') = lg.back := by
        conv => rhs; rw [← List.map_id lg.back]
        apply List.map_congr_left
        intro y hy
        have := hs.2.2 y.suffix (List.mem_map_of_mem hy) lg.front.suffix (by simp)
        unfold subst; rw [if_neg (by omega)]; rfl
      unfold Logger.replace
      rw [e, e2]
    · intro y hy
      have := hs.2.2 y.suffix (List.mem_map_of_mem hy) lg.front.suffix (by simp)
      omega

/-- Closing a section. -/
theorem inv_flushSection (hi : Inv lg lay own) {i : Nat} {h : Handle} (ho : own i = some h) :
    ∃ sl sl' file', sl ∈ lg.live ∧ sl.suffix = h.slab ∧
      lg.flushSection h = .ok (lg.replace h.slab sl' file') ∧
      sl'.suffix = h.slab ∧ sl'.cgp = sl.cgp ∧ sl.flushed ≤ sl'.flushed ∧
      sl'.inFlight = sl.inFlight.filter (· != h.off) ∧
      sl'.flushed = (sl'.inFlight.head?).getD sl'.cgp ∧
      ∃ lay' A s B, Inv (lg.replace h.slab sl' file') lay' (upd own i none) ∧
        lay.flatten = A ++ s :: B ∧ lay'.flatten = A ++ { s with owner := none } :: B ∧
        s.owner = some i ∧ s.et = h.header.entryType ∧ h.req = s.req ∧
        shape lay' = shape lay := by
  obtain ⟨pre, s, post, w⟩ := hi.owns i h ho
  obtain ⟨sl, hsl, hsuf⟩ := hi.owner_live ho
  obtain ⟨file, hf⟩ := hi.lookup w.at_
  have hsecs := hi.secs _ _ _ hf w.at_
  have hlive := hi.live sl hsl file _ (by rw [hsuf]; exact hf) (by rw [hsuf]; exact w.at_)
  rw [hsuf] at hlive
  obtain ⟨sl', file', hfl, hfile', hok', hsecs', hsuf', hcgp', hfle, hinf', hfl'⟩ :=
    slab_flush hi.page_pos hlive hsecs w.owner w.off w.req w.header w.used
  let s' : Sec := { s with owner := none }
  obtain ⟨A, B, hA, hB⟩ := flatten_set (s' := s') w.at_
  have hun := hi.uniq
  rw [hA, List.filterMap_append, List.filterMap_cons_some w.owner] at hun
  have hun2 := (List.pairwise_append.1 hun)
  refine ⟨sl, sl', file', hsl, hsuf, flushSection_eq hi hsl hsuf hf hfl, hsuf'.trans hsuf, hcgp',
    hfle, hinf', hfl', lay.set h.slab (pre ++ s' :: post), A, s, B, ?_, hA, hB, w.owner,
    by rw [w.header]; rfl, w.req, ?_⟩
  · have := hi.replace (sl := sl) (sl' := sl') (file' := file') (secs' := pre ++ s' :: post)
      (own' := upd own i none) hsl hsuf' (by rw [hsuf]; exact hsecs') (by rw [hsuf]; exact hok')
      (fun hb => by
        have := hi.back sl hb _ (by rw [hsuf]; exact w.at_)
        rw [hsuf] at this ⊢
        rw [hcgp', endOf_update (s := s) (s' := s') rfl]; exact this)
      (fun h0 => by
        have h0' : h.slab = 0 := by omega
        have hst : startOf lg.pageSize h.slab = lg.pageSize := by simp [startOf, h0']
        have := hi.main
        have := le_endOf lg.pageSize (startOf lg.pageSize h.slab) pre
        have := ((secsOk_append _ _ _ _ _).1 hsecs).2.1.inside
        have := w.off
        rw [hfile', slice_writeAt_before (by omega) (by omega)]
        exact hi.main_at file (by rw [← h0']; exact hf))
      (fun j g hj => by
        rw [hsuf]
        unfold upd at hj
        split at hj
        · exact absurd hj (by simp)
        · rename_i hne
          obtain ⟨p, x, q, v⟩ := hi.owns j g hj
          exact owns_update w (s' := s') rfl hne v)
      (by
        rw [hsuf]
        intro x hx j hj
        rw [hB] at hx
        have hne : j ≠ i := by
          rintro rfl
          simp only [List.mem_append, List.mem_cons] at hx
          rcases hx with hx | rfl | hx
          · exact (hun2.2.2 j (List.mem_filterMap.2 ⟨x, hx, hj⟩) j (by simp)) rfl
          · exact absurd hj (by simp [s'])
          · exact (List.pairwise_cons.1 hun2.2.1).1 j (List.mem_filterMap.2 ⟨x, hx, hj⟩) rfl
        unfold upd
        rw [if_neg hne]
        refine hi.own_conv x ?_ j hj
        rw [hA]
        simp only [List.mem_append, List.mem_cons] at hx ⊢
        rcases hx with hx | rfl | hx
        · exact .inl hx
        · exact absurd hj (by simp [s'])
        · exact .inr (.inr hx))
      (by
        rw [hsuf, hB, List.filterMap_append, List.filterMap_cons_none rfl]
        exact List.Pairwise.sublist (List.Sublist.append_left (List.sublist_cons_self _ _) _) hun)
    rw [hsuf] at this
    exact this
  · exact shape_set w.at_ rfl

end ULog
end Verif
