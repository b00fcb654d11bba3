import Verif.Proofs.UnifiedLogFlush
/-! Collecting slabs, adding sections, creating and closing the logger. -/
namespace Verif
namespace ULog
open Bincode
variable {lg : Logger} {lay : List (List Sec)} {own own' : Nat → Option Handle}

theorem dropSlabs_spec {l : List Slab} (files : List Bytes) (hf : ∀ sl ∈ l, sl.flushed ≤ sl.cgp)
    (hs : (l.map Slab.suffix).Nodup) :
    ∃ files', dropSlabs files l = .ok files' ∧ files'.length = files.length ∧
      (∀ sl ∈ l, files'[sl.suffix]? = files[sl.suffix]?.map (fun f => setLen f sl.cgp)) ∧
      (∀ k : Nat, (∀ sl ∈ l, sl.suffix ≠ k) → files'[k]? = files[k]?) := by
  induction l generalizing files with
  | nil => exact ⟨files, rfl, rfl, by simp, fun _ _ => rfl⟩
  | cons x l ih =>
    rw [List.map_cons, List.nodup_cons] at hs
    have hd : dropSlab files x = .ok (files.modify x.suffix (fun f => setLen f x.cgp)) := by
      unfold dropSlab
      rw [flushUntil_ok (hf x (by simp))]
    obtain ⟨files', h1, h2, h3, h4⟩ := ih (files.modify x.suffix (fun f => setLen f x.cgp))
      (fun sl h => hf sl (by simp [h])) hs.2
    refine ⟨files', ?_, ?_, ?_, ?_⟩
    · unfold dropSlabs; rw [hd]; exact h1
    · rw [h2, List.length_modify]
    · intro sl hsl
      rcases List.mem_cons.1 hsl with rfl | h
      · rw [h4 sl.suffix (fun y hy e => hs.1 (e ▸ List.mem_map_of_mem hy))]
        rw [List.getElem?_modify]
        simp
      · have hne : x.suffix ≠ sl.suffix := fun e => hs.1 (e ▸ List.mem_map_of_mem h)
        rw [h3 sl h, List.getElem?_modify]
        simp [hne]
    · intro k hk
      rw [h4 k (fun sl h => hk sl (by simp [h])), List.getElem?_modify]
      simp [hk x (by simp)]

theorem secsOk_setLen {page : Nat} (hp : 0 < page) {file : Bytes} {off n : Nat} {l : List Sec}
    (h : SecsOk page file off l) (hn : lastEnd page off l ≤ n) :
    SecsOk page (setLen file n) off l := by
  refine h.congr hp (fun a m _ hm => ?_) (fun _ => by rw [length_setLen]; exact hn)
  cases l with
  | nil =>
    simp only [lastEnd] at hm hn
    have : m = 0 := by omega
    subst this
    simp [slice]
  | cons s l =>
    have := h.lastEnd_le (by simp)
    exact slice_setLen (by omega) (by omega)

theorem slice_len {bs : Bytes} {a n : Nat} {d : Bytes} (h : slice bs a n = d) (hd : d.length = n) :
    a + n ≤ bs.length ∨ n = 0 := by
  have : (slice bs a n).length = n := by rw [h, hd]
  simp [slice] at this
  omega

/-- The logger after a collection. -/
def Logger.collected (lg : Logger) (files : List Bytes) : Logger :=
  { lg with files := files, back := lg.back.filter (fun s => !s.inFlight.isEmpty) }

/-- What collecting the back slabs does. -/
theorem inv_gc (hi : Inv lg lay own) :
    ∃ files', lg.gc = .ok (lg.collected files') ∧ Inv (lg.collected files') lay own ∧
      (∀ sl ∈ lg.back, sl.inFlight = [] →
        files'[sl.suffix]? = lg.files[sl.suffix]?.map (fun f => setLen f sl.cgp)) := by
  have hsb : (lg.back.map Slab.suffix).Pairwise (· < ·) := by
    have := hi.sorted
    unfold Logger.live at this
    rw [List.map_append, List.pairwise_append] at this
    exact this.1
  have hsub : ((lg.back.filter (fun s => s.inFlight.isEmpty)).map Slab.suffix).Nodup :=
    ((hsb.sublist ((List.filter_sublist (l := lg.back)).map _)).imp (fun h => Nat.ne_of_lt h))
  have hlv : ∀ sl ∈ lg.back, sl ∈ lg.live := fun sl h => by simp [Logger.live, h]
  obtain ⟨files', h1, h2, h3, h4⟩ := dropSlabs_spec lg.files
    (l := lg.back.filter (fun s => s.inFlight.isEmpty))
    (fun sl hsl => by
      have hb := hlv sl (List.mem_filter.1 hsl).1
      obtain ⟨file, secs, hf, hl⟩ := hi.slab_at hb
      exact (hi.live sl hb file secs hf hl).flushed_cgp) hsub
  have hgc : lg.gc = .ok (lg.collected files') := by
    unfold Logger.gc; rw [h1]; rfl
  refine ⟨files', hgc, ?_, fun sl hsl he => h3 sl (List.mem_filter.2 ⟨hsl, by simp [he]⟩)⟩
  have hp := hi.page_pos
  -- a file of the new list is an old one, possibly cut
  have hfile : ∀ (k : Nat) f', files'[k]? = some f' → ∃ f, lg.files[k]? = some f ∧
      ((f' = f ∧ ∀ sl ∈ lg.back, sl.inFlight.isEmpty → sl.suffix ≠ k) ∨ ∃ sl ∈ lg.back, sl.inFlight = [] ∧ sl.suffix = k ∧ f' = setLen f sl.cgp) := by
    intro k f' hf'
    by_cases hk : ∃ sl ∈ lg.back.filter (fun s => s.inFlight.isEmpty), sl.suffix = k
    · obtain ⟨sl, hsl, rfl⟩ := hk
      have := h3 sl hsl
      rw [hf'] at this
      obtain ⟨f, hf, e⟩ := Option.map_eq_some_iff.1 this.symm
      have hm := List.mem_filter.1 hsl
      exact ⟨f, hf, .inr ⟨sl, hm.1, by simpa using hm.2, rfl, e.symm⟩⟩
    · refine ⟨f', ?_, .inl ⟨rfl, fun sl hb he e => hk ⟨sl, List.mem_filter.2 ⟨hb, he⟩, e⟩⟩⟩
      rw [← h4 k (fun sl hsl e => hk ⟨sl, hsl, e⟩)]; exact hf'
  have hlive' : ∀ sl ∈ lg.back.filter (fun s => !s.inFlight.isEmpty) ++ [lg.front],
      sl ∈ lg.live ∧ files'[sl.suffix]? = lg.files[sl.suffix]? := by
    intro sl hsl
    have hm : sl ∈ lg.live := by
      rcases List.mem_append.1 hsl with h | h
      · exact hlv sl (List.mem_filter.1 h).1
      · unfold Logger.live; exact List.mem_append_right _ h
    refine ⟨hm, h4 _ (fun x hx e => ?_)⟩
    have hx' := List.mem_filter.1 hx
    have : x = sl := hi.live_inj (hlv x hx'.1) hm e
    subst this
    rcases List.mem_append.1 hsl with h | h
    · have h1 := (List.mem_filter.1 h).2
      have h2 := hx'.2
      simp only [h2] at h1
      exact absurd h1 (by simp)
    · have hs := hi.sorted
      unfold Logger.live at hs
      rw [List.map_append, List.pairwise_append] at hs
      have := hs.2.2 x.suffix (List.mem_map_of_mem hx'.1) lg.front.suffix (by simp)
      have e : x = lg.front := by simpa using h
      rw [← e] at this; omega
  refine ⟨hp, h2.trans hi.files_len, hi.front_suffix, ?_, ?_, ?_, ?_, ?_, hi.main, ?_, hi.owns,
    hi.own_conv, hi.uniq⟩
  · refine hi.sorted.sublist ?_
    show ((lg.back.filter _ ++ [lg.front]).map Slab.suffix).Sublist _
    unfold Logger.live
    exact (List.Sublist.append_right (List.filter_sublist) _).map _
  · intro k f' secs hf' hl
    obtain ⟨f, hf, ⟨rfl, _⟩ | ⟨sl, hb, _, rfl, rfl⟩⟩ := hfile k f' hf'
    · exact hi.secs k _ secs hf hl
    · refine secsOk_setLen hp (hi.secs _ f secs hf hl) ?_
      exact (hi.live sl (hlv sl hb) f secs hf hl).last
  · intro sl hsl f' secs hf' hl
    obtain ⟨hm, he⟩ := hlive' sl hsl
    exact hi.live sl hm f' secs (he ▸ hf') hl
  · intro sl hsl secs hl
    exact hi.back sl (List.mem_filter.1 hsl).1 secs hl
  · intro k f' secs hf' hl hn
    obtain ⟨f, hf, hcase⟩ := hfile k f' hf'
    rcases hcase with ⟨rfl, hno⟩ | ⟨sl, hb, hemp, rfl, rfl⟩
    · -- not in the new list and not cut: not in the old list
      refine hi.trimmed k _ secs hf hl (fun x hx e => ?_)
      subst e
      rcases List.mem_append.1 (show x ∈ lg.back ++ [lg.front] from hx) with hb | hb
      · by_cases hemp : x.inFlight.isEmpty
        · exact hno x hb hemp rfl
        · exact hn x (List.mem_append_left _ (List.mem_filter.2 ⟨hb, by simpa using hemp⟩)) rfl
      · exact hn x (List.mem_append_right _ hb) rfl
    · have hk := hi.live sl (hlv sl hb) f secs hf hl
      refine ⟨hk.inFlight.symm.trans hemp, ?_⟩
      rw [length_setLen]
      exact hi.back sl hb secs hl
  · intro f' hf'
    obtain ⟨f, hf, ⟨rfl, _⟩ | ⟨sl, hb, _, hk, rfl⟩⟩ := hfile 0 f' hf'
    · exact hi.main_at _ hf
    · have hm := hi.main_at f hf
      have hlen := slice_len hm rfl
      have hmain := hi.main
      obtain ⟨_, secs, _, hl⟩ := hi.slab_at (hlv sl hb)
      have hge : lg.pageSize ≤ sl.cgp := by
        rw [hi.back sl hb secs hl]
        have := le_endOf lg.pageSize (startOf lg.pageSize sl.suffix) secs
        rw [hk] at this ⊢
        simpa [startOf] using this
      show slice _ 0 (enc (mainHd lg.pageSize)).length = enc (mainHd lg.pageSize)
      rw [slice_setLen (by omega)]
      · exact hm
      · rcases hlen with h | h
        · exact h
        · omega

theorem append_set_last {α : Type} {l : List (List α)} {k : Nat} {a : List α} {x : α}
    (hk : k + 1 = l.length) (h : l[k]? = some a) :
    (l.set k (a ++ [x])).flatten = l.flatten ++ [x] := by
  obtain ⟨hk', e⟩ := List.getElem?_eq_some_iff.1 h
  have e1 : l = l.take k ++ [a] := by
    conv => lhs; rw [← List.take_append_drop k l]
    rw [List.drop_eq_getElem_cons hk', e, List.drop_eq_nil_of_le (by omega)]
  conv => rhs; rw [e1]
  rw [List.set_eq_take_append_cons_drop, if_pos hk', List.drop_eq_nil_of_le (by omega)]
  simp

theorem cells_set_last {page : Nat} {lay : List (List Sec)} {k : Nat} {a : List Sec} {x : Sec}
    (hk : k + 1 = lay.length) (h : lay[k]? = some a) :
    cells page 0 (shape (lay.set k (a ++ [x]))) =
      cells page 0 (shape lay) ++ [(k, endOf page (startOf page k) a, x.req)] := by
  obtain ⟨hk', e⟩ := List.getElem?_eq_some_iff.1 h
  have e1 : lay = lay.take k ++ [a] := by
    conv => lhs; rw [← List.take_append_drop k lay]
    rw [List.drop_eq_getElem_cons hk', e, List.drop_eq_nil_of_le (by omega)]
  have e2 : lay.set k (a ++ [x]) = lay.take k ++ [a ++ [x]] := by
    rw [List.set_eq_take_append_cons_drop, if_pos hk', List.drop_eq_nil_of_le (by omega)]
  have e3 : (List.take k (shape lay)).length = k := by simp [shape]; omega
  have s1 : shape lay = (shape lay).take k ++ [a.map Sec.req] := by
    conv => lhs; rw [e1]
    simp [shape, List.map_take]
  have s2 : shape (lay.set k (a ++ [x])) = (shape lay).take k ++ [a.map Sec.req ++ [x.req]] := by
    rw [e2]; simp [shape, List.map_take]
  rw [s2, cells_append, e3]
  conv => rhs; rw [s1]
  rw [cells_append, e3]
  simp only [cells, Nat.zero_add, cellsFrom_append, List.append_nil, List.append_assoc]

/-- The front slab entry after a request it has no room for. -/
def Logger.aligned (lg : Logger) : Logger :=
  { lg with front := { lg.front with cgp := align lg.pageSize lg.front.cgp } }

theorem inv_aligned (hi : Inv lg lay own) : Inv lg.aligned lay own := by
  have hp := hi.page_pos
  obtain ⟨file, secs, hf, hl⟩ := hi.front_at
  have hfr : lg.front ∈ lg.live := by simp [Logger.live]
  have hok := hi.live lg.front hfr file secs hf hl
  have e : lg.aligned = lg.replace lg.front.suffix
      { lg.front with cgp := align lg.pageSize lg.front.cgp } file := by
    have hs := hi.sorted
    unfold Logger.live at hs
    rw [List.map_append, List.pairwise_append] at hs
    unfold Logger.aligned Logger.replace
    have e1 : lg.files.set lg.front.suffix file = lg.files := by
      apply List.ext_getElem?
      intro j
      rw [List.getElem?_set]
      split
      · rename_i h; subst h
        rw [if_pos (List.getElem?_eq_some_iff.1 hf).1, hf]
      · rfl
    have e2 : ∀ sl, lg.back.map (subst lg.front.suffix sl) = lg.back := by
      intro sl
      conv => rhs; rw [← List.map_id lg.back]
      apply List.map_congr_left
      intro y hy
      have := hs.2.2 y.suffix (List.mem_map_of_mem hy) lg.front.suffix (by simp)
      unfold subst; rw [if_neg (by omega)]; rfl
    rw [e1, e2]
    simp [subst]
  have e3 : lay.set lg.front.suffix secs = lay := by
    apply List.ext_getElem?
    intro j
    rw [List.getElem?_set]
    split
    · rename_i h; subst h
      rw [if_pos (List.getElem?_eq_some_iff.1 hl).1, hl]
    · rfl
  have hge := align_le hp lg.front.cgp
  have := hi.replace (own' := own) (sl := lg.front)
    (sl' := { lg.front with cgp := align lg.pageSize lg.front.cgp }) (file' := file)
    (secs' := secs) hfr rfl (hi.secs _ _ _ hf hl)
    ⟨hok.len, hok.inFlight, Nat.le_trans hok.flushed_cgp hge, hok.flushed_open,
      by simp only; rw [align_align hp]; exact hok.cgp, Nat.le_trans hok.last hge, hok.tail⟩
    (fun _ => hok.cgp)
    (fun h0 => hi.main_at file (by rw [← h0]; exact hf))
    (by rw [e3]; exact hi.owns) (by rw [e3]; exact hi.own_conv) (by rw [e3]; exact hi.uniq)
  rw [e3, ← e] at this
  exact this

/-- Requests that the code accepts: big enough for the section header, and a size that is
representable in a header. -/
structure ReqOk (page req : Nat) : Prop where
  pages : 13 < page
  min : 15 ≤ req
  max : align page req < 4294967296

/-- Adding a section to the front slab. -/
theorem inv_addFront (hi : Inv lg lay own) {t : EntryType} {req i : Nat}
    (hr : ReqOk lg.pageSize req) (hown : own i = none) :
    (lg.addFront t req = .ok (lg.aligned, none) ∧
      ∀ secs, lay[lg.front.suffix]? = some secs → lg.slabSize <
        endOf lg.pageSize (startOf lg.pageSize lg.front.suffix) secs + align lg.pageSize req) ∨
    (∃ lg' h secs, lg.addFront t req = .ok (lg', some h) ∧
      lay[lg.front.suffix]? = some secs ∧
      Inv lg' (lay.set lg.front.suffix (secs ++ [⟨req, t, [], some i⟩])) (upd own i (some h)) ∧
      h.slab = lg.front.suffix ∧ h.header.entryType = t ∧ h.used = 0 ∧ h.req = req ∧
      h.off = endOf lg.pageSize (startOf lg.pageSize lg.front.suffix) secs ∧
      h.off + align lg.pageSize req ≤ lg.slabSize ∧
      lg'.pageSize = lg.pageSize ∧ lg'.slabSize = lg.slabSize ∧ lg'.back = lg.back ∧
      lg'.front = ⟨lg.front.suffix, h.off + req, lg.front.inFlight ++ [h.off], lg.front.flushed⟩) := by
  have hp := hi.page_pos
  obtain ⟨file, secs, hf, hl⟩ := hi.front_at
  have hfr : lg.front ∈ lg.live := by simp [Logger.live]
  have hok := hi.live lg.front hfr file secs hf hl
  have hsecs := hi.secs _ _ _ hf hl
  have hsz : (UInt32.ofNat (align lg.pageSize req)).toNat = align lg.pageSize req := by
    rw [UInt32.toNat_ofNat']; exact Nat.mod_eq_of_lt hr.max
  have hle := align_le hp req
  have hmin := hr.min
  let hd := mkHeader t (UInt32.ofNat (align lg.pageSize req)) 0
  have hhl : (enc (mkHeader t (UInt32.ofNat (align lg.pageSize req)) 0)).length ≤ 13 :=
    enc_header_le _
  have hhl' : (enc hd).length ≤ 13 := hhl
  have hpg := hr.pages
  unfold Logger.addFront
  rw [hf]
  simp only
  unfold Slab.addSection
  simp only [hsz, hok.cgp]
  by_cases hroom : file.length < endOf lg.pageSize (startOf lg.pageSize lg.front.suffix) secs +
      align lg.pageSize req
  · left
    rw [if_pos hroom]
    constructor
    · simp only
      congr 2
      unfold Logger.aligned
      rw [hok.cgp]
      congr 1
      apply List.ext_getElem?
      intro j
      rw [List.getElem?_set]
      split
      · rename_i h; subst h
        rw [if_pos (List.getElem?_eq_some_iff.1 hf).1, hf]
      · rfl
    · intro secs' hl'
      obtain rfl : secs = secs' := Option.some.inj (hl.symm.trans hl')
      rw [hok.len] at hroom
      exact hroom
  · right
    rw [if_neg hroom, if_neg (by omega), if_neg (by omega), if_neg (by omega),
      if_neg (by show ¬ req < 15; omega)]
    simp only
    generalize hpos : endOf lg.pageSize (startOf lg.pageSize lg.front.suffix) secs = pos at *
    let h : Handle := ⟨lg.front.suffix, pos, req, hd, 0⟩
    let sl' : Slab := ⟨lg.front.suffix, pos + req, lg.front.inFlight ++ [pos], lg.front.flushed⟩
    let s : Sec := ⟨req, t, [], some i⟩
    let file' := writeAt file pos (enc hd)
    have hlen' : file'.length = file.length := length_writeAt (by omega)
    have hhead : s.header lg.pageSize = hd := by
      simp [s, hd, Sec.header, Sec.filled]
    have hsec : SecOk lg.pageSize file' pos s := by
      refine ⟨hmin, hr.max, by rw [hlen']; show pos + req ≤ _; omega, by simpa [s] using hmin, ?_, ?_,
        fun _ => ?_⟩
      · rw [hhead]; exact slice_writeAt_self (by omega)
      · simp [s, slice]
      · rw [hhead, slice_writeAt_after (by omega) (by omega)]
        refine hok.tail _ _ ?_ ?_ <;> omega
    have hsecs' : SecsOk lg.pageSize file' (startOf lg.pageSize lg.front.suffix) (secs ++ [s]) := by
      have := hsecs.append_new (s := s) (d := enc hd) hp (by rw [hpos]; omega)
        (by rw [hpos]; exact hsec)
      rw [hpos] at this; exact this
    have hposd : lg.pageSize ∣ pos := by rw [← hpos]; exact endOf_dvd (startOf_dvd _ _) _
    have hcgple : lg.front.cgp ≤ pos := by rw [← hpos, ← hok.cgp]; exact align_le hp _
    have hflat := append_set_last (x := s) hi.front_suffix hl
    have hfresh : ∀ x ∈ lay.flatten, x.owner ≠ some i := by
      intro x hx e
      obtain ⟨g, hg⟩ := hi.own_conv x hx i e
      rw [hown] at hg; exact absurd hg (by simp)
    have hslab : SlabOk lg.pageSize lg.slabSize (startOf lg.pageSize lg.front.suffix) sl' file'
        (secs ++ [s]) := by
      refine ⟨hlen'.trans hok.len, ?_, ?_, ?_, ?_, ?_, ?_⟩
      · rw [openOffs_append, ← hok.inFlight, hpos]
        simp [openOffs, s, sl']
      · show lg.front.flushed ≤ pos + req
        have := hok.flushed_cgp; omega
      · intro o ho
        rcases List.mem_append.1 ho with ho | ho
        · exact hok.flushed_open o ho
        · have := hok.flushed_cgp
          have : o = pos := by simpa using ho
          show lg.front.flushed ≤ o
          omega
      · rw [endOf_append, hpos]
        show align lg.pageSize (pos + req) = pos + align lg.pageSize req
        exact align_add hp hposd req
      · rw [lastEnd_append_singleton, hpos]
        exact Nat.le_refl _
      · intro a n ha hn
        rw [endOf_append, hpos] at ha
        have ha : pos + align lg.pageSize req ≤ a := ha
        rw [hlen'] at hn
        rw [slice_writeAt_after (by omega) (by omega)]
        refine hok.tail _ _ ?_ hn
        omega
    have hinv := hi.replace (own' := upd own i (some h)) (sl := lg.front) (sl' := sl')
      (file' := file') (secs' := secs ++ [s]) hfr rfl hsecs' hslab
      (fun hb => by
        have hs := hi.sorted
        unfold Logger.live at hs
        rw [List.map_append, List.pairwise_append] at hs
        have := hs.2.2 lg.front.suffix (List.mem_map_of_mem hb) lg.front.suffix (by simp)
        omega)
      (fun h0 => by
        have := hi.main
        have := le_endOf lg.pageSize (startOf lg.pageSize lg.front.suffix) secs
        rw [hpos, h0] at this
        simp only [startOf] at this
        rw [slice_writeAt_before (by omega) (by simp at this; omega)]
        exact hi.main_at file (by rw [← h0]; exact hf))
      (fun j g hj => by
        unfold upd at hj
        split at hj
        · rename_i e; subst e
          obtain rfl := (Option.some.inj hj).symm
          refine ⟨secs, s, [], ?_, rfl, hpos.symm, rfl, rfl, rfl⟩
          exact List.getElem?_set_self (List.getElem?_eq_some_iff.1 hl).1
        · obtain ⟨p, x, q, v⟩ := hi.owns j g hj
          by_cases hs : g.slab = lg.front.suffix
          · have e : secs = p ++ x :: q := by
              have := v.at_; rw [hs, hl] at this; exact Option.some.inj this
            refine ⟨p, x, q ++ [s], ?_, v.owner, v.off, v.req, v.header, v.used⟩
            rw [hs, List.getElem?_set_self (List.getElem?_eq_some_iff.1 hl).1, e]
            simp
          · exact ⟨p, x, q, by rw [List.getElem?_set_ne (Ne.symm hs)]; exact v.at_, v.owner, v.off,
              v.req, v.header, v.used⟩)
      (by
        rw [hflat]
        intro x hx j hj
        unfold upd
        split
        · exact ⟨_, rfl⟩
        · rename_i hne
          rcases List.mem_append.1 hx with hx | hx
          · exact hi.own_conv x hx j hj
          · have : x = s := by simpa using hx
            subst this
            exact absurd (Option.some.inj hj).symm hne)
      (by
        rw [hflat, List.filterMap_append]
        refine List.pairwise_append.2 ⟨hi.uniq, by simp [s], ?_⟩
        intro a ha b hb
        obtain ⟨x, hx, hxa⟩ := List.mem_filterMap.1 ha
        have : b = i := by simpa [s] using hb
        subst this
        rintro rfl
        exact hfresh x hx hxa)
    have e2 : lg.back.map (subst lg.front.suffix sl') = lg.back := by
      have hs := hi.sorted
      unfold Logger.live at hs
      rw [List.map_append, List.pairwise_append] at hs
      conv => rhs; rw [← List.map_id lg.back]
      apply List.map_congr_left
      intro y hy
      have := hs.2.2 y.suffix (List.mem_map_of_mem hy) lg.front.suffix (by simp)
      unfold subst; rw [if_neg (by omega)]; rfl
    have e : lg.replace lg.front.suffix sl' file' =
        { lg with front := sl', files := lg.files.set lg.front.suffix file' } := by
      unfold Logger.replace
      rw [e2]
      simp [subst]
    rw [e] at hinv
    refine ⟨_, h, secs, rfl, hl, hinv, rfl, rfl, rfl, rfl, hpos.symm, ?_, rfl, rfl, rfl, rfl⟩
    show pos + align lg.pageSize req ≤ lg.slabSize
    rw [← hok.len]; omega

/-- Switching to a new slab. -/
theorem inv_rollover (hi : Inv lg lay own)
    (hcgp : align lg.pageSize lg.front.cgp = lg.front.cgp) :
    Inv lg.rollover (lay ++ [[]]) own := by
  have hp := hi.page_pos
  have hfl := hi.files_len
  have hfs := hi.front_suffix
  have hlive : lg.rollover.live = lg.live ++ [⟨lg.front.suffix + 1, 0, [], 0⟩] := by
    simp [Logger.live, Logger.rollover, newSlab]
  have hst : startOf lg.pageSize (lg.front.suffix + 1) = 0 := by simp [startOf]
  have hcases : ∀ (k : Nat) file secs, (lg.files ++ [List.replicate lg.slabSize 0])[k]? = some file →
      (lay ++ [[]])[k]? = some secs → (k < lay.length ∧ lg.files[k]? = some file ∧ lay[k]? = some secs) ∨
      (k = lg.front.suffix + 1 ∧ file = List.replicate lg.slabSize 0 ∧ secs = []) := by
    intro k file secs h1 h2
    rw [List.getElem?_append] at h1 h2
    split at h2
    · rename_i hk
      rw [if_pos (by omega)] at h1
      exact .inl ⟨hk, h1, h2⟩
    · rename_i hk
      rw [if_neg (by omega)] at h1
      have hk0 : k - lay.length = 0 := by
        have := (List.getElem?_eq_some_iff.1 h2).1
        simp at this; omega
      have hk1 : k - lg.files.length = 0 := by omega
      rw [hk0] at h2; rw [hk1] at h1
      simp at h1 h2
      exact .inr ⟨by omega, h1.symm, h2⟩
  have hlt : ∀ sl ∈ lg.live, sl.suffix < lay.length := fun sl h => hi.suffix_lt h
  refine ⟨hp, ?_, ?_, ?_, ?_, ?_, ?_, ?_, hi.main, ?_, ?_, ?_, ?_⟩
  · simp [Logger.rollover, hfl]
  · simp [Logger.rollover, newSlab, hfs]
  · rw [hlive, List.map_append, List.pairwise_append]
    refine ⟨hi.sorted, by simp, ?_⟩
    intro a ha b hb
    obtain ⟨sl, hsl, rfl⟩ := List.mem_map.1 ha
    have := hlt sl hsl
    simp at hb; subst hb
    omega
  · intro k file secs h1 h2
    rcases hcases k file secs h1 h2 with ⟨_, h1, h2⟩ | ⟨_, _, rfl⟩
    · exact hi.secs k file secs h1 h2
    · trivial
  · intro sl hsl file secs h1 h2
    rw [hlive] at hsl
    rcases List.mem_append.1 hsl with hsl | hsl
    · rcases hcases _ file secs h1 h2 with ⟨_, h1, h2⟩ | ⟨hk, _, _⟩
      · exact hi.live sl hsl file secs h1 h2
      · have := hlt sl hsl; omega
    · have e : sl = ⟨lg.front.suffix + 1, 0, [], 0⟩ := by simpa using hsl
      subst e
      rcases hcases _ file secs h1 h2 with ⟨hk, _, _⟩ | ⟨hk, rfl, rfl⟩
      · simp at hk; omega
      · have hst' : startOf lg.rollover.pageSize (lg.front.suffix + 1) = 0 := hst
        refine ⟨by simp; rfl, rfl, Nat.le_refl _, by simp, ?_, ?_, ?_⟩
        · simp only [endOf, hst']
          have := align_mul hp 0
          rw [Nat.zero_mul] at this
          exact this
        · simp [lastEnd, hst']
        · intro a n _ hn
          exact slice_replicate hn
  · intro sl hsl secs h2
    have hsl' : sl ∈ lg.live := hsl
    have hk := hlt sl hsl'
    rw [List.getElem?_append, if_pos hk] at h2
    rcases List.mem_append.1 (show sl ∈ lg.back ++ [lg.front] from hsl) with hb | hb
    · exact hi.back sl hb secs h2
    · have e : sl = lg.front := by simpa using hb
      subst e
      obtain ⟨file, _, hf, _⟩ := hi.front_at
      have := (hi.live _ hsl' file secs hf h2).cgp
      rw [hcgp] at this; exact this
  · intro k file secs h1 h2 hn
    rcases hcases k file secs h1 h2 with ⟨_, h1, h2⟩ | ⟨hk, _, _⟩
    · refine hi.trimmed k file secs h1 h2 (fun sl hsl => hn sl ?_)
      rw [hlive]; exact List.mem_append_left _ hsl
    · exact absurd hk.symm (hn ⟨lg.front.suffix + 1, 0, [], 0⟩ (by rw [hlive]; simp))
  · intro file hf
    have : (lg.files ++ [List.replicate lg.slabSize 0])[0]? = some file := hf
    rw [List.getElem?_append, if_pos (by omega)] at this
    exact hi.main_at file this
  · intro i h hh
    obtain ⟨p, s, q, w⟩ := hi.owns i h hh
    have hk := (List.getElem?_eq_some_iff.1 w.at_).1
    exact ⟨p, s, q, by rw [List.getElem?_append, if_pos hk]; exact w.at_, w.owner, w.off, w.req,
      w.header, w.used⟩
  · intro s hs i hsi
    refine hi.own_conv s ?_ i hsi
    simpa using hs
  · simpa using hi.uniq

/-- Every slab but the first one holds a section. -/
def NonEmpty (lay : List (List Sec)) : Prop := ∀ (k : Nat), 0 < k → lay[k]? ≠ some []

/-- `add_section` of the logger. -/
theorem inv_addSection (hi : Inv lg lay own) (hne : NonEmpty lay) {t : EntryType} {req i : Nat}
    (hr : ReqOk lg.pageSize req) (hfit : align lg.pageSize req ≤ lg.slabSize) (hown : own i = none) :
    ∃ lg' h lay', lg.addSection t req = .ok (lg', h) ∧ Inv lg' lay' (upd own i (some h)) ∧
      NonEmpty lay' ∧ lay'.flatten = lay.flatten ++ [⟨req, t, [], some i⟩] ∧
      h.header.entryType = t ∧ h.used = 0 ∧ h.req = req ∧
      lg'.pageSize = lg.pageSize ∧ lg'.slabSize = lg.slabSize ∧
      h.slab = lg'.front.suffix ∧
      h.off + align lg.pageSize req ≤ lg.slabSize ∧
      cells lg.pageSize 0 (shape lay') = cells lg.pageSize 0 (shape lay) ++ [(h.slab, h.off, req)] ∧
      (∀ sl' ∈ lg'.live, (∃ sl ∈ lg.live, sl.suffix = sl'.suffix ∧ sl'.flushed = sl.flushed) ∨
        (sl'.suffix = lg.front.suffix + 1 ∧ sl'.flushed = 0)) := by
  obtain ⟨files', hgc, hi1, _⟩ := inv_gc hi
  unfold Logger.addSection
  rw [hgc]
  simp only
  rcases inv_addFront (t := t) hi1 hr hown with ⟨h1, _⟩ | ⟨lg', h, secs, h1, hl, hinv, a1, a2, a3, a4, a8, a9, a5, a6, a10, a7⟩
  · rw [h1]
    simp only
    have hi2 := inv_aligned hi1
    have hi3 := inv_rollover hi2 (align_align hi2.page_pos _)
    rcases inv_addFront (t := t) (i := i) hi3 hr hown with ⟨_, h2⟩ | ⟨lg', h, secs, h1, hl, hinv, a1, a2, a3, a4, a8, a9, a5, a6, a10, a7⟩
    · exfalso
      have hk : (lay ++ [[]])[(lg.collected files').aligned.rollover.front.suffix]? = some [] := by
        have := hi3.front_suffix
        rw [List.length_append] at this
        simp only [List.length_singleton] at this
        rw [List.getElem?_append, if_neg (by omega), show
          (lg.collected files').aligned.rollover.front.suffix - lay.length = 0 by omega]
        rfl
      have := h2 [] hk
      have e : startOf (lg.collected files').aligned.rollover.pageSize
          (lg.collected files').aligned.rollover.front.suffix = 0 := by
        simp [startOf, Logger.rollover, newSlab]
      rw [e] at this
      simp only [endOf] at this
      have e2 : (lg.collected files').aligned.rollover.slabSize = lg.slabSize := rfl
      have e3 : (lg.collected files').aligned.rollover.pageSize = lg.pageSize := rfl
      rw [e2, e3] at this
      omega
    · rw [h1]
      simp only
      refine ⟨lg', h, _, rfl, hinv, ?_, ?_, a2, a3, a4, a5, a6, by rw [a1, a7], a9, ?_, ?_⟩
      · intro k hk hc
        rcases getElem?_set_cases hc with ⟨_, e, _⟩ | ⟨hk', hc⟩
        · exact absurd e (by simp)
        · have hfs := hi3.front_suffix
          rw [List.getElem?_append] at hc
          split at hc
          · exact hne k hk hc
          · have := (List.getElem?_eq_some_iff.1 hc).1
            rw [List.length_append] at hfs
            simp at this hfs
            omega
      · rw [append_set_last hi3.front_suffix hl]
        simp
      · rw [cells_set_last hi3.front_suffix hl, a1, a8]
        have : shape (lay ++ [[]]) = shape lay ++ [[]] := by simp [shape]
        rw [this, cells_append]
        simp [cells, cellsFrom]
        rfl
      · intro sl' hsl'
        have hlv : lg'.live = lg'.back ++ [lg'.front] := rfl
        rw [hlv, a10, a7] at hsl'
        have hb : (lg.collected files').aligned.rollover.back =
          (lg.collected files').back ++ [(lg.collected files').aligned.front] := rfl
        rw [hb] at hsl'
        simp only [List.mem_append, List.mem_singleton] at hsl'
        rcases hsl' with (h | rfl) | rfl
        · exact .inl ⟨sl', by
            have := (List.mem_filter.1 h).1
            simp [Logger.live, this], rfl, rfl⟩
        · exact .inl ⟨lg.front, by simp [Logger.live], rfl, rfl⟩
        · exact .inr ⟨rfl, rfl⟩
  · rw [h1]
    simp only
    refine ⟨lg', h, _, rfl, hinv, ?_, ?_, a2, a3, a4, a5, a6, by rw [a1, a7], a9, ?_, ?_⟩
    · intro k hk hc
      rcases getElem?_set_cases hc with ⟨_, e, _⟩ | ⟨_, hc⟩
      · exact absurd e (by simp)
      · exact hne k hk hc
    · exact append_set_last hi1.front_suffix hl
    · have := cells_set_last (page := lg.pageSize) (x := ⟨req, t, [], some i⟩) hi1.front_suffix hl
      rw [this, a1, a8]; rfl
    · intro sl' hsl'
      have hlv : lg'.live = lg'.back ++ [lg'.front] := rfl
      rw [hlv, a10, a7] at hsl'
      simp only [List.mem_append, List.mem_singleton] at hsl'
      rcases hsl' with h | rfl
      · exact .inl ⟨sl', by
          have := (List.mem_filter.1 h).1
          simp [Logger.live, this], rfl, rfl⟩
      · exact .inl ⟨lg.front, by simp [Logger.live], rfl, rfl⟩

/-- A new logger. -/
theorem inv_new {slabSize page : Nat} (hpg : 10 < page) (hs : 10 ≤ slabSize) :
    ∃ lg, Logger.new slabSize page = .ok lg ∧ Inv lg [[]] (fun _ => none) ∧
      lg.pageSize = page ∧ lg.slabSize = slabSize := by
  have hm := enc_mainHeader_le (mainHd page)
  unfold Logger.new
  simp only
  have e : (⟨0xB4, 0xA5, 0x50, 0xFF, UInt16.ofNat page, UInt16.ofNat page⟩ : MainHeader) =
    mainHd page := rfl
  rw [e, if_neg (by omega), if_neg (by omega)]
  refine ⟨_, rfl, ?_, rfl, rfl⟩
  have hlen : (writeAt (List.replicate slabSize (0 : UInt8)) 0 (enc (mainHd page))).length = slabSize := by
    rw [length_writeAt (by simp; omega)]; simp
  have hp : 0 < page := by omega
  refine ⟨hp, rfl, rfl, by simp [Logger.live], ?_, ?_, by simp, ?_, by show (enc (mainHd page)).length < page; omega, ?_, by simp, by simp,
    by simp⟩
  · intro k file secs _ h2
    have : secs = [] := by
      have h := (List.getElem?_eq_some_iff.1 h2)
      obtain ⟨h1, h2⟩ := h
      simp at h1; subst h1; simpa using h2.symm
    subst this; trivial
  · intro sl hsl file secs h1 h2
    have e : sl = ⟨0, page, [], 0⟩ := by simpa [Logger.live, newSlab] using hsl
    subst e
    simp at h1 h2
    subst h1 h2
    refine ⟨hlen, rfl, Nat.zero_le _, by simp, ?_, ?_, ?_⟩
    · have := align_mul hp 1
      simpa [endOf, startOf] using this
    · simp [lastEnd, startOf]
    · intro a n ha hn
      have ha : page ≤ a := ha
      have hn : a + n ≤ slabSize := by rw [← hlen]; exact hn
      show slice (writeAt (List.replicate slabSize 0) 0 (enc (mainHd page))) a n = _
      rw [slice_writeAt_after (by simp; omega) (by omega)]
      exact slice_replicate (by simpa using hn)
  · intro k file secs h1 h2 hn
    exfalso
    have := (List.getElem?_eq_some_iff.1 h2).1
    simp at this; subst this
    exact hn ⟨0, page, [], 0⟩ (by simp [Logger.live, newSlab]) rfl
  · intro file h1
    simp at h1
    subst h1
    exact slice_writeAt_self (by simp)

end ULog
end Verif
