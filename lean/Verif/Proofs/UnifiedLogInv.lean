import Verif.Proofs.UnifiedLogLayout
/-! The invariant of the write side of the unified log, and its preservation. -/
namespace Verif
namespace ULog
open Bincode

/-- A slab that is still mapped. -/
structure SlabOk (page slabSize start : Nat) (sl : Slab) (file : Bytes) (secs : List Sec) : Prop where
  len : file.length = slabSize
  inFlight : sl.inFlight = openOffs page start secs
  flushed_cgp : sl.flushed ≤ sl.cgp
  flushed_open : ∀ o ∈ sl.inFlight, sl.flushed ≤ o
  cgp : align page sl.cgp = endOf page start secs
  last : lastEnd page start secs ≤ sl.cgp
  tail : ∀ a n, endOf page start secs ≤ a → a + n ≤ file.length →
    slice file a n = List.replicate n 0

def Logger.live (lg : Logger) : List Slab := lg.back ++ [lg.front]

/-- The section a handle writes to. -/
structure Owns (page : Nat) (lay : List (List Sec)) (i : Nat) (h : Handle) (pre : List Sec)
    (s : Sec) (post : List Sec) : Prop where
  at_ : lay[h.slab]? = some (pre ++ s :: post)
  owner : s.owner = some i
  off : h.off = endOf page (startOf page h.slab) pre
  req : h.req = s.req
  header : h.header = mkHeader s.et (UInt32.ofNat (align page s.req)) 0
  used : h.used = s.data.length

/-- The header at the beginning of the first slab. -/
def mainHd (page : Nat) : MainHeader :=
  ⟨0xB4, 0xA5, 0x50, 0xFF, UInt16.ofNat page, UInt16.ofNat page⟩

/-- What holds of the logger at all times.  `lay` lists the sections of each slab, `own` the
handles given out and not closed yet. -/
structure Inv (lg : Logger) (lay : List (List Sec)) (own : Nat → Option Handle) : Prop where
  page_pos : 0 < lg.pageSize
  files_len : lg.files.length = lay.length
  front_suffix : lg.front.suffix + 1 = lay.length
  sorted : (lg.live.map Slab.suffix).Pairwise (· < ·)
  secs : ∀ (k : Nat) file secs, lg.files[k]? = some file → lay[k]? = some secs →
    SecsOk lg.pageSize file (startOf lg.pageSize k) secs
  live : ∀ sl ∈ lg.live, ∀ file secs, lg.files[sl.suffix]? = some file → lay[sl.suffix]? = some secs →
    SlabOk lg.pageSize lg.slabSize (startOf lg.pageSize sl.suffix) sl file secs
  back : ∀ sl ∈ lg.back, ∀ secs, lay[sl.suffix]? = some secs →
    sl.cgp = endOf lg.pageSize (startOf lg.pageSize sl.suffix) secs
  trimmed : ∀ (k : Nat) file secs, lg.files[k]? = some file → lay[k]? = some secs →
    (∀ sl ∈ lg.live, sl.suffix ≠ k) →
    openOffs lg.pageSize (startOf lg.pageSize k) secs = [] ∧
      file.length = endOf lg.pageSize (startOf lg.pageSize k) secs
  main : (enc (mainHd lg.pageSize)).length < lg.pageSize
  main_at : ∀ file, lg.files[0]? = some file →
    slice file 0 (enc (mainHd lg.pageSize)).length = enc (mainHd lg.pageSize)
  owns : ∀ i h, own i = some h → ∃ pre s post, Owns lg.pageSize lay i h pre s post
  own_conv : ∀ s ∈ lay.flatten, ∀ i, s.owner = some i → ∃ h, own i = some h
  uniq : (lay.flatten.filterMap Sec.owner).Nodup

theorem Inv.lookup {lg : Logger} {lay : List (List Sec)} {own : Nat → Option Handle}
    (hi : Inv lg lay own) {k : Nat} {secs : List Sec} (h : lay[k]? = some secs) :
    ∃ file, lg.files[k]? = some file := by
  have hk := (List.getElem?_eq_some_iff.1 h).1
  exact ⟨_, List.getElem?_eq_getElem (by rw [hi.files_len]; exact hk)⟩

theorem Inv.suffix_lt {lg : Logger} {lay : List (List Sec)} {own : Nat → Option Handle}
    (hi : Inv lg lay own) {sl : Slab} (h : sl ∈ lg.live) : sl.suffix < lay.length := by
  have hs := hi.sorted
  unfold Logger.live at hs h
  rw [List.map_append, List.pairwise_append] at hs
  rw [← hi.front_suffix]
  rcases List.mem_append.1 h with h | h
  · have := hs.2.2 sl.suffix (List.mem_map_of_mem h) lg.front.suffix (by simp)
    omega
  · simp at h; subst h; omega

theorem Inv.front_at {lg : Logger} {lay : List (List Sec)} {own : Nat → Option Handle}
    (hi : Inv lg lay own) : ∃ file secs, lg.files[lg.front.suffix]? = some file ∧
      lay[lg.front.suffix]? = some secs := by
  have h1 := hi.front_suffix
  have h2 := hi.files_len
  exact ⟨_, _, List.getElem?_eq_getElem (by omega), List.getElem?_eq_getElem (by omega)⟩

theorem Inv.slab_at {lg : Logger} {lay : List (List Sec)} {own : Nat → Option Handle}
    (hi : Inv lg lay own) {sl : Slab} (h : sl ∈ lg.live) :
    ∃ file secs, lg.files[sl.suffix]? = some file ∧ lay[sl.suffix]? = some secs := by
  have h1 := hi.suffix_lt h
  have h2 := hi.files_len
  exact ⟨_, _, List.getElem?_eq_getElem (by omega), List.getElem?_eq_getElem (by omega)⟩

/-- Slabs still mapped are distinct. -/
theorem Inv.live_inj {lg : Logger} {lay : List (List Sec)} {own : Nat → Option Handle}
    (hi : Inv lg lay own) {a b : Slab} (ha : a ∈ lg.live) (hb : b ∈ lg.live)
    (h : a.suffix = b.suffix) : a = b := by
  have hs := hi.sorted
  generalize lg.live = l at *
  induction l with
  | nil => simp at ha
  | cons x l ih =>
    rw [List.map_cons, List.pairwise_cons] at hs
    rcases List.mem_cons.1 ha with rfl | ha' <;> rcases List.mem_cons.1 hb with rfl | hb'
    · rfl
    · have := hs.1 b.suffix (List.mem_map_of_mem hb'); omega
    · have := hs.1 a.suffix (List.mem_map_of_mem ha'); omega
    · exact ih ha' hb' hs.2

/-- The slab of an open section is still mapped. -/
theorem Inv.owner_live {lg : Logger} {lay : List (List Sec)} {own : Nat → Option Handle}
    (hi : Inv lg lay own) {i : Nat} {h : Handle} (ho : own i = some h) :
    ∃ sl ∈ lg.live, sl.suffix = h.slab := by
  obtain ⟨pre, s, post, w⟩ := hi.owns i h ho
  apply Classical.byContradiction
  intro hn
  obtain ⟨file, hf⟩ := hi.lookup w.at_
  have := (hi.trimmed h.slab file _ hf w.at_ (fun sl hsl e => hn ⟨sl, hsl, e⟩)).1
  rw [openOffs_append] at this
  simp [openOffs, w.owner] at this

end ULog
end Verif
