import Verif.Proofs.UnifiedLogBytes
/-! The layout of a slab file: which sections it holds and where. -/
namespace Verif
namespace ULog
open Bincode

/-- A section of a slab: the size asked for, its type, the data logged in it so far and the
handle that still writes to it, if any. -/
structure Sec where
  req : Nat
  et : EntryType
  data : Bytes
  owner : Option Nat
  deriving DecidableEq, Repr

/-- `filled_size` of the header in the file. -/
def Sec.filled (s : Sec) : Nat :=
  if s.owner.isSome ∨ s.et = .empty then 0 else s.data.length

def Sec.header (page : Nat) (s : Sec) : SectionHeader :=
  mkHeader s.et (UInt32.ofNat (align page s.req)) (UInt32.ofNat s.filled)

/-- First section of a slab: the first one begins with the main header. -/
def startOf (page slab : Nat) : Nat := if slab = 0 then page else 0

/-- Where the section after the given ones goes. -/
def endOf (page : Nat) : Nat → List Sec → Nat
  | off, [] => off
  | off, s :: l => endOf page (off + align page s.req) l

/-- End of the buffer of the last section. -/
def lastEnd (page : Nat) : Nat → List Sec → Nat
  | off, [] => off
  | off, [s] => off + s.req
  | off, s :: s' :: l => lastEnd page (off + align page s.req) (s' :: l)

/-- Offsets of the open sections. -/
def openOffs (page : Nat) : Nat → List Sec → List Nat
  | _, [] => []
  | off, s :: l =>
    (if s.owner.isSome then [off] else []) ++ openOffs page (off + align page s.req) l

structure SecOk (page : Nat) (file : Bytes) (off : Nat) (s : Sec) : Prop where
  req : 15 ≤ s.req
  size : align page s.req < 4294967296
  inside : off + s.req ≤ file.length
  room : 15 + s.data.length ≤ s.req
  header : slice file off (enc (s.header page)).length = enc (s.header page)
  data : slice file (off + 15) s.data.length = s.data
  gap : s.owner.isSome → slice file (off + (enc (s.header page)).length)
    (15 - (enc (s.header page)).length) = List.replicate (15 - (enc (s.header page)).length) 0

def SecsOk (page : Nat) (file : Bytes) : Nat → List Sec → Prop
  | _, [] => True
  | off, s :: l => SecOk page file off s ∧ SecsOk page file (off + align page s.req) l

theorem endOf_append (page off : Nat) (a b : List Sec) :
    endOf page off (a ++ b) = endOf page (endOf page off a) b := by
  induction a generalizing off with
  | nil => rfl
  | cons s a ih => simp [endOf, ih]

theorem openOffs_append (page off : Nat) (a b : List Sec) :
    openOffs page off (a ++ b) = openOffs page off a ++ openOffs page (endOf page off a) b := by
  induction a generalizing off with
  | nil => rfl
  | cons s a ih => simp [openOffs, endOf, ih]

theorem secsOk_append (page : Nat) (file : Bytes) (off : Nat) (a b : List Sec) :
    SecsOk page file off (a ++ b) ↔
      SecsOk page file off a ∧ SecsOk page file (endOf page off a) b := by
  induction a generalizing off with
  | nil => simp [SecsOk, endOf]
  | cons s a ih => simp [SecsOk, endOf, ih, and_assoc]

theorem le_endOf (page off : Nat) (l : List Sec) : off ≤ endOf page off l := by
  induction l generalizing off with
  | nil => exact Nat.le_refl _
  | cons s l ih => exact Nat.le_trans (Nat.le_add_right _ _) (ih _)

theorem le_lastEnd {page : Nat} (off : Nat) (l : List Sec) : off ≤ lastEnd page off l := by
  induction l generalizing off with
  | nil => exact Nat.le_refl _
  | cons s l ih =>
    cases l with
    | nil => exact Nat.le_add_right _ _
    | cons s' l => exact Nat.le_trans (Nat.le_add_right _ _) (ih _)

theorem lastEnd_le_endOf {page : Nat} (hp : 0 < page) (off : Nat) (l : List Sec) :
    lastEnd page off l ≤ endOf page off l := by
  induction l generalizing off with
  | nil => exact Nat.le_refl _
  | cons s l ih =>
    cases l with
    | nil => have := align_le hp s.req; simp [lastEnd, endOf]; omega
    | cons s' l => exact ih _

theorem endOf_dvd {page off : Nat} (ho : page ∣ off) (l : List Sec) : page ∣ endOf page off l := by
  induction l generalizing off with
  | nil => exact ho
  | cons s l ih => exact ih (Nat.dvd_add ho (align_dvd _ _))

theorem startOf_dvd (page slab : Nat) : page ∣ startOf page slab := by
  unfold startOf; split
  · exact Nat.dvd_refl _
  · exact Nat.dvd_zero _

theorem lastEnd_append_singleton (page off : Nat) (l : List Sec) (s : Sec) :
    lastEnd page off (l ++ [s]) = endOf page off l + s.req := by
  induction l generalizing off with
  | nil => rfl
  | cons x l ih =>
    cases l with
    | nil => rfl
    | cons y l => exact ih _

/-- Each section ends before the end. -/
theorem end_le_lastEnd {page : Nat} (hp : 0 < page) (off : Nat) (pre : List Sec) (s : Sec)
    (post : List Sec) : endOf page off pre + s.req ≤ lastEnd page off (pre ++ s :: post) := by
  induction pre generalizing off with
  | nil =>
    cases post with
    | nil => exact Nat.le_refl _
    | cons x l =>
      have := align_le hp s.req
      have := le_lastEnd (page := page) (off + align page s.req) (x :: l)
      simp [endOf, lastEnd]; omega
  | cons x pre ih =>
    have h : ∃ y l, pre ++ s :: post = y :: l := by cases pre <;> simp
    obtain ⟨y, l, e⟩ := h
    have := ih (off + align page x.req)
    simp only [List.cons_append, e, endOf, lastEnd] at *
    exact this

theorem end_le_endOf {page : Nat} (hp : 0 < page) (off : Nat) (pre : List Sec) (s : Sec)
    (post : List Sec) : endOf page off pre + s.req ≤ endOf page off (pre ++ s :: post) := by
  have h1 := end_le_lastEnd hp off pre s post
  have h2 := lastEnd_le_endOf hp off (pre ++ s :: post)
  omega

theorem SecOk.congr {page : Nat} {file file' : Bytes} {off : Nat} {s : Sec}
    (h : SecOk page file off s)
    (hs : ∀ a n, off ≤ a → a + n ≤ off + s.req → slice file' a n = slice file a n)
    (hl : off + s.req ≤ file'.length) : SecOk page file' off s := by
  have hh := enc_header_le (s.header page)
  have h1 := h.req
  have h2 := h.room
  refine ⟨h1, h.size, hl, h2, ?_, ?_, fun ho => ?_⟩
  · rw [hs _ _ (Nat.le_refl _) (by omega)]; exact h.header
  · rw [hs _ _ (by omega) (by omega)]; exact h.data
  · rw [hs _ _ (by omega) (by omega)]; exact h.gap ho

theorem SecsOk.congr {page : Nat} (hp : 0 < page) {file file' : Bytes} {off : Nat} {l : List Sec}
    (h : SecsOk page file off l)
    (hs : ∀ a n, off ≤ a → a + n ≤ lastEnd page off l → slice file' a n = slice file a n)
    (hl : l ≠ [] → lastEnd page off l ≤ file'.length) : SecsOk page file' off l := by
  induction l generalizing off with
  | nil => trivial
  | cons s l ih =>
    have hle := end_le_lastEnd hp off [] s l
    have hl := hl (by simp)
    refine ⟨h.1.congr (fun a n ha hn => hs a n ha ?_) ?_, ?_⟩
    · exact Nat.le_trans hn hle
    · exact Nat.le_trans hle hl
    · cases l with
      | nil => trivial
      | cons s' l =>
        refine ih h.2 (fun a n ha hn => hs a n (by omega) hn) (fun _ => hl)

theorem SecsOk.lastEnd_le {page : Nat} {file : Bytes} {off : Nat} {l : List Sec}
    (h : SecsOk page file off l) (hl : l ≠ []) : lastEnd page off l ≤ file.length := by
  induction l generalizing off with
  | nil => exact absurd rfl hl
  | cons s l ih =>
    cases l with
    | nil => exact h.1.inside
    | cons s' l => exact ih h.2 (by simp)

/-- Writing inside one section leaves the others alone. -/
theorem SecsOk.update {page : Nat} (hp : 0 < page) {file d : Bytes} {off o : Nat}
    {pre post : List Sec} {s s' : Sec} (h : SecsOk page file off (pre ++ s :: post))
    (ho : endOf page off pre ≤ o) (hd : o + d.length ≤ endOf page off pre + s.req)
    (hreq : s'.req = s.req)
    (hs' : SecOk page (writeAt file o d) (endOf page off pre) s') :
    SecsOk page (writeAt file o d) off (pre ++ s' :: post) := by
  rw [secsOk_append] at h ⊢
  have hin := h.2.1.inside
  have hlen : (writeAt file o d).length = file.length := length_writeAt (by omega)
  refine ⟨?_, ?_⟩
  · refine h.1.congr hp (fun a n _ hn => ?_) (fun hne => by rw [hlen]; exact h.1.lastEnd_le hne)
    have := lastEnd_le_endOf hp off pre
    exact slice_writeAt_before (by omega) (by omega)
  · refine ⟨hs', ?_⟩
    rw [hreq]
    refine h.2.2.congr hp (fun a n ha _ => ?_)
      (fun hne => by rw [hlen]; exact h.2.2.lastEnd_le hne)
    have := align_le hp s.req
    exact slice_writeAt_after (by omega) (by omega)

theorem SecsOk.append_new {page : Nat} (hp : 0 < page) {file d : Bytes} {off : Nat}
    {l : List Sec} {s : Sec} (h : SecsOk page file off l)
    (hd : endOf page off l + d.length ≤ file.length)
    (hs : SecOk page (writeAt file (endOf page off l) d) (endOf page off l) s) :
    SecsOk page (writeAt file (endOf page off l) d) off (l ++ [s]) := by
  rw [secsOk_append]
  have hlen := length_writeAt hd
  refine ⟨?_, hs, trivial⟩
  refine h.congr hp (fun a n _ hn => ?_) (fun hne => by rw [hlen]; exact h.lastEnd_le hne)
  have := lastEnd_le_endOf hp off l
  exact slice_writeAt_before (by omega) (by omega)

theorem openOffs_bounds {page : Nat} (hp : 0 < page) {file : Bytes} {off : Nat} {l : List Sec}
    (h : SecsOk page file off l) {o : Nat} (ho : o ∈ openOffs page off l) :
    off ≤ o ∧ o < endOf page off l := by
  induction l generalizing off with
  | nil => simp [openOffs] at ho
  | cons s l ih =>
    have h1 := align_le hp s.req
    have h2 := h.1.req
    have h3 := le_endOf page (off + align page s.req) l
    simp only [openOffs, List.mem_append] at ho
    rcases ho with ho | ho
    · split at ho
      · simp at ho; subst ho
        refine ⟨Nat.le_refl _, ?_⟩
        simp only [endOf]; omega
      · simp at ho
    · have := ih h.2 ho
      simp only [endOf]; omega

theorem openOffs_le_lastEnd {page : Nat} (hp : 0 < page) {off : Nat} {l : List Sec} {o : Nat}
    (ho : o ∈ openOffs page off l) : o ≤ lastEnd page off l := by
  induction l generalizing off with
  | nil => simp [openOffs] at ho
  | cons s l ih =>
    simp only [openOffs, List.mem_append] at ho
    rcases ho with ho | ho
    · split at ho
      · simp at ho; subst ho
        exact le_lastEnd _ _
      · simp at ho
    · cases l with
      | nil => simp [openOffs] at ho
      | cons s' l => exact ih ho

/-- Removing the offset of a section from the open ones is closing that section. -/
theorem openOffs_filter {page : Nat} (hp : 0 < page) {file : Bytes} {off : Nat}
    {pre post : List Sec} {s s' : Sec} (h : SecsOk page file off (pre ++ s :: post))
    (hreq : s'.req = s.req) (hown : s'.owner = none) :
    (openOffs page off (pre ++ s :: post)).filter (· != endOf page off pre) =
      openOffs page off (pre ++ s' :: post) := by
  rw [secsOk_append] at h
  rw [openOffs_append, openOffs_append, List.filter_append]
  congr 1
  · apply List.filter_eq_self.2
    intro o ho
    have := openOffs_bounds hp h.1 ho
    simp; omega
  · simp only [openOffs, hown, hreq, List.filter_append]
    have e : (openOffs page (endOf page off pre + align page s.req) post).filter
        (· != endOf page off pre) = openOffs page (endOf page off pre + align page s.req) post := by
      apply List.filter_eq_self.2
      intro o ho
      have := openOffs_bounds hp h.2.2 ho
      have := h.2.1.req
      have := align_le hp s.req
      simp; omega
    rw [e]
    split <;> simp

theorem openOffs_update {page off : Nat} {pre post : List Sec} {s s' : Sec}
    (hreq : s'.req = s.req) (hown : s'.owner.isSome = s.owner.isSome) :
    openOffs page off (pre ++ s' :: post) = openOffs page off (pre ++ s :: post) := by
  rw [openOffs_append, openOffs_append]
  simp only [openOffs, hown, hreq]

theorem endOf_update {page off : Nat} {pre post : List Sec} {s s' : Sec}
    (hreq : s'.req = s.req) :
    endOf page off (pre ++ s' :: post) = endOf page off (pre ++ s :: post) := by
  rw [endOf_append, endOf_append]
  simp only [endOf, hreq]

theorem lastEnd_update {page : Nat} {pre post : List Sec} {s s' : Sec}
    (hreq : s'.req = s.req) (off : Nat) :
    lastEnd page off (pre ++ s' :: post) = lastEnd page off (pre ++ s :: post) := by
  induction pre generalizing off with
  | nil => cases post <;> simp [lastEnd, hreq]
  | cons x pre ih =>
    cases pre with
    | nil => have := ih (off + align page x.req); simpa [lastEnd] using this
    | cons y pre => have := ih (off + align page x.req); simpa [lastEnd] using this

/-- The sorted list of open offsets begins with the smallest one. -/
theorem openOffs_sorted {page : Nat} (hp : 0 < page) {file : Bytes} {off : Nat} {l : List Sec}
    (h : SecsOk page file off l) : (openOffs page off l).Pairwise (· < ·) := by
  induction l generalizing off with
  | nil => exact List.Pairwise.nil
  | cons s l ih =>
    have h1 := align_le hp s.req
    have h2 := h.1.req
    simp only [openOffs]
    split
    · refine List.Pairwise.cons (fun o ho => ?_) (ih h.2)
      have := openOffs_bounds hp h.2 ho
      omega
    · exact ih h.2

/-- Sizes asked for, slab by slab. -/
def shape (lay : List (List Sec)) : List (List Nat) := lay.map (List.map Sec.req)

/-- Slab, offset and size of sections placed one after the other. -/
def cellsFrom (page slab : Nat) : Nat → List Nat → List (Nat × Nat × Nat)
  | _, [] => []
  | off, r :: l => (slab, off, r) :: cellsFrom page slab (off + align page r) l

/-- Slab, offset and size of all sections, in order of allocation. -/
def cells (page : Nat) : Nat → List (List Nat) → List (Nat × Nat × Nat)
  | _, [] => []
  | k, reqs :: sh => cellsFrom page k (startOf page k) reqs ++ cells page (k + 1) sh

theorem cellsFrom_append (page slab off : Nat) (l : List Sec) (r : Nat) :
    cellsFrom page slab off (l.map Sec.req ++ [r]) =
      cellsFrom page slab off (l.map Sec.req) ++ [(slab, endOf page off l, r)] := by
  induction l generalizing off with
  | nil => rfl
  | cons s l ih => simp [cellsFrom, endOf, ih]

theorem cells_append (page k : Nat) (a b : List (List Nat)) :
    cells page k (a ++ b) = cells page k a ++ cells page (k + a.length) b := by
  induction a generalizing k with
  | nil => simp [cells]
  | cons x a ih =>
    simp only [List.cons_append, cells, ih, List.append_assoc, List.length_cons]
    rw [show k + 1 + a.length = k + (a.length + 1) by omega]

theorem cellsFrom_length (page k off : Nat) (l : List Nat) :
    (cellsFrom page k off l).length = l.length := by
  induction l generalizing off with
  | nil => rfl
  | cons x l ih => simp [cellsFrom, ih]

theorem cells_length (page k : Nat) (sh : List (List Nat)) :
    (cells page k sh).length = sh.flatten.length := by
  induction sh generalizing k with
  | nil => rfl
  | cons x l ih => simp [cells, ih, cellsFrom_length]

theorem mem_cellsFrom {page k off : Nat} {l : List Nat} {c : Nat × Nat × Nat}
    (h : c ∈ cellsFrom page k off l) : c.1 = k ∧ off ≤ c.2.1 := by
  induction l generalizing off with
  | nil => simp [cellsFrom] at h
  | cons x l ih =>
    rcases List.mem_cons.1 h with rfl | h
    · exact ⟨rfl, Nat.le_refl _⟩
    · have := ih h
      exact ⟨this.1, by omega⟩

theorem mem_cells {page k : Nat} {sh : List (List Nat)} {c : Nat × Nat × Nat}
    (h : c ∈ cells page k sh) : k ≤ c.1 ∧ c.1 < k + sh.length ∧ startOf page c.1 ≤ c.2.1 := by
  induction sh generalizing k with
  | nil => simp [cells] at h
  | cons x l ih =>
    rcases List.mem_append.1 h with h | h
    · have := mem_cellsFrom h
      rw [this.1]
      exact ⟨Nat.le_refl _, by simp, this.2⟩
    · have := ih h
      simp only [List.length_cons]
      exact ⟨by omega, by omega, this.2.2⟩

/-- Sections of a slab come one after the other. -/
theorem cells_ordered (page k : Nat) (sh : List (List Nat)) :
    (cells page k sh).Pairwise (fun a b => a.1 ≤ b.1 ∧
      (a.1 = b.1 → a.2.1 + align page a.2.2 ≤ b.2.1)) := by
  induction sh generalizing k with
  | nil => exact List.Pairwise.nil
  | cons x l ih =>
    refine List.pairwise_append.2 ⟨?_, ih _, ?_⟩
    · generalize startOf page k = off
      induction x generalizing off with
      | nil => exact List.Pairwise.nil
      | cons r x ih2 =>
        refine List.Pairwise.cons (fun c hc => ?_) (ih2 _)
        have := mem_cellsFrom hc
        exact ⟨by simp [this.1], fun _ => this.2⟩
    · intro a ha b hb
      have h1 := mem_cellsFrom ha
      have h2 := mem_cells hb
      exact ⟨by omega, fun h => by omega⟩

end ULog
end Verif
