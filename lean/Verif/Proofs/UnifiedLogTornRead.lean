import Verif.Proofs.UnifiedLogUse
/-! Reading sections of which only what the reader sees is known. -/
namespace Verif
namespace ULog
open Bincode

/-- A reader at `off` finds a section with the type and the size of `s` and the content `s.data`. -/
structure SecR (page : Nat) (file : Bytes) (off : Nat) (s : Sec) : Prop where
  req : 15 ≤ s.req
  inside : off + s.req ≤ file.length
  found : ∃ h rest, (dec : Dec SectionHeader) (file.drop off) = .ok (h, rest) ∧ h.magicOk = true ∧
    h.entryType = s.et ∧ h.sectionSize.toNat = align page s.req ∧
    off + 15 + h.filledSize.toNat ≤ file.length ∧ slice file (off + 15) h.filledSize.toNat = s.data

def SecsR (page : Nat) (file : Bytes) : Nat → List Sec → Prop
  | _, [] => True
  | off, s :: l => SecR page file off s ∧ SecsR page file (off + align page s.req) l

theorem secsR_append (page : Nat) (file : Bytes) (off : Nat) (a b : List Sec) :
    SecsR page file off (a ++ b) ↔ SecsR page file off a ∧ SecsR page file (endOf page off a) b := by
  induction a generalizing off with
  | nil => simp [SecsR, endOf]
  | cons s a ih => simp [SecsR, endOf, ih, and_assoc]

structure HoldsR (page : Nat) (files : List Bytes) (lay : List (List Sec)) : Prop where
  page_pos : 0 < page
  page_max : page < 65536
  len : lay.length ≤ files.length
  pos : 0 < lay.length
  secs : ∀ (k : Nat) file secs, files[k]? = some file → lay[k]? = some secs →
    SecsR page file (startOf page k) secs
  cut : ∀ (k : Nat) file secs, files[k]? = some file → lay[k]? = some secs → k + 1 < lay.length →
    file.length = endOf page (startOf page k) secs
  main_at : ∀ file, files[0]? = some file →
    slice file 0 (enc (mainHd page)).length = enc (mainHd page)
  nonempty : NonEmpty lay

variable {page : Nat} {files : List Bytes} {lay : List (List Sec)}

theorem HoldsR.lookup (hh : HoldsR page files lay) {k : Nat} {secs : List Sec}
    (h : lay[k]? = some secs) : ∃ file, files[k]? = some file := by
  have hk := (List.getElem?_eq_some_iff.1 h).1
  have := hh.len
  exact ⟨_, List.getElem?_eq_getElem (by omega)⟩

theorem reader_newR (hh : HoldsR page files lay) :
    ∃ r, Reader.new files = .ok r ∧ At page lay r lay.flatten := by
  have hp := hh.pos
  obtain ⟨secs, hl⟩ : ∃ secs, lay[0]? = some secs := ⟨_, List.getElem?_eq_getElem hp⟩
  obtain ⟨file, hf⟩ := hh.lookup hl
  obtain ⟨rest, hr⟩ := slice_prefix (hh.main_at file hf)
  have hd : (dec : Dec MainHeader) file = .ok (mainHd page, rest) := by
    have : file = enc (mainHd page) ++ rest := by simpa using hr
    rw [this]; exact rt_mainHeader _ _
  have hmx := hh.page_max
  have hpg : (mainHd page).firstSectionOffset.toNat = page := by
    show (UInt16.ofNat page).toNat = page
    rw [UInt16.toNat_ofNat']; exact Nat.mod_eq_of_lt hmx
  refine ⟨⟨0, page⟩, ?_, [], secs, by simpa using hl, by simp [endOf, startOf], ?_⟩
  · unfold Reader.new openSlab
    rw [hf]
    simp only [if_true]
    rw [hd]
    simp only [hpg]
    have : (mainHd page).magicOk = true := rfl
    rw [this]; rfl
  · cases lay with
    | nil => simp at hp
    | cons a l =>
      have e : a = secs := by simpa using hl
      rw [e]; simp

/-- In front of a section: the loop finds a header and can read the content. -/
theorem at_stepR (hh : HoldsR page files lay) {r : Reader} {s : Sec} {todo : List Sec}
    (ha : At page lay r (s :: todo)) :
    ∃ r' h, r.advance files = .ok r' ∧ readHeader files r' = .ok h ∧
      readContent files r' h = .ok s.data ∧ h.entryType = s.et ∧
      At page lay ⟨r'.slab, r'.pos + h.sectionSize.toNat⟩ todo := by
  have main : ∀ (k : Nat) (pre rest : List Sec), lay[k]? = some (pre ++ s :: rest) →
      todo = rest ++ (lay.drop (k + 1)).flatten →
      ∃ (r' : Reader) (h : SectionHeader), (∃ file, files[k]? = some file ∧
        endOf page (startOf page k) pre < file.length) ∧ r' = ⟨k, endOf page (startOf page k) pre⟩ ∧
        readHeader files r' = .ok h ∧
        readContent files r' h = .ok s.data ∧
        h.entryType = s.et ∧
        At page lay ⟨r'.slab, r'.pos + h.sectionSize.toNat⟩ todo := by
    intro k pre rest hl htodo
    obtain ⟨file, hf⟩ := hh.lookup hl
    have hs := hh.secs k file _ hf hl
    have hso := ((secsR_append _ _ _ _ _).1 hs).2.1
    have h1 := hso.inside
    have h2 := hso.req
    obtain ⟨h, rest', hdec, hmag, het, hss, hin, hdata⟩ := hso.found
    refine ⟨_, h, ⟨file, hf, by omega⟩, rfl, ?_, ?_, het, ?_⟩
    · unfold readHeader
      simp only [hf]
      rw [if_neg (by omega), hdec]
      simp only [hmag, if_true]
    · unfold readContent
      simp only [hf]
      rw [if_neg (by show ¬ file.length < _ + 15 + _; omega)]
      congr 1
    · refine ⟨pre ++ [s], rest, ?_, ?_, htodo⟩
      · simpa using hl
      · rw [endOf_append, hss]; rfl
  obtain ⟨pre, rest, hl, hpos, htodo⟩ := ha
  cases rest with
  | cons s' rest =>
    simp only [List.cons_append, List.cons.injEq] at htodo
    obtain ⟨rfl, htodo⟩ := htodo
    obtain ⟨r', h, ⟨file, hf, hlt⟩, rfl, h1, h2, h3, h4⟩ := main r.slab pre rest hl htodo
    refine ⟨⟨r.slab, endOf page (startOf page r.slab) pre⟩, h, ?_, h1, h2, h3, h4⟩
    unfold Reader.advance
    rw [hf]
    simp only
    rw [if_neg (by omega), ← hpos]
  | nil =>
    simp only [List.nil_append] at htodo
    obtain ⟨file, hf⟩ := hh.lookup hl
    have hnext : ∃ rest, lay[r.slab + 1]? = some (s :: rest) ∧
        todo = rest ++ (lay.drop (r.slab + 1 + 1)).flatten := by
      cases hd : lay.drop (r.slab + 1) with
      | nil => rw [hd] at htodo; simp at htodo
      | cons a l =>
        have hk : r.slab + 1 < lay.length := by
          have := congrArg List.length hd
          simp at this; omega
        have h1 : lay[r.slab + 1]? = some a := by
          rw [List.getElem?_eq_getElem hk]
          rw [List.drop_eq_getElem_cons hk] at hd
          rw [(List.cons.inj hd).1]
        have h2 : lay.drop (r.slab + 1 + 1) = l := by
          rw [List.drop_eq_getElem_cons hk] at hd
          exact (List.cons.inj hd).2
        have ha : a ≠ [] := by
          rintro rfl
          exact hh.nonempty (r.slab + 1) (by omega) h1
        cases a with
        | nil => exact absurd rfl ha
        | cons x xs =>
          rw [hd] at htodo
          simp only [List.flatten_cons, List.cons_append, List.cons.injEq] at htodo
          obtain ⟨rfl, ht⟩ := htodo
          exact ⟨xs, h1, by rw [h2]; exact ht⟩
    obtain ⟨rest, hl', htodo'⟩ := hnext
    have hcut := hh.cut r.slab file _ hf hl (by
      have := (List.getElem?_eq_some_iff.1 hl').1; omega)
    rw [List.append_nil] at hcut
    obtain ⟨r', h, ⟨file', hf', hlt⟩, rfl, h1, h2, h3, h4⟩ := main (r.slab + 1) [] rest hl' htodo'
    refine ⟨_, h, ?_, h1, h2, h3, h4⟩
    unfold Reader.advance
    rw [hf]
    simp only
    rw [if_pos (by omega)]
    unfold openSlab
    rw [hf']
    simp [startOf, endOf]

/-- The next section of a type. -/
theorem readNext_someR (hh : HoldsR page files lay) {t : EntryType} (ht : t ≠ .lastEntry)
    {A B : List Sec} {s : Sec} (hA : ∀ a ∈ A, a.et ≠ t ∧ a.et ≠ .lastEntry) (hs : s.et = t)
    {r : Reader} (ha : At page lay r (A ++ s :: B)) {fuel : Nat} (hf : A.length < fuel) :
    ∃ r', readNext files t fuel r = .ok (some s.data, r') ∧ At page lay r' B := by
  induction A generalizing r fuel with
  | nil =>
    obtain ⟨fuel, rfl⟩ : ∃ f, fuel = f + 1 := ⟨fuel - 1, by simp at hf; omega⟩
    obtain ⟨r', h, h1, h2, h3, h4, h5⟩ := at_stepR hh ha
    refine ⟨_, ?_, h5⟩
    unfold readNext
    simp only [h1, h2, h4, hs]
    rw [if_neg ht]
    simp only [if_true, h3]
  | cons a A ih =>
    obtain ⟨fuel, rfl⟩ : ∃ f, fuel = f + 1 := ⟨fuel - 1, by simp at hf; omega⟩
    obtain ⟨r', h, h1, h2, h3, h4, h5⟩ := at_stepR hh ha
    have hA' := hA a (by simp)
    obtain ⟨r'', h6, h7⟩ := ih (fun x hx => hA x (by simp [hx])) h5 (fuel := fuel)
      (by simp at hf; omega)
    refine ⟨r'', ?_, h7⟩
    unfold readNext
    simp only [h1, h2, h4]
    rw [if_neg hA'.2, if_neg hA'.1]
    exact h6

theorem SecsR.count {file : Bytes} {off : Nat} {l : List Sec} (hp : 0 < page)
    (h : SecsR page file off l) : l ≠ [] → off + l.length ≤ file.length := by
  induction l generalizing off with
  | nil => intro h; exact absurd rfl h
  | cons s l ih =>
    intro _
    have h1 := h.1.req
    have h2 := align_le hp s.req
    have h3 := h.1.inside
    cases l with
    | nil => simp; omega
    | cons s' l =>
      have := ih h.2 (by simp)
      simp only [List.length_cons] at *
      omega

theorem holdsR_fuel (hh : HoldsR page files lay) : lay.flatten.length < readFuel files := by
  have := flatten_length_le hh.len (fun k file secs h1 h2 => by
    have hs := hh.secs k file secs h1 h2
    by_cases hne : secs = []
    · subst hne; simp
    · have := hs.count hh.page_pos hne
      omega)
  unfold readFuel
  omega

theorem readSome_specR (hh : HoldsR page files lay) {t : EntryType} (ht : t ≠ .lastEntry)
    {L B : List Sec} (hL : ∀ s ∈ L, s.et ≠ .lastEntry)
    {r : Reader} (ha : At page lay r (L ++ B)) (hfuel : L.length < readFuel files) :
    readSome files t (L.filter (·.et == t)).length r =
      .ok ((L.filter (·.et == t)).map Sec.data) := by
  generalize hn : (L.filter (·.et == t)).length = n
  induction n generalizing L r with
  | zero =>
    have : L.filter (·.et == t) = [] := List.eq_nil_of_length_eq_zero hn
    simp [readSome, this]
  | succ n ih =>
    obtain ⟨A, s, C, rfl, hs, hA⟩ : ∃ A s C, L = A ++ s :: C ∧ s.et = t ∧ ∀ a ∈ A, a.et ≠ t := by
      clear ih ha hfuel hL
      induction L with
      | nil => simp at hn
      | cons x L ih =>
        by_cases hx : x.et = t
        · exact ⟨[], x, L, rfl, hx, by simp⟩
        · obtain ⟨A, s, C, rfl, h1, h2⟩ := ih (by
            rw [List.filter_cons_of_neg (by simpa using hx)] at hn; exact hn)
          refine ⟨x :: A, s, C, rfl, h1, ?_⟩
          intro a ha
          rcases List.mem_cons.1 ha with rfl | ha
          · exact hx
          · exact h2 a ha
    have hAf : A.filter (·.et == t) = [] := List.filter_eq_nil_iff.2 (by
      intro a ha; simpa using hA a ha)
    rw [List.append_assoc] at ha
    obtain ⟨r', h1, h2⟩ := readNext_someR hh ht (A := A) (s := s) (B := C ++ B)
      (fun a ha => ⟨hA a ha, hL a (by simp [ha])⟩) hs ha (fuel := readFuel files)
      (by simp at hfuel; omega)
    rw [List.filter_append, hAf, List.filter_cons_of_pos (by simpa using hs)] at hn ⊢
    simp only [List.nil_append, List.length_cons, Nat.add_right_cancel_iff] at hn
    have := ih (L := C) (r := r') (fun s hs => hL s (by simp [hs])) h2
      (by simp at hfuel; omega) hn
    simp only [readSome, h1, this, List.nil_append, List.map_cons]

end ULog
end Verif
