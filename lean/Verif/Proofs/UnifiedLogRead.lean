import Verif.Model.UnifiedLogRead
import Verif.Proofs.UnifiedLogAdd
/-! Reading back the sections of a log. -/
namespace Verif
namespace ULog
open Bincode

/-- What a reader gets from a section. -/
def Sec.content (s : Sec) : Bytes := if s.owner.isSome ∨ s.et = .empty then [] else s.data

/-- Files that hold the sections `lay`, all slabs but the last one being cut at their end. -/
structure Holds (page : Nat) (files : List Bytes) (lay : List (List Sec)) : Prop where
  page_pos : 0 < page
  page_max : page < 65536
  len : lay.length ≤ files.length
  pos : 0 < lay.length
  secs : ∀ (k : Nat) file secs, files[k]? = some file → lay[k]? = some secs →
    SecsOk page file (startOf page k) secs
  cut : ∀ (k : Nat) file secs, files[k]? = some file → lay[k]? = some secs → k + 1 < lay.length →
    file.length = endOf page (startOf page k) secs
  main_at : ∀ file, files[0]? = some file →
    slice file 0 (enc (mainHd page)).length = enc (mainHd page)
  nonempty : NonEmpty lay

/-- The reader is in front of the sections `todo`. -/
def At (page : Nat) (lay : List (List Sec)) (r : Reader) (todo : List Sec) : Prop :=
  ∃ pre rest, lay[r.slab]? = some (pre ++ rest) ∧
    r.pos = endOf page (startOf page r.slab) pre ∧ todo = rest ++ (lay.drop (r.slab + 1)).flatten

variable {page : Nat} {files : List Bytes} {lay : List (List Sec)}

theorem Holds.lookup (hh : Holds page files lay) {k : Nat} {secs : List Sec}
    (h : lay[k]? = some secs) : ∃ file, files[k]? = some file := by
  have hk := (List.getElem?_eq_some_iff.1 h).1
  have := hh.len
  exact ⟨_, List.getElem?_eq_getElem (by omega)⟩

theorem reader_new (hh : Holds page files lay) :
    ∃ r, Reader.new files = .ok r ∧ At page lay r lay.flatten := by
  have hp := hh.pos
  obtain ⟨secs, hl⟩ : ∃ secs, lay[0]? = some secs := ⟨_, List.getElem?_eq_getElem hp⟩
  obtain ⟨file, hf⟩ := hh.lookup hl
  obtain ⟨rest, hr⟩ := slice_prefix (hh.main_at file hf)
  have hd : (dec : Dec MainHeader) file = .ok (mainHd page, rest) := by
    have : file = enc (mainHd page) ++ rest := by simpa using hr
    rw [this]; exact rt_mainHeader _ _
  have hmx := hh.page_max
  have hpg : (mainHd page).firstSectionOffset.toNat = page := by
    show (UInt16.ofNat page).toNat = page
    rw [UInt16.toNat_ofNat']; exact Nat.mod_eq_of_lt hmx
  refine ⟨⟨0, page⟩, ?_, [], secs, by simpa using hl, by simp [endOf, startOf], ?_⟩
  · unfold Reader.new openSlab
    rw [hf]
    simp only [if_true]
    rw [hd]
    simp only [hpg]
    have : (mainHd page).magicOk = true := rfl
    rw [this]; rfl
  · cases lay with
    | nil => simp at hp
    | cons a l =>
      have e : a = secs := by simpa using hl
      rw [e]; simp

/-- In front of a section: the loop finds its header and can read its content. -/
theorem at_step (hh : Holds page files lay) {r : Reader} {s : Sec} {todo : List Sec}
    (ha : At page lay r (s :: todo)) :
    ∃ r', r.advance files = .ok r' ∧ readHeader files r' = .ok (s.header page) ∧
      readContent files r' (s.header page) = .ok s.content ∧
      (s.header page).entryType = s.et ∧
      At page lay ⟨r'.slab, r'.pos + (s.header page).sectionSize.toNat⟩ todo := by
  -- with the reader at the section itself
  have main : ∀ (k : Nat) (pre rest : List Sec), lay[k]? = some (pre ++ s :: rest) →
      todo = rest ++ (lay.drop (k + 1)).flatten →
      ∃ r' : Reader, (∃ file, files[k]? = some file ∧
        endOf page (startOf page k) pre < file.length) ∧ r' = ⟨k, endOf page (startOf page k) pre⟩ ∧
        readHeader files r' = .ok (s.header page) ∧
        readContent files r' (s.header page) = .ok s.content ∧
        (s.header page).entryType = s.et ∧
        At page lay ⟨r'.slab, r'.pos + (s.header page).sectionSize.toNat⟩ todo := by
    intro k pre rest hl htodo
    obtain ⟨file, hf⟩ := hh.lookup hl
    have hs := hh.secs k file _ hf hl
    have hso := ((secsOk_append _ _ _ _ _).1 hs).2.1
    have h1 := hso.inside
    have h2 := hso.req
    have h3 := hso.room
    have h4 := hso.size
    have h5 := align_le hh.page_pos s.req
    have hfl : (s.header page).filledSize.toNat = s.filled := by
      show (UInt32.ofNat s.filled).toNat = _
      rw [UInt32.toNat_ofNat']
      apply Nat.mod_eq_of_lt
      unfold Sec.filled; split <;> omega
    have hss : (s.header page).sectionSize.toNat = align page s.req := by
      show (UInt32.ofNat (align page s.req)).toNat = _
      rw [UInt32.toNat_ofNat']
      exact Nat.mod_eq_of_lt h4
    have hfd : s.filled ≤ s.data.length := by unfold Sec.filled; split <;> omega
    refine ⟨_, ⟨file, hf, by omega⟩, rfl, ?_, ?_, rfl, ?_⟩
    · unfold readHeader
      simp only [hf]
      rw [if_neg (by omega)]
      obtain ⟨rest', hr⟩ := slice_prefix hso.header
      rw [hr]
      have := rt_header (s.header page) rest'
      rw [this]
      rfl
    · unfold readContent
      simp only [hf, hfl]
      rw [if_neg (by show ¬ file.length < _ + 15 + _; omega)]
      congr 1
      show slice file (endOf page (startOf page k) pre + 15) s.filled = s.content
      unfold Sec.filled Sec.content
      split
      · simp [slice]
      · exact hso.data
    · refine ⟨pre ++ [s], rest, ?_, ?_, htodo⟩
      · simpa using hl
      · rw [endOf_append, hss]; rfl
  obtain ⟨pre, rest, hl, hpos, htodo⟩ := ha
  cases rest with
  | cons s' rest =>
    simp only [List.cons_append, List.cons.injEq] at htodo
    obtain ⟨rfl, htodo⟩ := htodo
    obtain ⟨r', ⟨file, hf, hlt⟩, rfl, h1, h2, h3, h4⟩ := main r.slab pre rest hl htodo
    refine ⟨⟨r.slab, endOf page (startOf page r.slab) pre⟩, ?_, h1, h2, h3, h4⟩
    unfold Reader.advance
    rw [hf]
    simp only
    rw [if_neg (by omega), ← hpos]
  | nil =>
    -- the slab is exhausted: its file ends here, the next slab begins with the section
    simp only [List.nil_append] at htodo
    obtain ⟨file, hf⟩ := hh.lookup hl
    have hnext : ∃ rest, lay[r.slab + 1]? = some (s :: rest) ∧
        todo = rest ++ (lay.drop (r.slab + 1 + 1)).flatten := by
      cases hd : lay.drop (r.slab + 1) with
      | nil => rw [hd] at htodo; simp at htodo
      | cons a l =>
        have hk : r.slab + 1 < lay.length := by
          have := congrArg List.length hd
          simp at this; omega
        have h1 : lay[r.slab + 1]? = some a := by
          rw [List.getElem?_eq_getElem hk]
          rw [List.drop_eq_getElem_cons hk] at hd
          rw [(List.cons.inj hd).1]
        have h2 : lay.drop (r.slab + 1 + 1) = l := by
          rw [List.drop_eq_getElem_cons hk] at hd
          exact (List.cons.inj hd).2
        have ha : a ≠ [] := by
          rintro rfl
          exact hh.nonempty (r.slab + 1) (by omega) h1
        cases a with
        | nil => exact absurd rfl ha
        | cons x xs =>
          rw [hd] at htodo
          simp only [List.flatten_cons, List.cons_append, List.cons.injEq] at htodo
          obtain ⟨rfl, ht⟩ := htodo
          exact ⟨xs, h1, by rw [h2]; exact ht⟩
    obtain ⟨rest, hl', htodo'⟩ := hnext
    have hcut := hh.cut r.slab file _ hf hl (by
      have := (List.getElem?_eq_some_iff.1 hl').1; omega)
    rw [List.append_nil] at hcut
    obtain ⟨r', ⟨file', hf', hlt⟩, rfl, h1, h2, h3, h4⟩ := main (r.slab + 1) [] rest hl' htodo'
    refine ⟨_, ?_, h1, h2, h3, h4⟩
    unfold Reader.advance
    rw [hf]
    simp only
    rw [if_pos (by omega)]
    unfold openSlab
    rw [hf']
    simp [startOf, endOf]

/-- The next section of a type. -/
theorem readNext_some (hh : Holds page files lay) {t : EntryType} (ht : t ≠ .lastEntry)
    {A B : List Sec} {s : Sec} (hA : ∀ a ∈ A, a.et ≠ t ∧ a.et ≠ .lastEntry) (hs : s.et = t)
    {r : Reader} (ha : At page lay r (A ++ s :: B)) {fuel : Nat} (hf : A.length < fuel) :
    ∃ r', readNext files t fuel r = .ok (some s.content, r') ∧ At page lay r' B := by
  induction A generalizing r fuel with
  | nil =>
    obtain ⟨fuel, rfl⟩ : ∃ f, fuel = f + 1 := ⟨fuel - 1, by simp at hf; omega⟩
    obtain ⟨r', h1, h2, h3, h4, h5⟩ := at_step hh ha
    refine ⟨_, ?_, h5⟩
    unfold readNext
    simp only [h1, h2, h4, hs]
    rw [if_neg ht]
    simp only [if_true, h3]
  | cons a A ih =>
    obtain ⟨fuel, rfl⟩ : ∃ f, fuel = f + 1 := ⟨fuel - 1, by simp at hf; omega⟩
    obtain ⟨r', h1, h2, h3, h4, h5⟩ := at_step hh ha
    have hA' := hA a (by simp)
    obtain ⟨r'', h6, h7⟩ := ih (fun x hx => hA x (by simp [hx])) h5 (fuel := fuel)
      (by simp at hf; omega)
    refine ⟨r'', ?_, h7⟩
    unfold readNext
    simp only [h1, h2, h4]
    rw [if_neg hA'.2, if_neg hA'.1]
    exact h6

/-- No more section of a type before the end of the log. -/
theorem readNext_none (hh : Holds page files lay) {t : EntryType}
    {A B : List Sec} {s : Sec} (hA : ∀ a ∈ A, a.et ≠ t ∧ a.et ≠ .lastEntry) (hs : s.et = .lastEntry)
    {r : Reader} (ha : At page lay r (A ++ s :: B)) {fuel : Nat} (hf : A.length < fuel) :
    ∃ r', readNext files t fuel r = .ok (none, r') ∧ At page lay r' (s :: B) := by
  induction A generalizing r fuel with
  | nil =>
    obtain ⟨fuel, rfl⟩ : ∃ f, fuel = f + 1 := ⟨fuel - 1, by simp at hf; omega⟩
    have ha' := ha
    obtain ⟨r', h1, h2, h3, h4, h5⟩ := at_step hh ha
    refine ⟨r', ?_, ?_⟩
    · unfold readNext
      simp only [h1, h2, h4, hs, if_true]
    · -- the reader stays in front of the last entry
      obtain ⟨pre, rest, hl, hpos, htodo⟩ := ha'
      unfold Reader.advance at h1
      obtain ⟨file, hfl⟩ := hh.lookup hl
      rw [hfl] at h1
      simp only at h1
      split at h1
      · rename_i hge
        cases rest with
        | cons s' rest =>
          have hso := ((secsOk_append _ _ _ _ _).1 (hh.secs _ _ _ hfl hl)).2.1
          have := hso.inside
          have := hso.req
          omega
        | nil =>
          unfold openSlab at h1
          simp only [List.nil_append] at htodo
          cases hd : lay.drop (r.slab + 1) with
          | nil => rw [hd] at htodo; simp at htodo
          | cons a l =>
            have hk : r.slab + 1 < lay.length := by
              have := congrArg List.length hd
              simp at this; omega
            have h1' : lay[r.slab + 1]? = some a := by
              rw [List.getElem?_eq_getElem hk]
              rw [List.drop_eq_getElem_cons hk] at hd
              rw [(List.cons.inj hd).1]
            have h2' : lay.drop (r.slab + 1 + 1) = l := by
              rw [List.drop_eq_getElem_cons hk] at hd
              exact (List.cons.inj hd).2
            obtain ⟨f', hf'⟩ := hh.lookup h1'
            rw [hf'] at h1
            simp only at h1
            rw [if_neg (by omega)] at h1
            simp only [Rd.ok.injEq] at h1
            subst h1
            refine ⟨[], a, by simpa using h1', by simp [endOf, startOf], ?_⟩
            rw [hd] at htodo
            rw [h2']
            simpa using htodo
      · simp only [Rd.ok.injEq] at h1
        subst h1
        exact ⟨pre, rest, hl, hpos, htodo⟩
  | cons a A ih =>
    obtain ⟨fuel, rfl⟩ : ∃ f, fuel = f + 1 := ⟨fuel - 1, by simp at hf; omega⟩
    obtain ⟨r', h1, h2, h3, h4, h5⟩ := at_step hh ha
    have hA' := hA a (by simp)
    obtain ⟨r'', h6, h7⟩ := ih (fun x hx => hA x (by simp [hx])) h5 (fuel := fuel)
      (by simp at hf; omega)
    refine ⟨r'', ?_, h7⟩
    unfold readNext
    simp only [h1, h2, h4]
    rw [if_neg hA'.2, if_neg hA'.1]
    exact h6

theorem secs_count {file : Bytes} {off : Nat} {l : List Sec} (hp : 0 < page)
    (h : SecsOk page file off l) : off + l.length ≤ lastEnd page off l := by
  induction l generalizing off with
  | nil => exact Nat.le_refl _
  | cons s l ih =>
    have h1 := h.1.req
    have h2 := align_le hp s.req
    cases l with
    | nil => simp [lastEnd]; omega
    | cons s' l =>
      have := ih h.2
      simp only [lastEnd, List.length_cons] at *
      omega

theorem flatten_length_le {files : List Bytes} {lay : List (List Sec)}
    (hlen : lay.length ≤ files.length)
    (h : ∀ (k : Nat) file secs, files[k]? = some file → lay[k]? = some secs →
      secs.length ≤ file.length) : lay.flatten.length ≤ (files.map List.length).sum := by
  induction lay generalizing files with
  | nil => simp
  | cons a lay ih =>
    cases files with
    | nil => simp at hlen
    | cons f files =>
      have h0 := h 0 f a rfl rfl
      have := ih (files := files) (by simpa using hlen)
        (fun k file secs h1 h2 => h (k + 1) file secs h1 h2)
      simp only [List.flatten_cons, List.length_append, List.map_cons, List.sum_cons]
      omega

theorem holds_fuel (hh : Holds page files lay) : lay.flatten.length < readFuel files := by
  have := flatten_length_le hh.len (fun k file secs h1 h2 => by
    have hs := hh.secs k file secs h1 h2
    have := secs_count hh.page_pos hs
    by_cases hne : secs = []
    · subst hne; simp
    · have := hs.lastEnd_le hne
      omega)
  unfold readFuel
  omega

/-- Reading every section of a type of a complete log. -/
theorem readAll_spec (hh : Holds page files lay) {t : EntryType}
    {L B : List Sec} {e : Sec} (hL : ∀ s ∈ L, s.et ≠ .lastEntry) (he : e.et = .lastEntry)
    {r : Reader} (ha : At page lay r (L ++ e :: B)) (hfuel : (L ++ e :: B).length < readFuel files)
    {n : Nat} (hn : L.length < n) :
    readAll files t n r = .ok ((L.filter (·.et == t)).map Sec.content) := by
  induction n generalizing L r with
  | zero => omega
  | succ n ih =>
    by_cases hex : ∃ s ∈ L, s.et = t
    · -- split at the first one
      obtain ⟨A, s, C, rfl, hs, hA⟩ : ∃ A s C, L = A ++ s :: C ∧ s.et = t ∧ ∀ a ∈ A, a.et ≠ t := by
        clear ih ha hfuel hn hL
        induction L with
        | nil => simp at hex
        | cons x L ih =>
          by_cases hx : x.et = t
          · exact ⟨[], x, L, rfl, hx, by simp⟩
          · obtain ⟨A, s, C, rfl, h1, h2⟩ := ih (by
              obtain ⟨s, hs, h⟩ := hex
              rcases List.mem_cons.1 hs with rfl | hs
              · exact absurd h hx
              · exact ⟨s, hs, h⟩)
            exact ⟨x :: A, s, C, rfl, h1, by
              intro a ha
              rcases List.mem_cons.1 ha with rfl | ha
              · exact hx
              · exact h2 a ha⟩
      simp only [List.append_assoc, List.cons_append] at ha
      simp only [List.length_append, List.length_cons] at hfuel hn
      have ht : t ≠ .lastEntry := by rw [← hs]; exact hL s (by simp)
      obtain ⟨r', h1, h2⟩ := readNext_some hh ht (fun a h => ⟨hA a h, hL a (by simp [h])⟩) hs ha
        (fuel := readFuel files) (by omega)
      have h3 := ih (L := C) (fun x hx => hL x (by simp [hx])) h2
        (by simp only [List.length_append, List.length_cons]; omega) (by omega)
      unfold readAll
      rw [h1]
      simp only [h3]
      have e1 : A.filter (·.et == t) = [] := by
        apply List.filter_eq_nil_iff.2
        intro a h; simpa using hA a h
      simp [e1, hs]
    · have hno : ∀ a ∈ L, a.et ≠ t ∧ a.et ≠ .lastEntry := fun a h => ⟨fun c => hex ⟨a, h, c⟩, hL a h⟩
      simp only [List.length_append, List.length_cons] at hfuel
      obtain ⟨r', h1, _⟩ := readNext_none hh hno he ha (fuel := readFuel files) (by omega)
      unfold readAll
      rw [h1]
      have e1 : L.filter (·.et == t) = [] := by
        apply List.filter_eq_nil_iff.2
        intro a h; simpa using (hno a h).1
      simp [e1]

theorem readLog_spec (hh : Holds page files lay) {t : EntryType}
    {L B : List Sec} {e : Sec} (hlay : lay.flatten = L ++ e :: B)
    (hL : ∀ s ∈ L, s.et ≠ .lastEntry) (he : e.et = .lastEntry) :
    readLog files t = .ok ((L.filter (·.et == t)).map Sec.content) := by
  obtain ⟨r, h1, h2⟩ := reader_new hh
  have hf := holds_fuel hh
  rw [hlay] at h2 hf
  unfold readLog
  rw [h1]
  refine readAll_spec hh hL he h2 hf ?_
  simp only [List.length_append, List.length_cons] at hf
  omega

variable {lg : Logger} {own : Nat → Option Handle}

/-- Closing the logger once every section is closed. -/
theorem inv_close (hi : Inv lg lay own) (hne : NonEmpty lay) (hmx : lg.pageSize < 65536)
    (hno : ∀ i, own i = none)
    (hr : ReqOk lg.pageSize 80) (hfit : align lg.pageSize 80 ≤ lg.slabSize) :
    ∃ files lay', lg.close = .ok files ∧ Holds lg.pageSize files lay' ∧
      lay'.flatten = lay.flatten ++ [⟨80, .lastEntry, [], none⟩] ∧ files.length = lay'.length := by
  obtain ⟨lg1, h, lay1, h1, hi1, hne1, hfl1, ht1, hu1, hreq1, hpg1, hss1, hsl1, _⟩ :=
    inv_addSection (t := .lastEntry) (i := 0) hi hne hr hfit (hno 0)
  have hown1 : upd own 0 (some h) 0 = some h := by simp [upd]
  obtain ⟨sl, sl', file', hsl, hsuf, hfs, hs1, hs2, hs3, hs4, hs5, lay2, A, s, B, hi2, hA, hB, ho, het, hrq, hmap⟩ :=
    inv_flushSection hi1 hown1
  have hown2 : ∀ i, upd (upd own 0 (some h)) 0 none i = none := by
    intro i; unfold upd; split
    · rfl
    · exact hno i
  have hnoown2 : ∀ x ∈ lay2.flatten, x.owner = none := by
    intro x hx
    cases hxo : x.owner with
    | none => rfl
    | some j =>
      obtain ⟨g, hg⟩ := hi2.own_conv x hx j hxo
      rw [hown2] at hg; exact absurd hg (by simp)
  -- the last section is the one just closed
  have hlast : lay2.flatten = lay.flatten ++ [⟨80, .lastEntry, [], none⟩] := by
    rw [hfl1] at hA
    rcases List.append_eq_append_iff.1 hA with ⟨c, hc1, hc2⟩ | ⟨c, hc1, hc2⟩
    · cases c with
      | nil =>
        simp only [List.nil_append, List.cons.injEq] at hc2
        obtain ⟨rfl, rfl⟩ := hc2
        rw [hB, hc1]; simp
      | cons y c => simp at hc2
    · cases c with
      | nil =>
        simp only [List.nil_append, List.cons.injEq] at hc2
        obtain ⟨rfl, rfl⟩ := hc2
        rw [hB, hc1]; simp
      | cons y c =>
        -- the closed section would be an older one
        simp only [List.cons_append, List.cons.injEq] at hc2
        obtain ⟨rfl, hc2⟩ := hc2
        have hm : s ∈ lay.flatten := by rw [hc1]; simp
        obtain ⟨g, hg⟩ := hi.own_conv s hm 0 ho
        rw [hno] at hg; exact absurd hg (by simp)
  have hne2 : NonEmpty lay2 := by
    intro k hk hc
    have e1 := congrArg (fun l => l[k]?) hmap
    unfold shape at e1
    simp only [List.getElem?_map, hc] at e1
    simp only [Option.map_some, List.map_nil] at e1
    obtain ⟨x, hx, hx2⟩ := Option.map_eq_some_iff.1 e1.symm
    have : x = [] := by simpa using hx2
    subst this
    exact hne1 k hk hx
  -- the logger's own drop
  have hfront : sl = lg1.front := hi1.live_inj hsl (by simp [Logger.live]) (by rw [hsuf, hsl1])
  subst hfront
  have hfile : ∃ f, lg1.files[lg1.front.suffix]? = some f ∧ lg1.front.flushSection f h = .ok (sl', file') := by
    obtain ⟨f, secs, hf, hl⟩ := hi1.front_at
    refine ⟨f, hf, ?_⟩
    unfold Logger.flushSection at hfs
    rw [flushBack_none] at hfs
    · simp only at hfs
      rw [if_neg (by rw [hsl1]; simp)] at hfs
      unfold flushIn at hfs
      rw [hf] at hfs
      simp only at hfs
      cases hx : lg1.front.flushSection f h with
      | panic => rw [hx] at hfs; exact absurd hfs (by simp)
      | ok p =>
        rw [hx] at hfs
        obtain ⟨x, y⟩ := p
        simp only [Rs.ok.injEq] at hfs
        have e1 : x = sl' := by
          have := congrArg Logger.front hfs
          simpa [Logger.replace, subst, hsl1] using this
        have e2 : y = file' := by
          have := congrArg (fun l => l.files[lg1.front.suffix]?) hfs
          simp only [Logger.replace, hsl1] at this
          have hk := (List.getElem?_eq_some_iff.1 hf).1
          rw [List.getElem?_set_self hk, List.getElem?_set_self hk] at this
          exact Option.some.inj this
        rw [e1, e2]
    · intro y hy
      have hs := hi1.sorted
      unfold Logger.live at hs
      rw [List.map_append, List.pairwise_append] at hs
      have := hs.2.2 y.suffix (List.mem_map_of_mem hy) lg1.front.suffix (by simp)
      omega
  obtain ⟨f, hf, hfl⟩ := hfile
  have hrep : ({ lg1 with front := sl', files := lg1.files.set lg1.front.suffix file' } : Logger) =
      lg1.replace h.slab sl' file' := by
    have hs := hi1.sorted
    unfold Logger.live at hs
    rw [List.map_append, List.pairwise_append] at hs
    have e2 : lg1.back.map (subst lg1.front.suffix sl') = lg1.back := by
      conv => rhs; rw [← List.map_id lg1.back]
      apply List.map_congr_left
      intro y hy
      have := hs.2.2 y.suffix (List.mem_map_of_mem hy) lg1.front.suffix (by simp)
      unfold subst; rw [if_neg (by omega)]; rfl
    unfold Logger.replace
    rw [hsl1, e2]
    simp [subst]
  obtain ⟨files3, hgc, hi3, _⟩ := inv_gc hi2
  have hp := hi3.page_pos
  obtain ⟨files4, hd1, hd2, hd3, hd4⟩ := dropSlabs_spec
    (l := ((lg1.replace h.slab sl' file').collected files3).front ::
      ((lg1.replace h.slab sl' file').collected files3).back)
    ((lg1.replace h.slab sl' file').collected files3).files
    (by
      intro x hx
      have hx' : x ∈ ((lg1.replace h.slab sl' file').collected files3).live := by
        unfold Logger.live
        rcases List.mem_cons.1 hx with rfl | hx
        · simp
        · simp [hx]
      obtain ⟨f, secs, hf, hl⟩ := hi3.slab_at hx'
      exact (hi3.live x hx' f secs hf hl).flushed_cgp)
    (by
      have hs := hi3.sorted
      unfold Logger.live at hs
      rw [List.map_append] at hs
      have hs' := hs.imp (fun h => Nat.ne_of_lt h)
      rw [List.map_cons]
      have := (List.perm_append_comm (l₁ := List.map Slab.suffix
        ((lg1.replace h.slab sl' file').collected files3).back)
        (l₂ := [((lg1.replace h.slab sl' file').collected files3).front.suffix])).nodup_iff.1 hs'
      exact this)
  refine ⟨files4, lay2, ?_, ?_, hlast, ?_⟩
  · unfold Logger.close
    rw [h1]
    simp only
    rw [if_neg (by rw [hsl1]; simp)]
    unfold flushIn
    rw [hf]
    simp only [hfl, hrep, hgc]
    exact hd1
  · generalize hlg3 : (lg1.replace h.slab sl' file').collected files3 = lg3 at *
    have hpg3 : lg3.pageSize = lg.pageSize := by rw [← hlg3]; exact hpg1
    rw [← hpg3] at hmx ⊢
    -- each file is either unchanged and already cut, or cut now
    have hlv : ∀ x, x ∈ lg3.front :: lg3.back ↔ x ∈ lg3.live := by
      intro x; unfold Logger.live; simp [or_comm]
    have hcases : ∀ (k : Nat) f' secs, files4[k]? = some f' → lay2[k]? = some secs →
        ∃ f, lg3.files[k]? = some f ∧ ((f' = f ∧ ∀ x ∈ lg3.live, x.suffix ≠ k) ∨
          ∃ x ∈ lg3.live, x.suffix = k ∧ f' = setLen f x.cgp) := by
      intro k f' secs hf' _
      by_cases hk : ∃ x ∈ lg3.front :: lg3.back, x.suffix = k
      · obtain ⟨x, hx, rfl⟩ := hk
        have := hd3 x hx
        rw [hf'] at this
        obtain ⟨f, hf, e⟩ := Option.map_eq_some_iff.1 this.symm
        exact ⟨f, hf, .inr ⟨x, (hlv x).1 hx, rfl, e.symm⟩⟩
      · refine ⟨f', ?_, .inl ⟨rfl, fun x hx e => hk ⟨x, (hlv x).2 hx, e⟩⟩⟩
        rw [← hd4 k (fun x hx e => hk ⟨x, hx, e⟩)]; exact hf'
    have hlen3 := hi3.files_len
    have hpos2 : 0 < lay2.length := by have := hi3.front_suffix; omega
    refine ⟨hp, hmx, by omega, hpos2, ?_, ?_, ?_, hne2⟩
    · intro k f' secs hf' hl
      obtain ⟨f, hf, ⟨rfl, _⟩ | ⟨x, hx, rfl, rfl⟩⟩ := hcases k f' secs hf' hl
      · exact hi3.secs k _ secs hf hl
      · exact secsOk_setLen hp (hi3.secs _ f secs hf hl) (hi3.live x hx f secs hf hl).last
    · intro k f' secs hf' hl hk
      obtain ⟨f, hf, ⟨rfl, hn⟩ | ⟨x, hx, rfl, rfl⟩⟩ := hcases k f' secs hf' hl
      · exact (hi3.trimmed k _ secs hf hl hn).2
      · rw [length_setLen]
        rcases List.mem_append.1 (show x ∈ lg3.back ++ [lg3.front] from hx) with hb | hb
        · exact hi3.back x hb secs hl
        · have := hi3.front_suffix
          have e : x = lg3.front := by simpa using hb
          rw [e] at hk
          omega
    · intro f' hf'
      obtain ⟨secs, hl⟩ : ∃ secs, lay2[0]? = some secs := ⟨_, List.getElem?_eq_getElem hpos2⟩
      obtain ⟨f, hf, ⟨rfl, hn⟩ | ⟨x, hx, hx0, rfl⟩⟩ := hcases 0 f' secs hf' hl
      · exact hi3.main_at _ hf
      · have hm := hi3.main_at f hf
        have hlen := slice_len hm rfl
        have hmain := hi3.main
        have hge : lg3.pageSize ≤ x.cgp := by
          have h1 := (hi3.live x hx f secs (hx0 ▸ hf) (hx0 ▸ hl)).last
          have h2 := le_lastEnd (page := lg3.pageSize) (startOf lg3.pageSize x.suffix) secs
          rw [hx0] at h1 h2
          simp only [startOf, if_true] at h1 h2
          omega
        rw [slice_setLen (by omega)]
        · exact hm
        · rcases hlen with h | h
          · exact h
          · omega
  · rw [hd2]; exact hi3.files_len

end ULog
end Verif
