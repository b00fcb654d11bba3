import Verif.Model.SlabFiles
import Verif.Proofs.CrashRead
/-! Lemmas about the files of a log in a directory. -/
namespace Verif
namespace ULog
open Bincode

/-! ### Names -/

theorem splitDots_ne (n : Name) : splitDots n ≠ [] := by
  cases n with
  | nil => simp [splitDots]
  | cons c cs =>
    unfold splitDots
    split
    · simp
    · split <;> simp

theorem splitDots_no_dot (n : Name) : ∀ p ∈ splitDots n, '.' ∉ p := by
  induction n with
  | nil => simp [splitDots]
  | cons c cs ih =>
    unfold splitDots
    split
    · intro p hp
      rcases List.mem_cons.1 hp with rfl | hp
      · simp
      · exact ih p hp
    · rename_i hc
      split
      · intro p hp
        simp only [List.mem_singleton] at hp
        subst hp
        simp [Ne.symm hc]
      · rename_i q qs he
        intro p hp
        rcases List.mem_cons.1 hp with rfl | hp
        · have := ih q (by rw [he]; simp)
          simp [Ne.symm hc, this]
        · exact ih p (by rw [he]; simp [hp])

/-- The last piece. -/
def ext (n : Name) : Name := (splitDots n).getLastD []
/-- The others. -/
def stem (n : Name) : Name := joinDots (splitDots n).dropLast

theorem slabName_eq (n : Name) (i : Nat) :
    slabName n i = stem n ++ '_' :: (Nat.toDigits 10 i ++ '.' :: ext n) := by
  simp [slabName, stem, ext]

theorem ext_no_dot (n : Name) : '.' ∉ ext n := by
  have hne := splitDots_ne n
  refine splitDots_no_dot n _ ?_
  unfold ext
  cases h : splitDots n with
  | nil => exact absurd h hne
  | cons a l =>
    rw [List.getLastD_cons]
    exact List.getLast_mem_getLastD a l
where
  List.getLast_mem_getLastD (a : Name) (l : List Name) : l.getLastD a ∈ a :: l := by
    induction l generalizing a with
    | nil => simp
    | cons b l ih =>
      rw [List.getLastD_cons]
      exact List.mem_cons_of_mem _ (ih b)

theorem split_mid {a b a' b' : List Char} {c : Char} (hb : c ∉ b) (hb' : c ∉ b')
    (h : a ++ c :: b = a' ++ c :: b') : a = a' ∧ b = b' := by
  rcases List.append_eq_append_iff.1 h with ⟨m, h1, h2⟩ | ⟨m, h1, h2⟩
  · cases m with
    | nil => simp at h1 h2; exact ⟨h1.symm, h2⟩
    | cons x m =>
      simp only [List.cons_append, List.cons.injEq] at h2
      exact absurd (by rw [h2.2]; simp) hb
  · cases m with
    | nil => simp at h1 h2; exact ⟨h1, h2.symm⟩
    | cons x m =>
      simp only [List.cons_append, List.cons.injEq] at h2
      exact absurd (by rw [h2.2]; simp) hb'

theorem digits_inj {i j : Nat} (h : Nat.toDigits 10 i = Nat.toDigits 10 j) : i = j := by
  rw [← Nat.ofDigitChars_ten_toDigits (n := i), h, Nat.ofDigitChars_ten_toDigits]

theorem digits_no {n : Nat} {c : Char} (hc : c.isDigit = false) : c ∉ Nat.toDigits 10 n := by
  intro h
  have := Nat.isDigit_of_mem_toDigits (by decide) (by decide) h
  rw [hc] at this
  exact absurd this (by decide)

theorem slabName_inj {n m : Name} {i j : Nat} (h : slabName n i = slabName m j) :
    stem n = stem m ∧ ext n = ext m ∧ i = j := by
  rw [slabName_eq, slabName_eq] at h
  have e : ∀ (n : Name) (i : Nat), stem n ++ '_' :: (Nat.toDigits 10 i ++ '.' :: ext n) =
      (stem n ++ '_' :: Nat.toDigits 10 i) ++ '.' :: ext n := by simp
  rw [e, e] at h
  obtain ⟨h1, h2⟩ := split_mid (ext_no_dot n) (ext_no_dot m) h
  obtain ⟨h3, h4⟩ := split_mid (digits_no (by decide)) (digits_no (by decide)) h1
  exact ⟨h3, h2, digits_inj h4⟩

theorem joinDots_snoc (l : List Name) (x : Name) (h : l ≠ []) :
    joinDots (l ++ [x]) = joinDots l ++ '.' :: x := by
  induction l with
  | nil => exact absurd rfl h
  | cons a l ih =>
    cases l with
    | nil => simp [joinDots]
    | cons b l =>
      have := ih (by simp)
      simp only [List.cons_append, joinDots] at this ⊢
      rw [this]
      simp

theorem join_split (n : Name) : joinDots (splitDots n) = n := by
  induction n with
  | nil => simp [splitDots, joinDots]
  | cons c cs ih =>
    unfold splitDots
    have hne := splitDots_ne cs
    split
    · rename_i hc
      cases h : splitDots cs with
      | nil => exact absurd h hne
      | cons p ps => rw [h] at ih; simp [joinDots, ih, hc]
    · split
      · rename_i h; exact absurd h hne
      · rename_i p ps h
        rw [h] at ih
        cases ps with
        | nil => simp only [joinDots] at ih ⊢; rw [ih]
        | cons q qs => simp only [joinDots, List.cons_append] at ih ⊢; rw [ih]

theorem splitDots_one {n : Name} (h : '.' ∉ n) : splitDots n = [n] := by
  induction n with
  | nil => rfl
  | cons c cs ih =>
    simp only [List.mem_cons, not_or] at h
    unfold splitDots
    rw [if_neg (Ne.symm h.1), ih h.2]

theorem split_dropLast (l : List Name) (h : l ≠ []) : l = l.dropLast ++ [l.getLastD []] := by
  have := List.dropLast_concat_getLast h
  rw [List.getLastD_eq_getLast?, List.getLast?_eq_some_getLast h]
  simp [this]

/-- A name with a dot is made of its two parts; one without is its extension. -/
theorem parts (n : Name) : ('.' ∈ n → n = stem n ++ '.' :: ext n) ∧ ('.' ∉ n → stem n = [] ∧ ext n = n) := by
  have hsplit := split_dropLast (splitDots n) (splitDots_ne n)
  constructor
  · intro hd
    by_cases h : (splitDots n).dropLast = []
    · rw [h] at hsplit
      have h2 := join_split n
      rw [hsplit] at h2
      simp only [List.nil_append, joinDots] at h2
      have h3 := ext_no_dot n
      unfold ext at h3
      rw [h2] at h3
      exact absurd hd h3
    · have := join_split n
      rw [hsplit, joinDots_snoc _ _ h] at this
      exact this.symm
  · intro hd
    have := splitDots_one hd
    simp [stem, ext, this, joinDots]

/-! ### Directories -/

theorem get_put (d : Dir) (n m : Name) (b : Bytes) :
    (d.put n b).get m = if m = n then some b else d.get m := by
  unfold Dir.put Dir.get
  rw [List.find?_cons]
  by_cases h : m = n
  · subst h; simp
  · have hn : (n == m) = false := by simpa using Ne.symm h
    rw [hn, if_neg h]
    simp only
    congr 1
    induction d with
    | nil => rfl
    | cons x d ih =>
      by_cases hx : x.1 = n
      · rw [List.filter_cons_of_neg (by simpa using hx), List.find?_cons, ih]
        have : (x.1 == m) = false := by simp [hx]; exact Ne.symm h
        rw [this]
      · rw [List.filter_cons_of_pos (by simpa using hx), List.find?_cons, List.find?_cons, ih]

theorem get_putSlabs (d : Dir) (base : Name) (i : Nat) (fs : List Bytes) (m : Name) :
    (d.putSlabs base i fs).get m = match (List.range fs.length).find? (fun k => m == slabName base (i + k)) with
      | some k => fs[k]?
      | none => d.get m := by
  induction fs generalizing d i with
  | nil => simp [Dir.putSlabs]
  | cons f fs ih =>
    rw [Dir.putSlabs, ih, get_put]
    rw [List.length_cons, List.range_succ_eq_map, List.find?_cons]
    simp only [Nat.add_zero]
    by_cases h0 : m = slabName base i
    · subst h0
      simp only [beq_self_eq_true, if_true, List.getElem?_cons_zero]
      have : (List.range fs.length).find? (fun k => slabName base i == slabName base (i + 1 + k)) = none := by
        rw [List.find?_eq_none]
        intro k _
        simp only [beq_iff_eq]
        intro h
        have := (slabName_inj h).2.2
        omega
      rw [this]
    · have : (m == slabName base i) = false := by simpa using h0
      rw [this, if_neg h0]
      simp only
      rw [List.find?_map]
      have e : ((fun k => m == slabName base (i + k)) ∘ Nat.succ) =
          fun k => m == slabName base (i + 1 + k) := by
        funext k
        simp only [Function.comp]
        congr 2
        omega
      rw [e]
      cases (List.range fs.length).find? (fun k => m == slabName base (i + 1 + k)) with
      | none => rfl
      | some k => simp

theorem get_mine (d : Dir) (base : Name) (fs : List Bytes) (k : Nat) (hk : k < fs.length) :
    (d.putSlabs base 0 fs).get (slabName base k) = fs[k]? := by
  rw [get_putSlabs]
  simp only [Nat.zero_add]
  have : (List.range fs.length).find? (fun j => slabName base k == slabName base j) = some k := by
    rw [List.find?_range_eq_some]
    refine ⟨by simp, by simpa using hk, fun j hj => ?_⟩
    simp only [Bool.not_eq_true', beq_eq_false_iff_ne, ne_eq]
    intro h
    have := (slabName_inj h).2.2
    omega
  rw [this]

theorem get_other (d : Dir) (base m : Name) (fs : List Bytes) (h : ∀ k, m ≠ slabName base k) :
    (d.putSlabs base 0 fs).get m = d.get m := by
  rw [get_putSlabs]
  have : (List.range fs.length).find? (fun k => m == slabName base (0 + k)) = none := by
    rw [List.find?_eq_none]
    intro k _
    simpa using h (0 + k)
  rw [this]

theorem get_mem {d : Dir} {n : Name} {b : Bytes} (h : d.get n = some b) : n ∈ d.map (·.1) := by
  unfold Dir.get at h
  rw [Option.map_eq_some_iff] at h
  obtain ⟨x, h1, _⟩ := h
  have := List.find?_some h1
  simp only [beq_iff_eq] at this
  exact List.mem_map.2 ⟨x, List.mem_of_find?_eq_some h1, this⟩

theorem slabsFrom_get (d : Dir) (base : Name) (n i k : Nat) :
    (d.slabsFrom base n i)[k]? =
      if k < n ∧ ∀ j, j ≤ k → (d.get (slabName base (i + j))).isSome then d.get (slabName base (i + k)) else none := by
  induction n generalizing i k with
  | zero => simp [Dir.slabsFrom]
  | succ n ih =>
    unfold Dir.slabsFrom
    split
    · rename_i h
      rw [if_neg]
      · simp
      · intro hh
        have := hh.2 0 (Nat.zero_le _)
        rw [Nat.add_zero, h] at this
        exact absurd this (by simp)
    · rename_i f h
      cases k with
      | zero =>
        rw [if_pos]
        · simp [h]
        · refine ⟨by omega, fun j hj => ?_⟩
          obtain rfl : j = 0 := by omega
          simp [h]
      | succ k =>
        rw [List.getElem?_cons_succ, ih]
        have e : i + 1 + k = i + (k + 1) := by omega
        rw [e]
        by_cases hc : k < n ∧ ∀ j, j ≤ k → (d.get (slabName base (i + 1 + j))).isSome
        · rw [if_pos hc, if_pos]
          refine ⟨by omega, fun j hj => ?_⟩
          cases j with
          | zero => simp [h]
          | succ j =>
            have := hc.2 j (by omega)
            rwa [show i + 1 + j = i + (j + 1) by omega] at this
        · rw [if_neg hc, if_neg]
          intro hh
          apply hc
          refine ⟨by omega, fun j hj => ?_⟩
          have := hh.2 (j + 1) (by omega)
          rwa [show i + (j + 1) = i + 1 + j by omega] at this

/-- A directory has no more slabs of a log than files. -/
theorem slabs_bound {d : Dir} {base : Name} {k : Nat}
    (h : ∀ j, j ≤ k → (d.get (slabName base j)).isSome) : k < d.length := by
  have hnd : ((List.range (k + 1)).map (slabName base)).Nodup := by
    refine List.Pairwise.map _ ?_ List.nodup_range
    intro a b hab he
    exact hab (slabName_inj he).2.2
  have := List.Nodup.length_le_of_subset hnd (l₂ := d.map (·.1)) (fun x hx => by
    obtain ⟨j, hj, rfl⟩ := List.mem_map.1 hx
    obtain ⟨b, hb⟩ := Option.isSome_iff_exists.1 (h j (by have := List.mem_range.1 hj; omega))
    exact get_mem hb)
  simp at this
  omega

/-- The slabs read are the files with the names of the log, up to the first missing one. -/
theorem slabs_get (d : Dir) (base : Name) (k : Nat) (b : Bytes) :
    (d.slabs base)[k]? = some b ↔
      (∀ j, j < k → (d.get (slabName base j)).isSome) ∧ d.get (slabName base k) = some b := by
  unfold Dir.slabs
  rw [slabsFrom_get]
  simp only [Nat.zero_add]
  constructor
  · intro h
    split at h
    · rename_i hc; exact ⟨fun j hj => hc.2 j (by omega), h⟩
    · exact absurd h (by simp)
  · rintro ⟨h1, h2⟩
    have hall : ∀ j, j ≤ k → (d.get (slabName base j)).isSome := by
      intro j hj
      by_cases e : j = k
      · subst e; simp [h2]
      · exact h1 j (by omega)
    rw [if_pos ⟨slabs_bound hall, hall⟩, h2]

theorem slabs_congr {d d' : Dir} {base : Name} (h : ∀ k, d.get (slabName base k) = d'.get (slabName base k)) :
    d.slabs base = d'.slabs base := by
  apply List.ext_getElem?
  intro k
  apply Option.ext
  intro b
  rw [slabs_get, slabs_get]
  simp only [h]

/-- After a writer, its slabs come first; then those that were there, if the names follow. -/
theorem slabs_after (d : Dir) (base : Name) (fs : List Bytes) :
    ∃ old, (d.putSlabs base 0 fs).slabs base = fs ++ old ∧
      ((d.get (slabName base fs.length)) = none → old = []) ∧
      ∀ k b, old[k]? = some b → d.get (slabName base (fs.length + k)) = some b := by
  have hmine : ∀ k, k < fs.length → ((d.putSlabs base 0 fs).slabs base)[k]? = fs[k]? := by
    intro k hk
    rw [List.getElem?_eq_getElem hk, slabs_get]
    refine ⟨fun j hj => ?_, ?_⟩
    · rw [get_mine _ _ _ _ (by omega), List.getElem?_eq_getElem (by omega)]; rfl
    · rw [get_mine _ _ _ _ hk, List.getElem?_eq_getElem hk]
  have hold : ∀ k, fs.length ≤ k → (d.putSlabs base 0 fs).get (slabName base k) = d.get (slabName base k) := by
    intro k hk
    rw [get_putSlabs]
    have : (List.range fs.length).find? (fun j => slabName base k == slabName base (0 + j)) = none := by
      rw [List.find?_eq_none]
      intro j hj
      have := List.mem_range.1 hj
      simp only [beq_iff_eq]
      intro h
      have := (slabName_inj h).2.2
      omega
    rw [this]
  refine ⟨((d.putSlabs base 0 fs).slabs base).drop fs.length, ?_, ?_, ?_⟩
  · apply List.ext_getElem?
    intro k
    rw [List.getElem?_append]
    split
    · rename_i hk; exact hmine k hk
    · rw [List.getElem?_drop]; congr 1; omega
  · intro hn
    apply List.drop_eq_nil_of_le
    apply Classical.byContradiction
    intro hlt
    have := List.getElem?_eq_getElem (l := (d.putSlabs base 0 fs).slabs base) (i := fs.length) (by omega)
    rw [slabs_get] at this
    rw [hold _ (Nat.le_refl _), hn] at this
    exact absurd this.2 (by simp)
  · intro k b h
    rw [List.getElem?_drop, slabs_get] at h
    rw [← hold _ (by omega)]
    exact h.2

/-! ### Reading with more slabs than the log has -/

theorem openSlab_more {files more : List Bytes} {i p : Nat} (h : openSlab files i = .ok p) :
    openSlab (files ++ more) i = .ok p := by
  unfold openSlab at h ⊢
  split at h
  · exact absurd h (by simp)
  · rename_i file hf
    rw [List.getElem?_append_left (List.getElem?_eq_some_iff.1 hf).1, hf]
    exact h

theorem get_more {files more : List Bytes} {i : Nat} {f : Bytes} (h : files[i]? = some f) :
    (files ++ more)[i]? = some f := by
  rw [List.getElem?_append_left (List.getElem?_eq_some_iff.1 h).1, h]

theorem advance_more {files more : List Bytes} {r r' : Reader} (h : r.advance files = .ok r') :
    r.advance (files ++ more) = .ok r' := by
  unfold Reader.advance at h ⊢
  split at h
  · exact absurd h (by simp)
  · rename_i file hf
    rw [get_more hf]
    simp only
    split at h
    · rename_i hle
      rw [if_pos hle]
      split at h <;> try (cases h; done)
      rename_i p hp
      rw [openSlab_more hp]
      exact h
    · rename_i hle
      rw [if_neg hle]
      exact h

theorem readHeader_more {files more : List Bytes} {r : Reader} {h : SectionHeader}
    (hr : readHeader files r = .ok h) : readHeader (files ++ more) r = .ok h := by
  unfold readHeader at hr ⊢
  split at hr
  · exact absurd hr (by simp)
  · rename_i file hf
    rw [get_more hf]
    exact hr

theorem readContent_more {files more : List Bytes} {r : Reader} {h : SectionHeader} {d : Bytes}
    (hr : readContent files r h = .ok d) : readContent (files ++ more) r h = .ok d := by
  unfold readContent at hr ⊢
  split at hr
  · exact absurd hr (by simp)
  · rename_i file hf
    rw [get_more hf]
    exact hr

theorem readNext_more {files more : List Bytes} {t : EntryType} {fuel fuel' : Nat} {r : Reader}
    {x : Option Bytes × Reader} (hle : fuel ≤ fuel') (h : readNext files t fuel r = .ok x) :
    readNext (files ++ more) t fuel' r = .ok x := by
  induction fuel generalizing fuel' r with
  | zero => exact absurd h (by simp [readNext])
  | succ fuel ih =>
    obtain ⟨f, rfl⟩ : ∃ f, fuel' = f + 1 := ⟨fuel' - 1, by omega⟩
    unfold readNext at h ⊢
    split at h <;> try (cases h; done)
    rename_i r1 h1
    rw [advance_more h1]
    simp only
    split at h <;> try (cases h; done)
    rename_i hd h2
    rw [readHeader_more h2]
    simp only
    split at h
    · rename_i h3; rw [if_pos h3]; exact h
    · rename_i h3
      rw [if_neg h3]
      split at h
      · rename_i h4
        rw [if_pos h4]
        split at h <;> try (cases h; done)
        rename_i d h5
        rw [readContent_more h5]
        exact h
      · rename_i h4
        rw [if_neg h4]
        exact ih (by omega) h

theorem readFuel_more (files more : List Bytes) : readFuel files ≤ readFuel (files ++ more) := by
  unfold readFuel
  simp
  omega

theorem readAll_more {files more : List Bytes} {t : EntryType} {n n' : Nat} {r : Reader}
    {ds : List Bytes} (hle : n ≤ n') (h : readAll files t n r = .ok ds) :
    readAll (files ++ more) t n' r = .ok ds := by
  induction n generalizing n' r ds with
  | zero => exact absurd h (by simp [readAll])
  | succ n ih =>
    obtain ⟨f, rfl⟩ : ∃ f, n' = f + 1 := ⟨n' - 1, by omega⟩
    unfold readAll at h ⊢
    split at h <;> try (cases h; done)
    · rename_i h1
      rw [readNext_more (readFuel_more _ _) h1]
      exact h
    · rename_i d r1 h1
      rw [readNext_more (readFuel_more _ _) h1]
      simp only
      split at h <;> try (cases h; done)
      rename_i ds' h2
      rw [ih (by omega) h2]
      exact h

theorem readLog_more {files : List Bytes} {t : EntryType} {ds : List Bytes}
    (h : readLog files t = .ok ds) (more : List Bytes) : readLog (files ++ more) t = .ok ds := by
  unfold readLog Reader.new at h ⊢
  split at h <;> try (cases h; done)
  rename_i r hr
  split at hr <;> try (cases hr; done)
  rename_i p hp
  rw [openSlab_more hp]
  simp only [Rd.ok.injEq] at hr
  subst hr
  exact readAll_more (readFuel_more _ _) h

/-! ### After a crash -/

theorem Holds.more {page : Nat} {files : List Bytes} {lay : List (List Sec)}
    (hh : Holds page files lay) (more : List Bytes) : Holds page (files ++ more) lay := by
  have key : ∀ (k : Nat) file (secs : List Sec), (files ++ more)[k]? = some file → lay[k]? = some secs →
      files[k]? = some file := by
    intro k file secs hf hl
    have h1 := (List.getElem?_eq_some_iff.1 hl).1
    have h2 := hh.len
    rwa [List.getElem?_append_left (by omega)] at hf
  have hlen := hh.len
  refine ⟨hh.page_pos, hh.page_max, by simp; omega, hh.pos, ?_, ?_, ?_, hh.nonempty⟩
  · intro k file secs hf hl; exact hh.secs k file secs (key k file secs hf hl) hl
  · intro k file secs hf hl hk; exact hh.cut k file secs (key k file secs hf hl) hl hk
  · intro file hf
    have hp := hh.pos
    rw [List.getElem?_append_left (by omega)] at hf
    exact hh.main_at file hf

theorem Stuck.more {page : Nat} {files : List Bytes} {lay : List (List Sec)} 
    (hh : Holds page files lay) (hs : Stuck page files lay) (more : List Bytes)
    (hroom : files.length = lay.length → ∀ (file : Bytes) (secs : List Sec),
      files[lay.length - 1]? = some file → lay[lay.length - 1]? = some secs →
      endOf page (startOf page (lay.length - 1)) secs < file.length) :
    Stuck page (files ++ more) lay := by
  intro file secs hf hl
  have hlen := hh.len
  have hp := hh.pos
  rw [List.getElem?_append_left (by omega)] at hf
  rcases hs file secs hf hl with ⟨h1, h2⟩ | h
  · have := hroom h2 file secs hf hl
    omega
  · exact .inr h

theorem readSome_stuck {page : Nat} {files : List Bytes} {lay : List (List Sec)}
    (hh : Holds page files lay) (hs : Stuck page files lay) {t : EntryType} (ht : t ≠ .lastEntry)
    (hfuel : lay.flatten.length < readFuel files) {n : Nat} {L : List Sec}
    (hL : ∀ s ∈ L, s.et ≠ .lastEntry) (hlen : L.length ≤ lay.flatten.length)
    {r : Reader} (ha : At page lay r L) {ds : List Bytes} (h : readSome files t n r = .ok ds) :
    ds <+: (L.filter (·.et == t)).map Sec.content := by
  induction n generalizing L r ds with
  | zero =>
    simp only [readSome, Rd.ok.injEq] at h
    subst h
    exact List.nil_prefix
  | succ n ih =>
    rcases split_type t L with hA | ⟨A, s, B, rfl, hA, hs'⟩
    · exfalso
      have := readNext_stuck' hh hs (fun a h => ⟨hA a h, hL a h⟩) ha (readFuel files)
      unfold readSome at h
      split at h <;> try (cases h; done)
      rename_i d r1 h1
      exact this _ h1
    · obtain ⟨r', h1, h2⟩ := readNext_some hh ht (A := A) (s := s) (B := B)
        (fun a ha => ⟨hA a ha, hL a (by simp [ha])⟩) hs' ha (fuel := readFuel files)
        (by rw [List.length_append, List.length_cons] at hlen; omega)
      have hAf : A.filter (·.et == t) = [] := List.filter_eq_nil_iff.2 (by
        intro a ha; simpa using hA a ha)
      rw [List.filter_append, hAf, List.filter_cons_of_pos (by simpa using hs')]
      unfold readSome at h
      rw [h1] at h
      simp only at h
      split at h <;> try (cases h; done)
      rename_i ds' h3
      simp only [Rd.ok.injEq] at h
      subst h
      have := ih (L := B) (fun s hs => hL s (by simp [hs])) (by rw [List.length_append, List.length_cons] at hlen; omega) h2 h3
      simp only [List.nil_append, List.map_cons]
      exact (List.cons_prefix_cons).2 ⟨rfl, this⟩

theorem crash_old {page slabSize : Nat} (hz : SizesOk page slabSize) {s : SecSys}
    (h : Reachable page slabSize s) (htypes : ∀ x ∈ s.issued, x.h.header.entryType ≠ .lastEntry)
    {t : EntryType} (ht : t ≠ .lastEntry) (ht' : t ≠ .empty)
    (hroom : align page s.lg.front.cgp < slabSize) (more : List Bytes) :
    ∃ r, Reader.new (s.lg.files ++ more) = .ok r ∧
      ∀ n ds, readSome (s.lg.files ++ more) t n r = .ok ds → ds <+: visibleOf t s.issued := by
  have hpm := hz.page_min
  have hal := align_le (page := page) (by omega) 80
  have hps : page ≤ slabSize := by
    have h1 := hz.slab
    have h2 : page ≤ align page 80 := by
      unfold align
      have : 0 < (80 + page - 1) / page := Nat.div_pos (by omega) (by omega)
      exact Nat.le_mul_of_pos_left _ this
    omega
  obtain ⟨lay, hi⟩ := reachable_inv hz.page_min (by have := hz.slab; omega) h
  obtain ⟨K, hK1, hK2, hh, hst⟩ := reachable_slabs hi.inv hi.nonempty (by rw [hi.pageEq]; exact hz.page_max)
    (by rw [hi.pageEq]; exact endOf_le hi hps)
  rw [hi.pageEq] at hh hst
  have hlenT : (lay.take (K + 1)).length = K + 1 := by rw [List.length_take]; omega
  have hst' := Stuck.more hh hst more (by
    intro hl file secs hf hls
    rw [hlenT, Nat.add_sub_cancel] at hf hls ⊢
    rw [List.getElem?_take, if_pos (by omega)] at hls
    have hfl := hi.inv.files_len
    have hsuf := hi.inv.front_suffix
    have hK : K = s.lg.front.suffix := by omega
    subst hK
    have hok := hi.inv.live s.lg.front (by simp [Logger.live]) file secs hf hls
    have h1 := hok.len
    have h2 := hok.cgp
    rw [hi.pageEq] at h2
    rw [hi.slabEq] at h1
    omega)
  have hh' := hh.more more
  obtain ⟨r, hr, hat⟩ := reader_new hh'
  refine ⟨r, hr, fun n ds hds => ?_⟩
  have hpre := take_flatten_prefix (lay := lay) (K + 1)
  rw [hi.flat] at hpre
  have hmem : ∀ a ∈ (lay.take (K + 1)).flatten, a.et ≠ .lastEntry := by
    intro a ha
    have : a ∈ s.issued.mapIdx secOf := by rw [← hpre]; simp [ha]
    obtain ⟨i, hi'⟩ := List.getElem?_of_mem this
    rw [List.getElem?_mapIdx] at hi'
    obtain ⟨z, hz', rfl⟩ := Option.map_eq_some_iff.1 hi'
    exact htypes z (List.mem_of_getElem? hz')
  have := readSome_stuck hh' hst' ht (holds_fuel hh') hmem (Nat.le_refl _) hat hds
  refine this.trans ?_
  rw [← visible_eq ht', ← hpre, List.filter_append, List.map_append]
  exact List.prefix_append _ _

end ULog
end Verif
