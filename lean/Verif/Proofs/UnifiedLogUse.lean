import Verif.Proofs.UnifiedLogSections
import Verif.Proofs.UnifiedLogRead
/-! Lemmas behind the properties of the unified log. -/
namespace Verif
namespace ULog
open Bincode

/-! ### Reading the sections of a log that was not closed -/

theorem readSome_spec {page : Nat} {files : List Bytes} {lay : List (List Sec)}
    (hh : Holds page files lay) {t : EntryType} (ht : t ≠ .lastEntry)
    {L B : List Sec} (hL : ∀ s ∈ L, s.et ≠ .lastEntry)
    {r : Reader} (ha : At page lay r (L ++ B)) (hfuel : L.length < readFuel files) :
    readSome files t (L.filter (·.et == t)).length r =
      .ok ((L.filter (·.et == t)).map Sec.content) := by
  generalize hn : (L.filter (·.et == t)).length = n
  induction n generalizing L r with
  | zero =>
    have : L.filter (·.et == t) = [] := List.eq_nil_of_length_eq_zero hn
    simp [readSome, this]
  | succ n ih =>
    obtain ⟨A, s, C, rfl, hs, hA⟩ : ∃ A s C, L = A ++ s :: C ∧ s.et = t ∧ ∀ a ∈ A, a.et ≠ t := by
      clear ih ha hfuel hL
      induction L with
      | nil => simp at hn
      | cons x L ih =>
        by_cases hx : x.et = t
        · exact ⟨[], x, L, rfl, hx, by simp⟩
        · obtain ⟨A, s, C, rfl, h1, h2⟩ := ih (by
            rw [List.filter_cons_of_neg (by simpa using hx)] at hn; exact hn)
          refine ⟨x :: A, s, C, rfl, h1, ?_⟩
          intro a ha
          rcases List.mem_cons.1 ha with rfl | ha
          · exact hx
          · exact h2 a ha
    have hAf : A.filter (·.et == t) = [] := List.filter_eq_nil_iff.2 (by
      intro a ha; simpa using hA a ha)
    rw [List.append_assoc] at ha
    obtain ⟨r', h1, h2⟩ := readNext_some hh ht (A := A) (s := s) (B := C ++ B)
      (fun a ha => ⟨hA a ha, hL a (by simp [ha])⟩) hs ha (fuel := readFuel files)
      (by simp at hfuel; omega)
    rw [List.filter_append, hAf, List.filter_cons_of_pos (by simpa using hs)] at hn ⊢
    simp only [List.nil_append, List.length_cons, Nat.add_right_cancel_iff] at hn
    have := ih (L := C) (r := r') (fun s hs => hL s (by simp [hs])) h2
      (by simp at hfuel; omega) hn
    simp only [readSome, h1, this, List.nil_append, List.map_cons]

/-! ### Reading as a byte stream -/

theorem dec_header_nil : ∃ e, (dec : Dec SectionHeader) [] = .error e := ⟨_, rfl⟩

theorem readHeader_pos {files : List Bytes} {r : Reader} {h : SectionHeader} {file : Bytes}
    (hf : files[r.slab]? = some file) (hr : readHeader files r = .ok h) : r.pos < file.length := by
  unfold readHeader at hr
  rw [hf] at hr
  simp only at hr
  split at hr
  · exact absurd hr (by simp)
  · rename_i hlt
    apply Classical.byContradiction
    intro hge
    have : file.drop r.pos = [] := List.drop_eq_nil_of_le (by omega)
    rw [this] at hr
    obtain ⟨e, he⟩ := dec_header_nil
    rw [he] at hr
    exact absurd hr (by simp)

theorem advance_idem {files : List Bytes} {r r' : Reader} {h : SectionHeader}
    (h1 : r.advance files = .ok r') (h2 : readHeader files r' = .ok h) :
    r'.advance files = .ok r' := by
  have : ∃ file, files[r'.slab]? = some file := by
    cases hf : files[r'.slab]? with
    | none => unfold readHeader at h2; rw [hf] at h2; exact absurd h2 (by simp)
    | some f => exact ⟨f, rfl⟩
  obtain ⟨file, hf⟩ := this
  have := readHeader_pos hf h2
  unfold Reader.advance
  rw [hf]
  simp only
  rw [if_neg (by omega)]

/-- Once at the end, always at the end. -/
theorem readNext_stays {files : List Bytes} {t : EntryType} {fuel : Nat} {r r' : Reader}
    (h : readNext files t fuel r = .ok (none, r')) (fuel' : Nat) :
    readNext files t (fuel' + 1) r' = .ok (none, r') := by
  induction fuel generalizing r with
  | zero => exact absurd h (by simp [readNext])
  | succ fuel ih =>
    unfold readNext at h
    split at h <;> try exact absurd h (by simp)
    rename_i r1 h1
    split at h <;> try exact absurd h (by simp)
    rename_i hd h2
    split at h
    · rename_i h3
      simp only [Rd.ok.injEq, Prod.mk.injEq, true_and] at h
      subst h
      unfold readNext
      rw [advance_idem h1 h2]
      simp only [h2, h3, if_true]
    · split at h
      · split at h <;> exact absurd h (by simp)
      · exact ih h

/-- What is left to deliver. -/
structure Left (files : List Bytes) (t : EntryType) (io : IOReader) (rest : Bytes) : Prop where
  ex : ∃ n secs, readAll files t n io.reader = .ok secs ∧ EmptyLast secs ∧
    rest = io.buffer.drop io.bufferPos ++ secs.flatten

theorem read_left {files : List Bytes} {t : EntryType} {io : IOReader} {rest : Bytes}
    (hl : Left files t io rest) {n : Nat} (hn : 0 < n) :
    ∃ d io', io.read files t n = .ok (d, io') ∧ ∃ rest', rest = d ++ rest' ∧
      Left files t io' rest' ∧ d.length ≤ n ∧ (d = [] → rest = []) := by
  obtain ⟨m, secs, h1, h2, h3⟩ := hl.ex
  by_cases hb : io.buffer.length ≤ io.bufferPos
  · have hd : io.buffer.drop io.bufferPos = [] := List.drop_eq_nil_of_le hb
    rw [hd, List.nil_append] at h3
    subst h3
    cases m with
    | zero => exact absurd h1 (by simp [readAll])
    | succ m =>
      unfold readAll at h1
      cases hx : readNext files t (readFuel files) io.reader with
      | err => rw [hx] at h1; exact absurd h1 (by simp)
      | panic => rw [hx] at h1; exact absurd h1 (by simp)
      | diverges => rw [hx] at h1; exact absurd h1 (by simp)
      | ok p =>
        obtain ⟨o, r⟩ := p
        cases o with
        | none =>
          rw [hx] at h1
          simp only [Rd.ok.injEq] at h1
          subst h1
          refine ⟨[], { io with reader := r }, ?_, [], by simp, ⟨1, [], ?_, trivial, ?_⟩, by simp, by simp⟩
          · unfold IOReader.read
            simp only [hb, if_true, hx]
          · unfold readAll
            have := readNext_stays hx ((files.map List.length).sum + files.length)
            unfold readFuel
            simp only [this]
          · simp [hd]
        | some s =>
          rw [hx] at h1
          simp only at h1
          cases hy : readAll files t m r with
          | err => rw [hy] at h1; exact absurd h1 (by simp)
          | panic => rw [hy] at h1; exact absurd h1 (by simp)
          | diverges => rw [hy] at h1; exact absurd h1 (by simp)
          | ok ss =>
            rw [hy] at h1
            simp only [Rd.ok.injEq] at h1
            subst h1
            by_cases hs : s = []
            · subst hs
              have hss : ss.flatten = [] := h2.1 rfl
              refine ⟨[], ⟨r, [], 0⟩, ?_, [], by simp [hss], ⟨m, ss, hy, h2.2, by simp [hss]⟩, by simp,
                by simp [hss]⟩
              unfold IOReader.read
              simp only [hb, if_true, hx]
              simp
            have hpos : 0 < s.length := List.length_pos_iff.2 hs
            refine ⟨s.take (min n s.length), ⟨r, s, min n s.length⟩, ?_,
              s.drop (min n s.length) ++ ss.flatten, ?_, ⟨m, ss, hy, h2.2, rfl⟩, ?_, ?_⟩
            · unfold IOReader.read
              simp only [hb, if_true, hx]
              rw [if_neg (by omega)]
              simp
            · simp only [List.flatten_cons]
              rw [← List.append_assoc, List.take_append_drop]
            · simp only [List.length_take]; omega
            · intro h
              have := congrArg List.length h
              simp only [List.length_take, List.length_nil] at this
              omega
  · refine ⟨(io.buffer.drop io.bufferPos).take (min n (io.buffer.length - io.bufferPos)),
      { io with bufferPos := io.bufferPos + min n (io.buffer.length - io.bufferPos) }, ?_,
      io.buffer.drop (io.bufferPos + min n (io.buffer.length - io.bufferPos)) ++ secs.flatten, ?_,
      ⟨m, secs, h1, h2, rfl⟩, ?_, ?_⟩
    · unfold IOReader.read
      simp only [hb, if_false]
    · rw [h3, ← List.append_assoc]
      congr 1
      rw [← List.drop_drop, List.take_append_drop]
    · simp only [List.length_take]; omega
    · intro h
      have := congrArg List.length h
      simp only [List.length_take, List.length_nil, List.length_drop] at this
      omega

theorem pointwise_length {α β : Type} {R : α → β → Prop} {l : List α} {r : List β}
    (h : Pointwise R l r) : l.length = r.length := by
  induction h with
  | nil => rfl
  | cons _ _ ih => simp [ih]

theorem reads_left {files : List Bytes} {t : EntryType} {io : IOReader} {rest : Bytes}
    (hl : Left files t io rest) {ns : List Nat} (hn : ∀ n ∈ ns, 0 < n) :
    ∃ ds, io.reads files t ns = .ok ds ∧ ds.flatten <+: rest ∧ ([] ∈ ds → ds.flatten = rest) ∧
      Pointwise (fun d n => d.length ≤ n) ds ns := by
  induction ns generalizing io rest with
  | nil => exact ⟨[], rfl, by simp, by simp, .nil⟩
  | cons n ns ih =>
    obtain ⟨d, io', h1, rest', rfl, h2, h3, h4⟩ := read_left hl (hn n (by simp))
    obtain ⟨ds, h5, h6, h7, h8⟩ := ih h2 (fun m hm => hn m (by simp [hm]))
    refine ⟨d :: ds, ?_, ?_, ?_, .cons h3 h8⟩
    · simp only [IOReader.reads, h1, h5]
    · simp only [List.flatten_cons]
      exact (List.prefix_append_right_inj d).2 h6
    · intro hm
      simp only [List.flatten_cons]
      rcases List.mem_cons.1 hm with h | h
      · have h0 := h4 h.symm
        have hr : rest' = [] := (List.append_eq_nil_iff.1 h0).2
        rw [hr] at h6
        rw [List.prefix_nil.1 h6, hr]
      · rw [h7 h]

/-! ### The sections of a log -/

theorem issued_disjoint {page slabSize : Nat} {s : SecSys} {lay : List (List Sec)}
    (hi : SecInv page slabSize s lay) {i j : Nat} {a b : Issued} (ha : s.issued[i]? = some a)
    (hb : s.issued[j]? = some b) (hij : i < j) :
    a.h.slab ≤ b.h.slab ∧ (a.h.slab = b.h.slab → a.h.last ≤ b.h.off) := by
  have hord := cells_ordered page 0 (shape lay)
  rw [hi.cells, List.pairwise_map] at hord
  obtain ⟨hi1, hi2⟩ := List.getElem?_eq_some_iff.1 ha
  obtain ⟨hj1, hj2⟩ := List.getElem?_eq_some_iff.1 hb
  have := List.pairwise_iff_getElem.1 hord i j hi1 hj1 hij
  rw [hi2, hj2] at this
  refine ⟨this.1, fun h => ?_⟩
  have h1 := this.2 h
  have h2 := (hi.bound a (List.mem_of_getElem? ha)).2.1
  unfold Handle.last
  rw [h2]; exact h1

theorem issued_first {page slabSize : Nat} {s : SecSys} {lay : List (List Sec)}
    (hi : SecInv page slabSize s lay) {a : Issued} (ha : a ∈ s.issued) :
    a.h.slab < lay.length ∧ (a.h.slab = 0 → page ≤ a.h.off) := by
  have : (a.h.slab, a.h.off, a.h.req) ∈ cells page 0 (shape lay) := by
    rw [hi.cells]; exact List.mem_map.2 ⟨a, ha, rfl⟩
  have := mem_cells this
  simp only [startOf, shape, List.length_map, Nat.zero_add] at this
  refine ⟨this.2.1, fun h => ?_⟩
  have h3 := this.2.2
  rw [if_pos h] at h3
  exact h3

/-- The buffer of every section of a mapped slab is allocated. -/
theorem issued_allocated {page slabSize : Nat} {s : SecSys} {lay : List (List Sec)} (hp : 0 < page)
    (hi : SecInv page slabSize s lay) {sl : Slab} (hsl : sl ∈ s.lg.live) {a : Issued}
    (ha : a ∈ s.issued) (hs : a.h.slab = sl.suffix) : a.h.off + a.h.req ≤ sl.cgp := by
  have hm : (a.h.slab, a.h.off, a.h.req) ∈ cells page 0 (shape lay) := by
    rw [hi.cells]; exact List.mem_map.2 ⟨a, ha, rfl⟩
  obtain ⟨pre, x, post, h1, h2, h3⟩ := mem_cells_lay hm
  simp only [Nat.sub_zero] at h1 h2 h3
  obtain ⟨file, secs, hf, hl⟩ := hi.inv.slab_at hsl
  rw [hs] at h1 h2
  rw [hl] at h1
  obtain rfl := Option.some.inj h1
  have hok := hi.inv.live sl hsl file _ hf hl
  have hlast := hok.last
  rw [hi.pageEq] at hlast
  have := end_le_lastEnd hp (startOf page sl.suffix) pre x post
  rw [h2, h3]; omega

/-! ### After a crash -/

theorem take_flatten_prefix {lay : List (List Sec)} (k : Nat) :
    (lay.take k).flatten ++ (lay.drop k).flatten = lay.flatten := by
  rw [← List.flatten_append, List.take_append_drop]

theorem oldest_le {lg : Logger} {lay : List (List Sec)} {own : Nat → Option Handle}
    (hi : Inv lg lay own) : lg.oldestMapped < lay.length ∧
      ∀ sl ∈ lg.live, lg.oldestMapped ≤ sl.suffix := by
  have hs := hi.sorted
  have hm : ∃ x l, lg.live = x :: l := by
    unfold Logger.live
    cases lg.back with
    | nil => exact ⟨_, _, rfl⟩
    | cons a l => exact ⟨_, _, rfl⟩
  obtain ⟨x, l, hx⟩ := hm
  have hold : lg.oldestMapped = x.suffix := by
    unfold Logger.oldestMapped Logger.mapped
    unfold Logger.live at hx
    rw [hx]; rfl
  rw [hold]
  refine ⟨hi.suffix_lt (by rw [hx]; simp), ?_⟩
  intro sl hsl
  rw [hx] at hs hsl
  rw [List.map_cons, List.pairwise_cons] at hs
  rcases List.mem_cons.1 hsl with rfl | h
  · exact Nat.le_refl _
  · exact Nat.le_of_lt (hs.1 _ (List.mem_map_of_mem h))

theorem holds_crash {lg : Logger} {lay : List (List Sec)} {own : Nat → Option Handle}
    (hi : Inv lg lay own) (hne : NonEmpty lay) (hp : lg.pageSize < 65536) :
    Holds lg.pageSize lg.files (lay.take (lg.oldestMapped + 1)) := by
  obtain ⟨h1, h2⟩ := oldest_le hi
  have get : ∀ (k : Nat) x, (lay.take (lg.oldestMapped + 1))[k]? = some x →
      lay[k]? = some x ∧ k < lg.oldestMapped + 1 := by
    intro k x h
    rw [List.getElem?_take] at h
    split at h
    · exact ⟨h, by assumption⟩
    · exact absurd h (by simp)
  refine ⟨hi.page_pos, hp, ?_, ?_, ?_, ?_, hi.main_at, ?_⟩
  · rw [List.length_take, hi.files_len]; omega
  · rw [List.length_take]; omega
  · intro k file secs hf hl
    exact hi.secs k file secs hf (get k secs hl).1
  · intro k file secs hf hl hk
    rw [List.length_take] at hk
    refine (hi.trimmed k file secs hf (get k secs hl).1 ?_).2
    intro sl hsl e
    have := h2 sl hsl
    omega
  · intro k hk h
    exact hne k hk (get k _ h).1

theorem take_index {page slabSize : Nat} {s : SecSys} {lay : List (List Sec)}
    (hi : SecInv page slabSize s lay) {K n : Nat} {e : Issued} (hn : s.issued[n]? = some e)
    (hs : e.h.slab ≤ K) (hK : K < lay.length) : n < (lay.take (K + 1)).flatten.length := by
  apply Classical.byContradiction
  intro hge
  have hlen : (cells page 0 (shape (lay.take (K + 1)))).length = (lay.take (K + 1)).flatten.length := by
    rw [cells_length]
    have hfun : List.length ∘ List.map Sec.req = List.length := by funext x; simp
    simp [shape, List.length_flatten, hfun]
  have hsplit : cells page 0 (shape lay) = cells page 0 (shape (lay.take (K + 1))) ++
      cells page (K + 1) (shape (lay.drop (K + 1))) := by
    have : shape lay = shape (lay.take (K + 1)) ++ shape (lay.drop (K + 1)) := by
      unfold shape; rw [← List.map_append, List.take_append_drop]
    rw [this, cells_append]
    congr 2
    simp only [shape, List.length_map, List.length_take]; omega
  have hc : (cells page 0 (shape lay))[n]? = some (e.h.slab, e.h.off, e.h.req) := by
    rw [hi.cells, List.getElem?_map, hn]; rfl
  rw [hsplit, List.getElem?_append_right (by omega)] at hc
  have := (mem_cells (List.mem_of_getElem? hc)).1
  simp only at this
  omega

theorem visible_eq {l : List Issued} {t : EntryType} (ht : t ≠ .empty) :
    ((l.mapIdx secOf).filter (·.et == t)).map Sec.content = visibleOf t l := by
  unfold visibleOf
  suffices h : ∀ k, ((l.mapIdx (fun i => secOf (i + k))).filter (·.et == t)).map Sec.content =
      (l.filter (·.h.header.entryType == t)).map Issued.visible from h 0
  induction l with
  | nil => intro k; rfl
  | cons e l ih =>
    intro k
    rw [List.mapIdx_cons]
    have ih' := ih (k + 1)
    have hfun : (fun i => secOf (i + 1 + k)) = fun i => secOf (i + (k + 1)) := by
      funext i; congr 1; omega
    rw [hfun]
    by_cases he : e.h.header.entryType = t
    · rw [List.filter_cons_of_pos (by simp [secOf, he]), List.filter_cons_of_pos (by simp [he]),
        List.map_cons, List.map_cons, ih']
      congr 1
      unfold Sec.content Issued.visible secOf
      cases e.isOpen <;> simp [he, ht]
    · rw [List.filter_cons_of_neg (by simp [secOf, he]), List.filter_cons_of_neg (by simp [he]), ih']

theorem mapIdx_take {l : List Issued} (n : Nat) :
    (l.take n).mapIdx secOf = (l.mapIdx secOf).take n := by
  apply List.ext_getElem?
  intro i
  rw [List.getElem?_mapIdx, List.getElem?_take, List.getElem?_take, List.getElem?_mapIdx]
  split <;> rfl

end ULog
end Verif
