import Verif.Spec.CrashExport
import Verif.Proofs.UnifiedLogUse
/-! What a reader of the files of a killed process delivers. -/
namespace Verif
namespace ULog
open Bincode

/-! ### Beyond the last section that can be reached -/

theorem dec_zeros {n : Nat} {h : SectionHeader} {rest : Bytes}
    (hd : (dec : Dec SectionHeader) (List.replicate n 0) = .ok (h, rest)) : h.magicOk = false := by
  match n with
  | 0 => cases hd
  | 1 => cases hd
  | 2 => cases hd
  | 3 => cases hd
  | 4 => cases hd
  | n + 5 =>
    have : (dec : Dec SectionHeader) (List.replicate (n + 5) 0) = .ok (⟨0, 0, .empty, 0, 0⟩, List.replicate n 0) := by
      simp only [List.replicate_succ]
      rfl
    rw [this] at hd
    cases hd
    rfl

variable {page : Nat} {files : List Bytes} {lay : List (List Sec)}

/-- At the end of the last slab of `lay` no section can be read. -/
def Stuck (page : Nat) (files : List Bytes) (lay : List (List Sec)) : Prop :=
  ∀ (file : Bytes) (secs : List Sec), files[lay.length - 1]? = some file → lay[lay.length - 1]? = some secs →
    (file.length ≤ endOf page (startOf page (lay.length - 1)) secs ∧ files.length = lay.length) ∨
    (endOf page (startOf page (lay.length - 1)) secs < file.length ∧
      ∃ n, file.drop (endOf page (startOf page (lay.length - 1)) secs) = List.replicate n 0)

theorem readNext_stuck (hh : Holds page files lay) (hs : Stuck page files lay) {r : Reader}
    (ha : At page lay r []) (t : EntryType) (fuel : Nat) :
    ∀ x, readNext files t fuel r ≠ .ok x := by
  intro x hx
  cases fuel with
  | zero => simp [readNext] at hx
  | succ fuel =>
    obtain ⟨pre, rest, hl, hpos, htodo⟩ := ha
    have hrest : rest = [] := (List.append_eq_nil_iff.1 htodo.symm).1
    have hdrop : (lay.drop (r.slab + 1)).flatten = [] := (List.append_eq_nil_iff.1 htodo.symm).2
    subst hrest
    rw [List.append_nil] at hl
    have hlt := (List.getElem?_eq_some_iff.1 hl).1
    have hlast : r.slab = lay.length - 1 := by
      apply Classical.byContradiction
      intro hn
      have hk : r.slab + 1 < lay.length := by omega
      obtain ⟨a, h1⟩ : ∃ a, lay[r.slab + 1]? = some a := ⟨_, List.getElem?_eq_getElem hk⟩
      have hmem : a ∈ lay.drop (r.slab + 1) := by
        refine List.mem_of_getElem? (i := 0) ?_
        rw [List.getElem?_drop]; exact h1
      have : a = [] := (List.flatten_eq_nil_iff.1 hdrop) a hmem
      subst this
      exact hh.nonempty (r.slab + 1) (by omega) h1
    obtain ⟨file, hf⟩ := hh.lookup hl
    unfold readNext at hx
    unfold Reader.advance at hx
    rw [hf] at hx
    simp only at hx
    rcases hs file pre (by rw [← hlast]; exact hf) (by rw [← hlast]; exact hl) with ⟨h1, h2⟩ | ⟨h1, n, h2⟩
    · rw [← hlast, ← hpos] at h1
      rw [if_pos h1] at hx
      have hnone : files[r.slab + 1]? = none := by
        rw [List.getElem?_eq_none_iff]; omega
      simp [openSlab, hnone] at hx
    · rw [← hlast, ← hpos] at h1 h2
      rw [if_neg (by omega)] at hx
      unfold readHeader at hx
      simp only [hf] at hx
      rw [if_neg (by omega), h2] at hx
      cases hd : (dec : Dec SectionHeader) (List.replicate n 0) with
      | error e => rw [hd] at hx; simp at hx
      | ok p =>
        obtain ⟨h, rest⟩ := p
        rw [hd] at hx
        simp [dec_zeros hd] at hx

/-- In front of sections none of which is of the type. -/
theorem readNext_stuck' (hh : Holds page files lay) (hs : Stuck page files lay) {t : EntryType}
    {A : List Sec} (hA : ∀ a ∈ A, a.et ≠ t ∧ a.et ≠ .lastEntry) {r : Reader} (ha : At page lay r A)
    (fuel : Nat) : ∀ x, readNext files t fuel r ≠ .ok x := by
  induction A generalizing r fuel with
  | nil => exact readNext_stuck hh hs ha t fuel
  | cons a A ih =>
    intro x hx
    cases fuel with
    | zero => simp [readNext] at hx
    | succ fuel =>
      obtain ⟨r', h1, h2, h3, h4, h5⟩ := at_step hh ha
      have hA' := hA a (by simp)
      unfold readNext at hx
      simp only [h1, h2, h4] at hx
      rw [if_neg hA'.2, if_neg hA'.1] at hx
      exact ih (fun x hx => hA x (by simp [hx])) h5 fuel x hx

/-! ### Reading to the end -/

/-- What is delivered before the first empty section, and whether there is one. -/
def upTo : List Bytes → List Bytes × Bool
  | [] => ([], false)
  | d :: l => if d = [] then ([], true) else (d :: (upTo l).1, (upTo l).2)

theorem split_type (t : EntryType) (l : List Sec) :
    (∀ a ∈ l, a.et ≠ t) ∨ ∃ A s B, l = A ++ s :: B ∧ (∀ a ∈ A, a.et ≠ t) ∧ s.et = t := by
  induction l with
  | nil => exact .inl (by simp)
  | cons a l ih =>
    by_cases h : a.et = t
    · exact .inr ⟨[], a, l, rfl, by simp, h⟩
    · rcases ih with ih | ⟨A, s, B, rfl, h2, h3⟩
      · refine .inl fun x hx => ?_
        rcases List.mem_cons.1 hx with rfl | hx
        · exact h
        · exact ih x hx
      · refine .inr ⟨a :: A, s, B, rfl, fun x hx => ?_, h3⟩
        rcases List.mem_cons.1 hx with rfl | hx
        · exact h
        · exact h2 x hx

/-- The buffer of a reader and the sections in front of it. -/
theorem drain_spec (hh : Holds page files lay) (hs : Stuck page files lay) {t : EntryType}
    (ht : t ≠ .lastEntry) (hfuel : lay.flatten.length < readFuel files) {ns : List Nat} :
    ∀ {io : IOReader} {todo : List Sec}, At page lay io.reader todo → todo.length ≤ lay.flatten.length →
    (∀ a ∈ todo, a.et ≠ .lastEntry) → (∀ n ∈ ns, 0 < n) →
    let all := io.buffer.drop io.bufferPos ++ (upTo ((todo.filter (·.et == t)).map Sec.content)).1.flatten
    let r := io.drain files t ns
    r.1 <+: all ∧ (r.2 ≠ .more → r.1 = all) ∧ (all.length < ns.length → r.2 ≠ .more) ∧
      (r.2 = .eof → (upTo ((todo.filter (·.et == t)).map Sec.content)).2 = true) ∧
      (r.2 = .failed → (upTo ((todo.filter (·.et == t)).map Sec.content)).2 = false) := by
  induction ns with
  | nil => intro io todo _ _ _ _; simp [IOReader.drain]
  | cons n ns ih =>
    intro io todo ha hlen hlast hn
    have hn0 : 0 < n := hn n (by simp)
    have hn' : ∀ m ∈ ns, 0 < m := fun m hm => hn m (by simp [hm])
    by_cases hb : io.buffer.length ≤ io.bufferPos
    · have hd : io.buffer.drop io.bufferPos = [] := List.drop_eq_nil_of_le hb
      rcases split_type t todo with hno | ⟨A, s, B, rfl, hA, hst⟩
      · -- no section left
        have hf : todo.filter (·.et == t) = [] := by
          rw [List.filter_eq_nil_iff]; intro a ha; simpa using hno a ha
        have hst := readNext_stuck' hh hs (fun a ha => ⟨hno a ha, hlast a ha⟩) ha (readFuel files)
        have hr : io.drain files t (n :: ns) = ([], .failed) := by
          unfold IOReader.drain IOReader.read
          simp only [hb, if_true]
          cases hx : readNext files t (readFuel files) io.reader with
          | ok x => exact absurd hx (hst x)
          | err => rfl
          | panic => rfl
          | diverges => rfl
        simp only [hr, hd, hf]
        simp [upTo]
      · obtain ⟨r', h1, h2⟩ := readNext_some hh ht (fun a ha => ⟨hA a ha, hlast a (by simp [ha])⟩) hst ha
          (fuel := readFuel files) (by simp only [List.length_append, List.length_cons] at hlen; omega)
        have hfA : A.filter (·.et == t) = [] := by
          rw [List.filter_eq_nil_iff]; intro a ha; simpa using hA a ha
        have hf : ((A ++ s :: B).filter (·.et == t)).map Sec.content =
            s.content :: (B.filter (·.et == t)).map Sec.content := by
          rw [List.filter_append, hfA, List.filter_cons_of_pos (by simp [hst])]; rfl
        simp only [hd, hf, upTo, List.nil_append]
        by_cases hc : s.content = []
        · have hr : io.drain files t (n :: ns) = ([], .eof) := by
            unfold IOReader.drain IOReader.read
            simp only [hb, if_true, h1, hc]
            rfl
          simp [hr, hc]
        · have hpos : 0 < s.content.length := List.length_pos_iff.2 hc
          obtain ⟨x, xs, hxs⟩ : ∃ x xs, s.content.take (min n s.content.length) = x :: xs := by
            cases hx : s.content.take (min n s.content.length) with
            | nil =>
              have := congrArg List.length hx
              simp only [List.length_take, List.length_nil] at this
              omega
            | cons x xs => exact ⟨x, xs, rfl⟩
          have hread : io.read files t n = .ok (x :: xs, ⟨r', s.content, min n s.content.length⟩) := by
            unfold IOReader.read
            simp only [hb, if_true, h1]
            rw [if_neg (by simp; omega)]
            simp [hxs]
          have hr : io.drain files t (n :: ns) = (x :: xs ++
              (IOReader.drain files t ⟨r', s.content, min n s.content.length⟩ ns).1,
              (IOReader.drain files t ⟨r', s.content, min n s.content.length⟩ ns).2) := by
            rw [IOReader.drain, hread]
          obtain ⟨i1, i2, i3, i4, i5⟩ := ih (io := ⟨r', s.content, min n s.content.length⟩) (todo := B) h2
            (by simp only [List.length_append, List.length_cons] at hlen; omega) (fun a ha => hlast a (by simp [ha])) hn'
          simp only at i1 i2 i3
          have hsplit : s.content = (x :: xs) ++ s.content.drop (min n s.content.length) := by
            rw [← hxs, List.take_append_drop]
          generalize IOReader.drain files t ⟨r', s.content, min n s.content.length⟩ ns = q at *
          rw [hr, if_neg hc]
          simp only [List.flatten_cons]
          generalize hrest : s.content.drop (min n s.content.length) = rest at *
          rw [hsplit]
          refine ⟨?_, ?_, ?_, i4, i5⟩
          · rw [List.append_assoc]
            exact (List.prefix_append_right_inj _).2 i1
          · intro h; rw [i2 h, List.append_assoc]
          · intro h
            refine i3 ?_
            simp only [List.length_append, List.length_cons] at h ⊢
            omega
    · -- something left in the buffer
      have hlen2 : 0 < min n (io.buffer.length - io.bufferPos) := by omega
      generalize hm : min n (io.buffer.length - io.bufferPos) = m at *
      obtain ⟨x, xs, hxs⟩ : ∃ x xs, (io.buffer.drop io.bufferPos).take m = x :: xs := by
        cases hx : (io.buffer.drop io.bufferPos).take m with
        | nil =>
          have := congrArg List.length hx
          simp only [List.length_take, List.length_drop, List.length_nil] at this
          omega
        | cons x xs => exact ⟨x, xs, rfl⟩
      have hread : io.read files t n = .ok (x :: xs, { io with bufferPos := io.bufferPos + m }) := by
        unfold IOReader.read
        simp only [hb, if_false, hm, hxs]
      have hr : io.drain files t (n :: ns) = (x :: xs ++
          (IOReader.drain files t { io with bufferPos := io.bufferPos + m } ns).1,
          (IOReader.drain files t { io with bufferPos := io.bufferPos + m } ns).2) := by
        rw [IOReader.drain, hread]
      obtain ⟨i1, i2, i3, i4, i5⟩ := ih (io := { io with bufferPos := io.bufferPos + m }) (todo := todo) ha
        hlen hlast hn'
      simp only at i1 i2 i3
      have hsplit : io.buffer.drop io.bufferPos = (x :: xs) ++ io.buffer.drop (io.bufferPos + m) := by
        rw [← hxs, ← List.drop_drop, List.take_append_drop]
      generalize IOReader.drain files t { io with bufferPos := io.bufferPos + m } ns = q at *
      rw [hr]
      simp only
      rw [hsplit]
      refine ⟨?_, ?_, ?_, i4, i5⟩
      · rw [List.append_assoc]
        exact (List.prefix_append_right_inj _).2 i1
      · intro h; rw [i2 h, List.append_assoc]
      · intro h
        refine i3 ?_
        simp only [List.length_append, List.length_cons] at h ⊢
        omega

/-! ### The slabs that can be reached -/

/-- Every slab before `K` ends with its last section. -/
def CutBefore (page : Nat) (files : List Bytes) (lay : List (List Sec)) (K : Nat) : Prop :=
  ∀ (k : Nat) (file : Bytes) (secs : List Sec), k < K → files[k]? = some file → lay[k]? = some secs →
    file.length = endOf page (startOf page k) secs

theorem cut_max (page : Nat) (files : List Bytes) (lay : List (List Sec)) 
    {K0 : Nat} (h0 : CutBefore page files lay K0) (hK0 : K0 < lay.length) :
    ∃ K, K0 ≤ K ∧ K < lay.length ∧ CutBefore page files lay K ∧
      (K + 1 < lay.length → ¬ CutBefore page files lay (K + 1)) := by
  -- the first index from which on it fails
  generalize hd : lay.length - K0 = d at *
  induction d generalizing K0 with
  | zero => omega
  | succ d ih =>
    by_cases h : K0 + 1 < lay.length ∧ CutBefore page files lay (K0 + 1)
    · obtain ⟨K, h1, h2, h3, h4⟩ := ih h.2 h.1 (by omega)
      exact ⟨K, by omega, h2, h3, h4⟩
    · exact ⟨K0, Nat.le_refl _, hK0, h0, fun h1 h2 => h ⟨h1, h2⟩⟩

theorem reachable_slabs {lg : Logger} {lay : List (List Sec)} {own : Nat → Option Handle}
    (hi : Inv lg lay own) (hne : NonEmpty lay) (hp : lg.pageSize < 65536)
    (hend : ∀ (k : Nat) (file : Bytes) (secs : List Sec), lg.files[k]? = some file → lay[k]? = some secs →
      endOf lg.pageSize (startOf lg.pageSize k) secs ≤ file.length) :
    ∃ K, lg.oldestMapped ≤ K ∧ K < lay.length ∧ Holds lg.pageSize lg.files (lay.take (K + 1)) ∧
      Stuck lg.pageSize lg.files (lay.take (K + 1)) := by
  obtain ⟨h1, h2⟩ := oldest_le hi
  have h0 : CutBefore lg.pageSize lg.files lay lg.oldestMapped := by
    intro k file secs hk hf hl
    refine (hi.trimmed k file secs hf hl ?_).2
    intro sl hsl e
    have := h2 sl hsl
    omega
  obtain ⟨K, hK1, hK2, hK3, hK4⟩ := cut_max lg.pageSize lg.files lay h0 h1
  have hfl := hi.files_len
  have get : ∀ (k : Nat) x, (lay.take (K + 1))[k]? = some x → lay[k]? = some x ∧ k < K + 1 := by
    intro k x h
    rw [List.getElem?_take] at h
    split at h
    · exact ⟨h, by assumption⟩
    · exact absurd h (by simp)
  have hlen : (lay.take (K + 1)).length = K + 1 := by rw [List.length_take]; omega
  refine ⟨K, hK1, hK2, ⟨hi.page_pos, hp, by omega, by omega, ?_, ?_, hi.main_at, ?_⟩, ?_⟩
  · intro k file secs hf hl
    exact hi.secs k file secs hf (get k secs hl).1
  · intro k file secs hf hl hk
    exact hK3 k file secs (by omega) hf (get k secs hl).1
  · intro k hk h
    exact hne k hk (get k _ h).1
  · intro file secs hf hl
    rw [hlen, Nat.add_sub_cancel] at hf hl ⊢
    have hl' := (get K secs hl).1
    have hle := hend K file secs hf hl'
    by_cases heq : file.length = endOf lg.pageSize (startOf lg.pageSize K) secs
    · refine .inl ⟨by omega, ?_⟩
      apply Classical.byContradiction
      intro hn
      refine hK4 (by omega) ?_
      intro k file' secs' hk hf' hl2
      by_cases hkK : k = K
      · subst hkK
        obtain rfl := Option.some.inj (hf.symm.trans hf')
        obtain rfl := Option.some.inj (hl'.symm.trans hl2)
        exact heq
      · exact hK3 k file' secs' (by omega) hf' hl2
    · refine .inr ⟨by omega, file.length - endOf lg.pageSize (startOf lg.pageSize K) secs, ?_⟩
      have hlive : ∃ sl ∈ lg.live, sl.suffix = K := by
        apply Classical.byContradiction
        intro hn
        exact heq (hi.trimmed K file secs hf hl' (fun sl hsl e => hn ⟨sl, hsl, e⟩)).2
      obtain ⟨sl, hsl, rfl⟩ := hlive
      have htail := (hi.live sl hsl file secs hf hl').tail _
        (file.length - endOf lg.pageSize (startOf lg.pageSize sl.suffix) secs) (Nat.le_refl _) (by omega)
      rw [← htail]
      unfold slice
      exact (List.take_of_length_le (by rw [List.length_drop]; omega)).symm

theorem cellsFrom_mem {page k off : Nat} (pre : List Sec) (s : Sec) (post : List Sec) :
    (k, endOf page off pre, s.req) ∈ cellsFrom page k off ((pre ++ s :: post).map Sec.req) := by
  induction pre generalizing off with
  | nil => simp [cellsFrom, endOf]
  | cons a pre ih =>
    simp only [List.cons_append, List.map_cons, cellsFrom, endOf]
    exact List.mem_cons_of_mem _ ih

theorem cells_mem {page : Nat} {lay : List (List Sec)} {k0 k : Nat} {secs : List Sec} (h : lay[k]? = some secs) :
    ∀ c ∈ cellsFrom page (k0 + k) (startOf page (k0 + k)) (secs.map Sec.req), c ∈ cells page k0 (shape lay) := by
  induction lay generalizing k k0 with
  | nil => simp at h
  | cons a lay ih =>
    intro c hc
    simp only [shape, List.map_cons, cells, List.mem_append]
    cases k with
    | zero => simp at h; subst h; exact .inl hc
    | succ k =>
      refine .inr (ih (k0 := k0 + 1) (k := k) (by simpa using h) c ?_)
      rw [show k0 + 1 + k = k0 + (k + 1) by omega]; exact hc

/-- Sections end inside their slab. -/
theorem endOf_le {page slabSize : Nat} {s : SecSys} {lay : List (List Sec)}
    (hi : SecInv page slabSize s lay) (hps : page ≤ slabSize) (k : Nat) (file : Bytes) (secs : List Sec)
    (hf : s.lg.files[k]? = some file) (hl : lay[k]? = some secs) :
    endOf page (startOf page k) secs ≤ file.length := by
  by_cases hlive : ∃ sl ∈ s.lg.live, sl.suffix = k
  · obtain ⟨sl, hsl, rfl⟩ := hlive
    have hlen := (hi.inv.live sl hsl file secs hf hl).len
    rw [hi.slabEq] at hlen
    rw [hlen]
    rcases List.eq_nil_or_concat secs with rfl | ⟨pre, x, rfl⟩
    · simp only [endOf, startOf]
      split <;> omega
    · rw [List.concat_eq_append] at hl ⊢
      have h1 := cells_mem (page := page) (k0 := 0) hl _ (by rw [Nat.zero_add]; exact cellsFrom_mem pre x [])
      rw [hi.cells] at h1
      obtain ⟨e, he, h2⟩ := List.mem_map.1 h1
      have h3 := (hi.bound e he).1
      simp only [Prod.mk.injEq] at h2
      rw [endOf_append]
      simp only [endOf]
      rw [h2.2.1, h2.2.2] at h3
      exact h3
  · have := (hi.inv.trimmed k file secs hf hl (fun sl hsl e => hlive ⟨sl, hsl, e⟩)).2
    rw [hi.pageEq] at this
    omega

/-- The files of a killed process, read as a byte stream of a type: the visible content of sections,
in order, up to the first one that is empty, with any buffer sizes; all those of the slabs up to the
oldest one still mapped. -/
theorem drain_crash {page slabSize : Nat} (hz : SizesOk page slabSize) {s : SecSys}
    (h : Reachable page slabSize s) (htypes : ∀ x ∈ s.issued, x.h.header.entryType ≠ .lastEntry)
    {t : EntryType} (ht : t ≠ .lastEntry) (ht' : t ≠ .empty) :
    ∃ m, (∀ (n : Nat) (e : Issued), s.issued[n]? = some e → e.h.slab ≤ s.lg.oldestMapped → n < m) ∧
      ∀ ns : List Nat, (∀ n ∈ ns, 0 < n) →
        let out := upTo (visibleOf t (s.issued.take m))
        let r := drainLog s.lg.files t ns
        r.1 <+: out.1.flatten ∧ (r.2 ≠ .more → r.1 = out.1.flatten) ∧
          (out.1.flatten.length < ns.length → r.2 ≠ .more) ∧
          (r.2 = .eof → out.2 = true) ∧ (r.2 = .failed → out.2 = false) := by
  have hpm := hz.page_min
  have hal := align_le (page := page) (by omega) 80
  have hps : page ≤ slabSize := by
    have h1 := hz.slab
    have h2 : page ≤ align page 80 := by
      unfold align
      have : 0 < (80 + page - 1) / page := Nat.div_pos (by omega) (by omega)
      exact Nat.le_mul_of_pos_left _ this
    omega
  obtain ⟨lay, hi⟩ := reachable_inv hz.page_min (by have := hz.slab; omega) h
  obtain ⟨K, hK1, hK2, hh, hst⟩ := reachable_slabs hi.inv hi.nonempty (by rw [hi.pageEq]; exact hz.page_max)
    (by rw [hi.pageEq]; exact endOf_le hi hps)
  rw [hi.pageEq] at hh hst
  obtain ⟨r, hr, hat⟩ := reader_new hh
  have hfuel := holds_fuel hh
  have hpre := take_flatten_prefix (lay := lay) (K + 1)
  rw [hi.flat] at hpre
  have hF : (lay.take (K + 1)).flatten = (s.issued.take (lay.take (K + 1)).flatten.length).mapIdx secOf := by
    rw [mapIdx_take, ← hpre, List.take_left]
  refine ⟨(lay.take (K + 1)).flatten.length, ?_, ?_⟩
  · intro n e hn hslab
    exact take_index hi hn (Nat.le_trans hslab hK1) hK2
  · intro ns hns
    have hd := drain_spec hh hst ht hfuel (ns := ns) (io := IOReader.new r) hat (Nat.le_refl _) (by
      intro a ha
      rw [hF] at ha
      obtain ⟨i, hi'⟩ := List.getElem?_of_mem ha
      rw [List.getElem?_mapIdx] at hi'
      obtain ⟨z, hz', rfl⟩ := Option.map_eq_some_iff.1 hi'
      exact htypes z (List.mem_of_mem_take (List.mem_of_getElem? hz'))) hns
    have hv : ((lay.take (K + 1)).flatten.filter (·.et == t)).map Sec.content =
        visibleOf t (s.issued.take (lay.take (K + 1)).flatten.length) := by
      rw [← visible_eq ht', ← hF]
    rw [hv] at hd
    simp only [drainLog, hr]
    simpa [IOReader.new] using hd

end ULog
end Verif
