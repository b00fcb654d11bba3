import Verif.Proofs.Damage
import Verif.Proofs.UnifiedLogUse
/-! Reading damaged files. -/
namespace Verif
namespace ULog
open Bincode

variable {page : Nat} {files files' : List Bytes} {lay : List (List Sec)}

/-- Reading files with damage within the spots: what is in the spots now. -/
theorem readLog_damaged (hh : Holds page files lay) (hpg : 13 < page) {L : List Sec} {e : Sec}
    (hlay : lay.flatten = L ++ [e]) (he : e.et = .lastEntry ∧ e.owner = none)
    (hL : ∀ s ∈ L, s.et ≠ .empty ∧ s.et ≠ .lastEntry ∧ s.owner = none) {S : List Spot} {x : Spot}
    (hS : spotsOf page lay = S ++ [x]) (hd : DamagedIn (spotsOf page lay) files files') (t : EntryType) :
    readLog files' t = .ok (contents files' t S) := by
  have hh' := holds_damaged hh (by
    intro s hs
    rw [hlay] at hs
    rcases List.mem_append.1 hs with h | h
    · exact (hL s h).2.2
    · rw [List.mem_singleton.1 h]; exact he.2) hpg hd
  obtain ⟨S2, x2, L', h1, h2, h3, h4⟩ := spots_relay hh hd.1 hlay
  obtain ⟨rfl, _⟩ := List.append_inj' (h1.symm.trans hS) rfl
  have hm : ∀ s ∈ L', s.et ≠ .empty ∧ s.et ≠ .lastEntry ∧ s.owner = none := by
    intro s hs
    have : (s.req, s.et, s.owner) ∈ L.map (fun s => (s.req, s.et, s.owner)) := by
      rw [← h4]; exact List.mem_map_of_mem hs
    obtain ⟨y, hy, hye⟩ := List.mem_map.1 this
    simp only [Prod.mk.injEq] at hye
    rw [← hye.2.1, ← hye.2.2]
    exact hL y hy
  rw [readLog_spec hh' (t := t) (L := L') (B := []) h2 (fun s hs => (hm s hs).2.1) he.1]
  congr 1
  have : (L'.filter (·.et == t)).map Sec.content = (L'.filter (·.et == t)).map Sec.data := by
    apply List.map_congr_left
    intro s hs
    obtain ⟨a, _, b⟩ := hm s (List.mem_filter.1 hs).1
    simp [Sec.content, a, b]
  rw [this]
  unfold contents
  rw [pairs_filter (f := fun s : Sec => s.et) (g := Sec.data), pairs_filter (f := fun p : Spot => p.type), h3]

/-! ### The front of files of which the rest is damaged -/

theorem flatten_mapIdx_split {α β : Type} {f : Nat → α → List β} {lay : List α} {pre post : List β} {p : β}
    (h : (lay.mapIdx f).flatten = pre ++ p :: post) :
    ∃ k a pre1 post1, lay[k]? = some a ∧ f k a = pre1 ++ p :: post1 ∧
      pre = ((lay.take k).mapIdx f).flatten ++ pre1 := by
  induction lay generalizing f pre with
  | nil => simp at h
  | cons x lay ih =>
    rw [List.mapIdx_cons, List.flatten_cons] at h
    rcases List.append_eq_append_iff.1 h with ⟨c, h1, h2⟩ | ⟨c, h1, h2⟩
    · obtain ⟨k, a, pre1, post1, g1, g2, g3⟩ := ih (f := fun i => f (i + 1)) h2
      exact ⟨k + 1, a, pre1, post1, g1, g2, by rw [h1, g3, List.take_succ_cons, List.mapIdx_cons]; simp⟩
    · cases c with
      | nil =>
        simp only [List.nil_append] at h2
        obtain ⟨k, a, pre1, post1, g1, g2, g3⟩ := ih (f := fun i => f (i + 1)) (pre := []) h2.symm
        refine ⟨k + 1, a, pre1, post1, g1, g2, ?_⟩
        rw [List.append_nil] at h1
        rw [List.take_succ_cons, List.mapIdx_cons, List.flatten_cons, List.append_assoc, ← g3, h1, List.append_nil]
      | cons c0 c =>
        simp only [List.cons_append, List.cons.injEq] at h2
        obtain ⟨rfl, h2⟩ := h2
        exact ⟨0, x, pre, c, rfl, h1, by simp⟩

theorem spotsFrom_split {k off : Nat} {l : List Sec} {pre post : List Spot} {p : Spot}
    (h : spotsFrom page k off l = pre ++ p :: post) :
    ∃ a s b, l = a ++ s :: b ∧ pre = spotsFrom page k off a ∧ p = ⟨s.et, k, endOf page off a + 15, s.data.length⟩ := by
  induction l generalizing off pre with
  | nil => simp [spotsFrom] at h
  | cons s l ih =>
    cases pre with
    | nil =>
      simp only [spotsFrom, List.nil_append, List.cons.injEq] at h
      exact ⟨[], s, l, rfl, rfl, h.1.symm⟩
    | cons q pre =>
      simp only [spotsFrom, List.cons_append, List.cons.injEq] at h
      obtain ⟨a, s', b, rfl, rfl, rfl⟩ := ih h.2
      exact ⟨s :: a, s', b, rfl, by simp [spotsFrom, h.1], rfl⟩

theorem spotsOf_split {pre post : List Spot} {p : Spot} (h : spotsOf page lay = pre ++ p :: post) :
    ∃ a s b, lay[p.file]? = some (a ++ s :: b) ∧
      pre = spotsOf page (lay.take p.file) ++ spotsFrom page p.file (startOf page p.file) a ∧
      p.pos = endOf page (startOf page p.file) a + 15 := by
  obtain ⟨k, secs, pre1, post1, h1, h2, h3⟩ := flatten_mapIdx_split h
  obtain ⟨a, s, b, rfl, rfl, rfl⟩ := spotsFrom_split h2
  exact ⟨a, s, b, h1, h3, rfl⟩

/-- The sections in front of some section. -/
def frontLay (lay : List (List Sec)) (k : Nat) (a : List Sec) : List (List Sec) :=
  if a = [] ∧ 0 < k then lay.take k else lay.take k ++ [a]

theorem frontLay_flatten (lay : List (List Sec)) (k : Nat) (a : List Sec) :
    (frontLay lay k a).flatten = (lay.take k).flatten ++ a := by
  unfold frontLay
  split
  · rename_i h; rw [h.1, List.append_nil]
  · simp

theorem front_holds (hh : Holds page files lay) (hpg : 13 < page) {k : Nat} {a b : List Sec} {s : Sec}
    (hl : lay[k]? = some (a ++ s :: b))
    (hd : DamagedFrom k (endOf page (startOf page k) a) files files') : Holds page files' (frontLay lay k a) := by
  obtain ⟨hd1, file, file', hf, hf', hn, htake⟩ := hd
  have hk := (List.getElem?_eq_some_iff.1 hl).1
  have hk' := (List.getElem?_eq_some_iff.1 hf').1
  have hso := hh.secs k file _ hf hl
  rw [secsOk_append] at hso
  have hn' : endOf page (startOf page k) a ≤ file'.length := by
    have := congrArg List.length htake
    simp only [List.length_take] at this
    omega
  have same : ∀ i, i < endOf page (startOf page k) a → file'[i]? = file[i]? := by
    intro i hi
    have := congrArg (·[i]?) htake
    simpa [List.getElem?_take, hi] using this
  have hok : ∀ {off : Nat} {l : List Sec}, endOf page off l ≤ endOf page (startOf page k) a →
      SecsOk page file off l → SecsOk page file' off l := by
    intro off l
    induction l generalizing off with
    | nil => intro _ _; trivial
    | cons x l ih =>
      intro hle hx
      simp only [endOf] at hle
      have h1 := le_endOf page (off + align page x.req) l
      have h2 := align_le hh.page_pos x.req
      have h3 := hx.1.room
      have h4 := hx.1.req
      have h5 := enc_header_le (x.header page)
      refine ⟨⟨hx.1.req, hx.1.size, by omega, hx.1.room, ?_, ?_, ?_⟩, ih hle hx.2⟩
      · rw [slice_congr (f := file), hx.1.header]
        intro i _ hi; exact same i (by omega)
      · rw [slice_congr (f := file), hx.1.data]
        intro i _ hi; exact same i (by omega)
      · intro ho
        rw [slice_congr (f := file), hx.1.gap ho]
        intro i _ hi; exact same i (by omega)
  have get : ∀ (j : Nat) x, (frontLay lay k a)[j]? = some x →
      (j < k ∧ lay[j]? = some x) ∨ (j = k ∧ x = a ∧ ¬ (a = [] ∧ 0 < k)) := by
    intro j x hx
    unfold frontLay at hx
    split at hx
    · rw [List.getElem?_take] at hx
      split at hx
      · exact .inl ⟨‹_›, hx⟩
      · cases hx
    · rename_i hc
      rw [List.getElem?_append] at hx
      simp only [List.length_take] at hx
      split at hx
      · rw [List.getElem?_take] at hx
        split at hx
        · exact .inl ⟨‹_›, hx⟩
        · cases hx
      · have hj := (List.getElem?_eq_some_iff.1 hx).1
        simp only [List.length_cons, List.length_nil] at hj
        refine .inr ⟨by omega, ?_, hc⟩
        rw [show j - min k lay.length = 0 by omega] at hx
        simpa using hx.symm
  have hlen : (frontLay lay k a).length ≤ k + 1 := by
    unfold frontLay; split <;> simp <;> omega
  refine ⟨hh.page_pos, hh.page_max, by omega, ?_, ?_, ?_, ?_, ?_⟩
  · unfold frontLay; split
    · rename_i h; simp; omega
    · simp
  · intro j f x hjf hx
    rcases get j x hx with ⟨h1, h2⟩ | ⟨rfl, rfl, _⟩
    · rw [hd1 j h1] at hjf
      exact hh.secs j f x hjf h2
    · obtain rfl := Option.some.inj (hf'.symm.trans hjf)
      exact hok (Nat.le_refl _) hso.1
  · intro j f x hjf hx hj
    rcases get j x hx with ⟨h1, h2⟩ | ⟨rfl, rfl, _⟩
    · rw [hd1 j h1] at hjf
      exact hh.cut j f x hjf h2 (by omega)
    · omega
  · intro f hjf
    by_cases h0 : k = 0
    · subst h0
      obtain rfl := Option.some.inj (hf'.symm.trans hjf)
      have h1 := enc_mainHeader_le (mainHd page)
      have h2 := le_endOf page (startOf page 0) a
      rw [slice_congr (f := file), hh.main_at file hf]
      intro i _ hi
      refine same i ?_
      simp only [startOf, if_true] at h2 ⊢
      omega
    · rw [hd1 0 (by omega)] at hjf
      exact hh.main_at f hjf
  · intro j hj hx
    rcases get j [] hx with ⟨h1, h2⟩ | ⟨rfl, rfl, h3⟩
    · exact hh.nonempty j hj h2
    · exact h3 ⟨rfl, hj⟩

/-- A reader in front of sections follows them. -/
theorem chain_at (hh : Holds page files lay) {t : EntryType} (ht : t ≠ .lastEntry) {todo : List Sec}
    (hlast : ∀ a ∈ todo, a.et ≠ .lastEntry) {r : Reader} (ha : At page lay r todo) :
    ∃ e, Chain files t r.place ((todo.filter (·.et == t)).map Sec.content) e := by
  induction todo generalizing r with
  | nil => exact ⟨_, .here _⟩
  | cons s todo ih =>
    have ha' := ha
    obtain ⟨r', h1, h2, h3, h4, h5⟩ := at_step hh ha
    obtain ⟨e, hc⟩ := ih (fun a h => hlast a (by simp [h])) h5
    obtain ⟨pre, rest, hl, _, _⟩ := ha'
    obtain ⟨file, hf⟩ := hh.lookup hl
    rcases advance_eq (t := t) hf with ⟨h6, _⟩ | ⟨r2, h6, hn, file2, hf2, hle⟩
    · rw [h1] at h6; cases h6
    · rw [h1] at h6
      cases h6
      rw [readHeader_eq hf2 hle] at h2
      cases hdc : (dec : Dec SectionHeader) (file2.drop r'.pos) with
      | error e => rw [hdc] at h2; cases h2
      | ok y =>
        obtain ⟨⟨m0, m1, ty, size, filled⟩, rest2⟩ := y
        rw [hdc] at h2
        simp only at h2
        split at h2
        · rename_i hm
          simp only [Bool.and_eq_true, beq_iff_eq] at hm
          obtain ⟨rfl, rfl⟩ := hm
          have h2 := Rd.ok.inj h2
          rw [← h2] at h3 h4 hc
          simp only at h4 hc
          subst h4
          have hsec : SectionAt files r.place s.et size filled r'.place file2 :=
            ⟨hn, hf2, headerAt_iff.2 ⟨_, hdc⟩⟩
          by_cases hst : s.et = t
          · rw [List.filter_cons_of_pos (by simp [hst]), List.map_cons]
            refine ⟨e, ?_⟩
            unfold readContent at h3
            simp only [hf2] at h3
            split at h3
            · cases h3
            · rename_i hfit
              rw [← Rd.ok.inj h3]
              rw [hst] at hsec
              exact .take hsec ht (Nat.le_of_not_lt hfit) hc
          · rw [List.filter_cons_of_neg (by simp [hst])]
            exact ⟨e, .skip hsec (hlast s (by simp)) hst hc⟩
        · cases h2

theorem chain_front (hh : Holds page files lay) {t : EntryType} (ht : t ≠ .lastEntry)
    (hlast : ∀ a ∈ lay.flatten, a.et ≠ .lastEntry) :
    ∃ first e, Opens files first ∧ Chain files t (0, first) ((lay.flatten.filter (·.et == t)).map Sec.content) e := by
  obtain ⟨r, h1, h2⟩ := reader_new hh
  obtain ⟨e, hc⟩ := chain_at hh ht hlast h2
  rcases open_cases files with ⟨_, h⟩ | ⟨_, h⟩ | ⟨first, ho, h⟩
  · rw [h1] at h; cases h
  · rw [h1] at h; cases h
  · rw [h1] at h
    cases h
    exact ⟨first, e, ho, hc⟩

/-- The buffer of a reader and some sections in front of it, whatever is behind them. -/
theorem drain_front (hh : Holds page files lay) {t : EntryType}
    (ht : t ≠ .lastEntry) (hfuel : lay.flatten.length < readFuel files) {ns : List Nat} :
    ∀ {io : IOReader} {todo : List Sec}, At page lay io.reader todo → todo.length ≤ lay.flatten.length →
    (∀ a ∈ todo, a.et ≠ .lastEntry) → (∀ n ∈ ns, 0 < n) →
    let all := io.buffer.drop io.bufferPos ++ (upTo ((todo.filter (·.et == t)).map Sec.content)).1.flatten
    let r := io.drain files t ns
    all <+: r.1 ∨ (r.1 <+: all ∧ r.2 = .more ∧ ns.length ≤ all.length) := by
  induction ns with
  | nil => intro io todo _ _ _ _; simp [IOReader.drain]
  | cons n ns ih =>
    intro io todo ha hlen hlast hn
    have hn0 : 0 < n := hn n (by simp)
    have hn' : ∀ m ∈ ns, 0 < m := fun m hm => hn m (by simp [hm])
    by_cases hb : io.buffer.length ≤ io.bufferPos
    · have hd : io.buffer.drop io.bufferPos = [] := List.drop_eq_nil_of_le hb
      rcases split_type t todo with hno | ⟨A, s, B, rfl, hA, hst⟩
      · -- no section left
        have hf : todo.filter (·.et == t) = [] := by
          rw [List.filter_eq_nil_iff]; intro a ha; simpa using hno a ha
        simp only [hd, hf]
        left
        simp [upTo]
      · obtain ⟨r', h1, h2⟩ := readNext_some hh ht (fun a ha => ⟨hA a ha, hlast a (by simp [ha])⟩) hst ha
          (fuel := readFuel files) (by simp only [List.length_append, List.length_cons] at hlen; omega)
        have hfA : A.filter (·.et == t) = [] := by
          rw [List.filter_eq_nil_iff]; intro a ha; simpa using hA a ha
        have hf : ((A ++ s :: B).filter (·.et == t)).map Sec.content =
            s.content :: (B.filter (·.et == t)).map Sec.content := by
          rw [List.filter_append, hfA, List.filter_cons_of_pos (by simp [hst])]; rfl
        simp only [hd, hf, upTo, List.nil_append]
        by_cases hc : s.content = []
        · left; simp [hc]
        · have hpos : 0 < s.content.length := List.length_pos_iff.2 hc
          obtain ⟨x, xs, hxs⟩ : ∃ x xs, s.content.take (min n s.content.length) = x :: xs := by
            cases hx : s.content.take (min n s.content.length) with
            | nil =>
              have := congrArg List.length hx
              simp only [List.length_take, List.length_nil] at this
              omega
            | cons x xs => exact ⟨x, xs, rfl⟩
          have hread : io.read files t n = .ok (x :: xs, ⟨r', s.content, min n s.content.length⟩) := by
            unfold IOReader.read
            simp only [hb, if_true, h1]
            rw [if_neg (by simp; omega)]
            simp [hxs]
          have hr : io.drain files t (n :: ns) = (x :: xs ++
              (IOReader.drain files t ⟨r', s.content, min n s.content.length⟩ ns).1,
              (IOReader.drain files t ⟨r', s.content, min n s.content.length⟩ ns).2) := by
            rw [IOReader.drain, hread]
          have i1 := ih (io := ⟨r', s.content, min n s.content.length⟩) (todo := B) h2
            (by simp only [List.length_append, List.length_cons] at hlen; omega) (fun a ha => hlast a (by simp [ha])) hn'
          simp only at i1
          have hsplit : s.content = (x :: xs) ++ s.content.drop (min n s.content.length) := by
            rw [← hxs, List.take_append_drop]
          generalize IOReader.drain files t ⟨r', s.content, min n s.content.length⟩ ns = q at *
          rw [hr, if_neg hc]
          simp only [List.flatten_cons]
          generalize hrest : s.content.drop (min n s.content.length) = rest at *
          rw [hsplit, List.append_assoc]
          rcases i1 with i1 | ⟨i1, i2, i3⟩
          · exact .inl ((List.prefix_append_right_inj _).2 i1)
          · refine .inr ⟨(List.prefix_append_right_inj _).2 i1, i2, ?_⟩
            simp only [List.length_append, List.length_cons] at i3 ⊢
            omega
    · -- something left in the buffer
      have hlen2 : 0 < min n (io.buffer.length - io.bufferPos) := by omega
      generalize hm : min n (io.buffer.length - io.bufferPos) = m at *
      obtain ⟨x, xs, hxs⟩ : ∃ x xs, (io.buffer.drop io.bufferPos).take m = x :: xs := by
        cases hx : (io.buffer.drop io.bufferPos).take m with
        | nil =>
          have := congrArg List.length hx
          simp only [List.length_take, List.length_drop, List.length_nil] at this
          omega
        | cons x xs => exact ⟨x, xs, rfl⟩
      have hread : io.read files t n = .ok (x :: xs, { io with bufferPos := io.bufferPos + m }) := by
        unfold IOReader.read
        simp only [hb, if_false, hm, hxs]
      have hr : io.drain files t (n :: ns) = (x :: xs ++
          (IOReader.drain files t { io with bufferPos := io.bufferPos + m } ns).1,
          (IOReader.drain files t { io with bufferPos := io.bufferPos + m } ns).2) := by
        rw [IOReader.drain, hread]
      have i1 := ih (io := { io with bufferPos := io.bufferPos + m }) (todo := todo) ha
        hlen hlast hn'
      simp only at i1
      have hsplit : io.buffer.drop io.bufferPos = (x :: xs) ++ io.buffer.drop (io.bufferPos + m) := by
        rw [← hxs, ← List.drop_drop, List.take_append_drop]
      generalize IOReader.drain files t { io with bufferPos := io.bufferPos + m } ns = q at *
      rw [hr]
      simp only
      rw [hsplit, List.append_assoc]
      rcases i1 with i1 | ⟨i1, i2, i3⟩
      · exact .inl ((List.prefix_append_right_inj _).2 i1)
      · refine .inr ⟨(List.prefix_append_right_inj _).2 i1, i2, ?_⟩
        simp only [List.length_append, List.length_cons] at i3 ⊢
        omega

theorem upTo_emptyLast {l : List Bytes} (h : EmptyLast l) : (upTo l).1.flatten = l.flatten := by
  induction l with
  | nil => rfl
  | cons d l ih =>
    simp only [upTo]
    split
    · rename_i hd
      rw [hd, List.flatten_cons, h.1 hd]
      rfl
    · rw [List.flatten_cons, List.flatten_cons, ih h.2]

theorem EmptyLast.front {a b : List Bytes} (h : EmptyLast (a ++ b)) : EmptyLast a := by
  induction a with
  | nil => trivial
  | cons d a ih =>
    refine ⟨fun hd => ?_, ih h.2⟩
    have : (a ++ b).flatten = [] := h.1 hd
    rw [List.flatten_append] at this
    exact (List.append_eq_nil_iff.1 this).1

theorem emptyLast_lengths {a b : List Bytes} (h : a.map List.length = b.map List.length) (ha : EmptyLast a) :
    EmptyLast b := by
  induction a generalizing b with
  | nil => cases b with
    | nil => trivial
    | cons x b => simp at h
  | cons d a ih => cases b with
    | nil => simp at h
    | cons x b =>
      simp only [List.map_cons, List.cons.injEq] at h
      refine ⟨fun hx => ?_, ih h.2 ha.2⟩
      subst hx
      have h1 := ha.1 (List.length_eq_zero_iff.1 h.1)
      have h2 := congrArg List.length h1
      rw [List.length_flatten, h.2, ← List.length_flatten] at h2
      exact List.length_eq_zero_iff.1 h2

/-- Reading a log that is complete to the end. -/
theorem drain_left {t : EntryType} {ns : List Nat} : ∀ {io : IOReader} {rest : Bytes}, Left files t io rest →
    (∀ n ∈ ns, 0 < n) →
    (io.drain files t ns).1 <+: rest ∧
      ((io.drain files t ns).2 ≠ .more → (io.drain files t ns).1 = rest ∧ (io.drain files t ns).2 = .eof) ∧
      (rest.length < ns.length → (io.drain files t ns).2 ≠ .more) := by
  induction ns with
  | nil => intro io rest _ _; simp [IOReader.drain]
  | cons n ns ih =>
    intro io rest hl hn
    obtain ⟨d, io', h1, rest', rfl, h2, h3, h4⟩ := read_left hl (hn n (by simp))
    obtain ⟨i1, i2, i3⟩ := ih h2 (fun m hm => hn m (by simp [hm]))
    cases d with
    | nil =>
      have : io.drain files t (n :: ns) = ([], .eof) := by rw [IOReader.drain, h1]
      rw [this, h4 rfl]
      simp
    | cons x xs =>
      have : io.drain files t (n :: ns) = (x :: xs ++ (io'.drain files t ns).1, (io'.drain files t ns).2) := by
        rw [IOReader.drain, h1]
      rw [this]
      refine ⟨(List.prefix_append_right_inj _).2 i1, fun h => ?_, fun h => i3 ?_⟩
      · obtain ⟨a, b⟩ := i2 h
        exact ⟨by rw [a], b⟩
      · simp only [List.length_append, List.length_cons] at h
        omega

theorem drainLog_left {t : EntryType} {secs : List Bytes} (h : readLog files t = .ok secs) (he : EmptyLast secs)
    {ns : List Nat} (hn : ∀ n ∈ ns, 0 < n) :
    (drainLog files t ns).1 <+: secs.flatten ∧
      ((drainLog files t ns).2 ≠ .more → (drainLog files t ns).1 = secs.flatten ∧ (drainLog files t ns).2 = .eof) ∧
      (secs.flatten.length < ns.length → (drainLog files t ns).2 ≠ .more) := by
  unfold readLog at h
  unfold drainLog
  cases hr : Reader.new files with
  | ok r =>
    rw [hr] at h
    exact drain_left (io := IOReader.new r) ⟨_, secs, h, he, rfl⟩ hn
  | err => rw [hr] at h; cases h
  | panic => rw [hr] at h; cases h
  | diverges => rw [hr] at h; cases h

/-- Values that are encoded in front of anything are dumped first. -/
theorem dump_front {α : Type} [Codec α] {l : List α} (hr : ∀ a ∈ l, RoundTrips a) (hpos : ∀ a ∈ l, 0 < (enc a).length)
    (x : Bytes) : l <+: dumpObjects (encAll l ++ x) := by
  have key : ∀ fuel, l.length < fuel → l <+: (decodeStream (dec : Dec α) fuel (encAll l ++ x)).1 := by
    clear hpos
    induction l with
    | nil => intro _ _; exact List.nil_prefix
    | cons a l ih =>
      intro fuel hf
      obtain ⟨f, rfl⟩ : ∃ f, fuel = f + 1 := ⟨fuel - 1, by simp at hf; omega⟩
      simp only [decodeStream, encAll, List.append_assoc]
      rw [hr a (by simp) _]
      simp only
      exact List.cons_prefix_cons.2 ⟨rfl, ih (fun b hb => hr b (by simp [hb])) f (by simp at hf; omega)⟩
  refine key _ ?_
  have := encAll_length_ge (l := l) hpos
  rw [List.length_append]
  omega

/-! ### The spots of a log -/

theorem pairwise_flatten_mapIdx {α β : Type} {R : β → β → Prop} {f : Nat → α → List β} {lay : List α}
    (h1 : ∀ (k : Nat) a, lay[k]? = some a → (f k a).Pairwise R)
    (h2 : ∀ (j k : Nat) a b, j < k → lay[j]? = some a → lay[k]? = some b → ∀ x ∈ f j a, ∀ y ∈ f k b, R x y) :
    (lay.mapIdx f).flatten.Pairwise R := by
  induction lay generalizing f with
  | nil => exact .nil
  | cons a lay ih =>
    rw [List.mapIdx_cons, List.flatten_cons, List.pairwise_append]
    refine ⟨h1 0 a rfl, ih (fun k b hb => h1 (k + 1) b hb)
      (fun j k b c hjk hb hc => h2 (j + 1) (k + 1) b c (by omega) hb hc), ?_⟩
    intro x hx y hy
    obtain ⟨l, hl, hy⟩ := List.mem_flatten.1 hy
    obtain ⟨k, hk⟩ := List.getElem?_of_mem hl
    rw [List.getElem?_mapIdx] at hk
    obtain ⟨b, hb, rfl⟩ := Option.map_eq_some_iff.1 hk
    exact h2 0 (k + 1) a b (by omega) rfl hb x hx y hy

theorem spotsOf_pairwise (hh : Holds page files lay) : (spotsOf page lay).Pairwise Spot.Before := by
  refine pairwise_flatten_mapIdx (fun k secs hl => ?_) ?_
  · obtain ⟨file, hf⟩ := hh.lookup hl
    exact spotsFrom_pairwise hh.page_pos (hh.secs k file secs hf hl)
  · intro j k a b hjk _ _ x hx y hy
    exact .inl (by rw [spotsFrom_file hx, spotsFrom_file hy]; exact hjk)

theorem damaged_refl (spots : List Spot) (files : List Bytes) : DamagedIn spots files files :=
  ⟨rfl, fun _ file hf => ⟨file, hf, rfl, fun _ _ => rfl⟩⟩

theorem spot_inside (hh : Holds page files lay) {p : Spot} (hp : p ∈ spotsOf page lay) :
    ∃ file, files[p.file]? = some file ∧ p.pos + p.len ≤ file.length := by
  obtain ⟨secs, hl, hp⟩ := mem_spotsOf.1 hp
  obtain ⟨file, hf⟩ := hh.lookup hl
  refine ⟨file, hf, ?_⟩
  have hs := hh.secs p.file file secs hf hl
  obtain ⟨pre, post, he⟩ := List.append_of_mem hp
  obtain ⟨a, s, b, rfl, _, h3⟩ := spotsFrom_split he
  have hso := ((secsOk_append _ _ _ _ _).1 hs).2.1
  have h1 := hso.inside
  have h2 := hso.room
  rw [h3]
  simp only at h1 h2 ⊢
  rw [h3] at h1
  simp only at h1
  omega

theorem content_length (hh : Holds page files lay) {p : Spot} (hp : p ∈ spotsOf page lay)
    (hd : DamagedIn (spotsOf page lay) files files') : (p.content files').length = p.len := by
  obtain ⟨file, hf, hle⟩ := spot_inside hh hp
  obtain ⟨f', hf', hl', _⟩ := hd.2 _ _ hf
  simp only [Spot.content, hf', Option.getD_some, List.length_take, List.length_drop]
  omega

/-- Another spot than the damaged one. -/
theorem content_same {spots : List Spot} {files files' : List Bytes} (hd : DamagedIn spots files files') {q : Spot}
    (hq : ∀ p ∈ spots, p.Before q ∨ q.Before p) : q.content files' = q.content files := by
  unfold Spot.content
  cases hf : files[q.file]? with
  | none =>
    have : files'[q.file]? = none := by
      rw [List.getElem?_eq_none_iff] at hf ⊢
      rw [hd.1]; exact hf
    rw [this]
  | some file =>
    obtain ⟨f', hf', hl', hs⟩ := hd.2 _ _ hf
    rw [hf']
    refine slice_congr (fun i h1 h2 => hs i ?_)
    rintro p hp ⟨c1, c2, c3⟩
    rcases hq p hp with (h | ⟨_, h⟩) | (h | ⟨_, h⟩) <;> omega

theorem contents_append (files : List Bytes) (t : EntryType) (a b : List Spot) :
    contents files t (a ++ b) = contents files t a ++ contents files t b := by
  simp [contents]

theorem contents_congr {t : EntryType} {spots : List Spot} (h : ∀ p ∈ spots, p.content files' = p.content files) :
    contents files' t spots = contents files t spots :=
  List.map_congr_left fun p hp => h p (List.mem_filter.1 hp).1

theorem spotsOf_secs (hh : Holds page files lay) :
    lay.flatten.map (fun s => (s.et, s.data)) = (spotsOf page lay).map (fun p => (p.type, p.content files)) := by
  have h : relay page files lay = lay := by
    unfold relay
    apply List.ext_getElem?
    intro k
    rw [List.getElem?_mapIdx]
    cases hl : lay[k]? with
    | none => rfl
    | some secs =>
      obtain ⟨file, hf⟩ := hh.lookup hl
      have hs := hh.secs k file secs hf hl
      rw [hf]
      simp only [Option.map_some, Option.some.injEq, Option.getD_some]
      clear hl hf
      generalize startOf page k = off at hs
      induction secs generalizing off with
      | nil => rfl
      | cons s l ih =>
        simp only [relaySecs, ih _ hs.2]
        rw [hs.1.data]
  have := relay_pairs hh (files' := files) rfl
  rw [h] at this
  exact this

/-- The spots of the sections in front of one are those of the layout in front of it. -/
theorem spotsOf_front (k : Nat) (a : List Sec) (hk : k < lay.length) :
    spotsOf page (frontLay lay k a) = spotsOf page (lay.take k) ++ spotsFrom page k (startOf page k) a := by
  unfold frontLay
  split
  · rename_i h
    rw [h.1]
    simp [spotsFrom]
  · unfold spotsOf
    rw [List.mapIdx_append, List.flatten_append]
    simp only [List.mapIdx_cons, List.mapIdx_nil, List.flatten_cons, List.flatten_nil, List.append_nil,
      List.length_take, Nat.zero_add]
    rw [Nat.min_eq_left (by omega)]

/-- Everything about the files of a history and damage to them. -/
theorem log_damage {page slabSize : Nat} (hz : SizesOk page slabSize) {ops : List LogOp}
    (hops : HistoryOk page slabSize [] ops) :
    ∃ files spots last, writeLog slabSize page ops = .ok files ∧ (spots ++ [last]).Pairwise Spot.Before ∧
      (∀ p ∈ spots ++ [last], ∃ file, files[p.file]? = some file ∧ 15 ≤ p.pos ∧ p.pos + p.len ≤ file.length) ∧
      (∀ t, (contents files t spots).flatten = logged t [] ops ∧ Whole (contents files t spots) (objsOf t [] ops) ∧
        (UsedFirst t false [] ops → EmptyLast (contents files t spots))) ∧
      (∀ files', DamagedIn spots files files' → ∀ t, readLog files' t = .ok (contents files' t spots) ∧
        (contents files' t spots).map List.length = (contents files t spots).map List.length) ∧
      ∀ pre p post, spots ++ [last] = pre ++ p :: post → ∀ files', DamagedFrom p.file (p.pos - 15) files files' →
        ∀ t, t ≠ .lastEntry →
          (∃ first e, Opens files' first ∧ Chain files' t (0, first) (contents files t pre) e) ∧
          ∀ ns : List Nat, (∀ n ∈ ns, 0 < n) →
            (upTo (contents files t pre)).1.flatten <+: (drainLog files' t ns).1 ∨
              ((drainLog files' t ns).1 <+: (upTo (contents files t pre)).1.flatten ∧ (drainLog files' t ns).2 = .more ∧
                ns.length ≤ (upTo (contents files t pre)).1.flatten.length) := by
  obtain ⟨files, lay, L, h1, hh, hlay, hL, hall⟩ := writeLog_holds hz hops
  have hpg := hz.page_min
  obtain ⟨S, x, L', hS, _, _, _⟩ := spots_relay hh (files' := files) rfl hlay
  have hsecs := spotsOf_secs hh
  rw [hlay, hS, List.map_append, List.map_append] at hsecs
  obtain ⟨hp1, hp2⟩ := List.append_inj' hsecs rfl
  have hcont : ∀ t, contents files t S = secData L t := by
    intro t
    unfold contents secData
    rw [pairs_filter (f := fun s : Sec => s.et) (g := Sec.data), pairs_filter (f := fun p : Spot => p.type), hp1]
  have hmono : ∀ {files'}, DamagedIn S files files' → DamagedIn (spotsOf page lay) files files' := fun h =>
    h.mono fun p hp => by rw [hS]; simp [hp]
  refine ⟨files, S, x, h1, by rw [← hS]; exact spotsOf_pairwise hh, ?_, ?_, ?_, ?_⟩
  · intro p hp
    rw [← hS] at hp
    obtain ⟨file, hf, hle⟩ := spot_inside hh hp
    obtain ⟨secs, _, hp⟩ := mem_spotsOf.1 hp
    have := spotsFrom_lower hp
    exact ⟨file, hf, by omega, hle⟩
  · intro t
    obtain ⟨a, b, c⟩ := hall t
    rw [hcont]
    exact ⟨b, a, c⟩
  · intro files' hd t
    refine ⟨readLog_damaged hh hpg hlay ⟨rfl, rfl⟩ hL hS (hmono hd) t, ?_⟩
    unfold contents
    rw [List.map_map, List.map_map]
    apply List.map_congr_left
    intro p hp
    have hp' : p ∈ spotsOf page lay := by rw [hS]; simp [(List.mem_filter.1 hp).1]
    simp only [Function.comp_apply]
    rw [content_length hh hp' (hmono hd), content_length hh hp' (damaged_refl _ _)]
  · intro pre p post he files' hd t ht
    rw [← hS] at he
    obtain ⟨a, s, b, g1, g2, g3⟩ := spotsOf_split he
    have hk := (List.getElem?_eq_some_iff.1 g1).1
    rw [g3, Nat.add_sub_cancel] at hd
    have hf := front_holds hh hpg g1 hd
    have hfr := spotsOf_front (page := page) p.file a hk
    rw [← g2] at hfr
    -- the sections in front, as in the intact files
    have hself : Holds page files (frontLay lay p.file a) := by
      obtain ⟨file, hfile⟩ := hh.lookup g1
      have hso := ((secsOk_append _ _ _ _ _).1 (hh.secs _ _ _ hfile g1)).2.1
      have := hso.inside
      exact front_holds hh hpg g1 ⟨fun _ _ => rfl, file, file, hfile, hfile, by omega, rfl⟩
    have hmem : ∀ y ∈ (frontLay lay p.file a).flatten, y ∈ L := by
      intro y hy
      rw [frontLay_flatten] at hy
      -- what is in front of a section is not the last one
      have h2 : lay.flatten = ((lay.take p.file).flatten ++ a) ++ s :: (b ++ (lay.drop (p.file + 1)).flatten) := by
        conv => lhs; rw [← List.take_append_drop p.file lay]
        rw [List.drop_eq_getElem_cons hk, List.flatten_append, List.flatten_cons,
          show lay[p.file] = a ++ s :: b from by
            rw [List.getElem?_eq_getElem hk] at g1; exact Option.some.inj g1]
        simp
      rw [hlay] at h2
      have h3 : (lay.take p.file).flatten ++ a <+: L := by
        have hlen := congrArg List.length h2
        simp only [List.length_append, List.length_cons, List.length_nil] at hlen
        refine List.prefix_of_prefix_length_le (l₃ := L ++ [⟨80, .lastEntry, [], none⟩]) ?_ (List.prefix_append _ _)
          (by simp only [List.length_append]; omega)
        rw [h2]
        exact List.prefix_append _ _
      exact h3.subset hy
    have hnl : ∀ y ∈ (frontLay lay p.file a).flatten, y.et ≠ .lastEntry := fun y hy => (hL y (hmem y hy)).2.1
    have hc : ((frontLay lay p.file a).flatten.filter (·.et == t)).map Sec.content = contents files t pre := by
      have h2 : ((frontLay lay p.file a).flatten.filter (·.et == t)).map Sec.content =
          ((frontLay lay p.file a).flatten.filter (·.et == t)).map Sec.data := by
        apply List.map_congr_left
        intro y hy
        obtain ⟨u, _, v⟩ := hL y (hmem y (List.mem_filter.1 hy).1)
        simp [Sec.content, u, v]
      rw [h2]
      unfold contents
      rw [pairs_filter (f := fun s : Sec => s.et) (g := Sec.data), pairs_filter (f := fun p : Spot => p.type),
        spotsOf_secs hself, hfr]
    refine ⟨by rw [← hc]; exact chain_front hf ht hnl, fun ns hns => ?_⟩
    obtain ⟨r, hr, hat⟩ := reader_new hf
    have := drain_front hf ht (holds_fuel hf) (io := IOReader.new r) (ns := ns) hat (Nat.le_refl _) hnl hns
    simp only [drainLog, hr]
    rw [hc] at this
    simpa [IOReader.new] using this

end ULog
end Verif
