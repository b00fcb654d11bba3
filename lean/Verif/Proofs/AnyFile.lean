import Verif.Spec.AnyFile
import Verif.Proofs.Sequential
/-! The reader on files of any content. -/
namespace Verif
namespace ULog
open Bincode

variable {files : List Bytes} {t : EntryType}

theorem dec_header {bs rest : Bytes} {h : SectionHeader} :
    (dec : Dec SectionHeader) bs = .ok (h, rest) ↔
      ∃ b, bs = h.m0 :: h.m1 :: b ∧
        (dec : Dec (EntryType × UInt32 × UInt32)) b = .ok ((h.entryType, h.sectionSize, h.filledSize), rest) := by
  obtain ⟨m0, m1, ty, size, filled⟩ := h
  cases bs with
  | nil => simp only [dec, bind, Dec.andThen, byte]; simp
  | cons a bs =>
    cases bs with
    | nil => simp only [dec, bind, Dec.andThen, byte]; simp
    | cons c bs =>
      have e1 : (dec : Dec SectionHeader) (a :: c :: bs) =
          match (dec : Dec (EntryType × UInt32 × UInt32)) bs with
          | .error e => .error e
          | .ok ((t, s, f), r) => .ok (⟨a, c, t, s, f⟩, r) := by
        have e2 : ∀ (T : Dec EntryType) (U : Dec UInt32), (do
              let t ← T
              let s ← U
              let f ← U
              pure (⟨a, c, t, s, f⟩ : SectionHeader) : Dec SectionHeader) bs =
            match (do
              let t ← T
              let x ← (do
                let s ← U
                let f ← U
                pure (s, f) : Dec (UInt32 × UInt32))
              pure (t, x) : Dec (EntryType × UInt32 × UInt32)) bs with
            | .error e => .error e
            | .ok ((t, s, f), r) => .ok (⟨a, c, t, s, f⟩, r) := by
          intro T U
          simp only [bind, Dec.andThen, pure, Dec.ret]
          cases T bs with
          | error e => rfl
          | ok x =>
            simp only
            cases U x.2 with
            | error e => rfl
            | ok y =>
              simp only
              cases U y.2 with
              | error e => rfl
              | ok z => rfl
        exact e2 dec dec
      rw [e1]
      cases h1 : (dec : Dec (EntryType × UInt32 × UInt32)) bs with
      | error e =>
        simp only [reduceCtorEq, false_iff]
        rintro ⟨b, hb, hd⟩
        simp only [List.cons.injEq] at hb
        rw [← hb.2.2, h1] at hd
        cases hd
      | ok p =>
        obtain ⟨⟨ty', s', f'⟩, r'⟩ := p
        simp only
        constructor
        · intro hh
          cases hh
          exact ⟨bs, rfl, h1⟩
        · rintro ⟨b, hb, hd⟩
          simp only [List.cons.injEq] at hb
          obtain ⟨rfl, rfl, rfl⟩ := hb
          rw [h1] at hd
          cases hd
          rfl

theorem headerAt_iff {file : Bytes} {off : Nat} {m0 m1 : UInt8} {ty : EntryType} {size filled : UInt32} :
    HeaderAt file off m0 m1 ty size filled ↔
      ∃ rest, (dec : Dec SectionHeader) (file.drop off) = .ok (⟨m0, m1, ty, size, filled⟩, rest) := by
  constructor
  · rintro ⟨b, rest, hb, hd⟩; exact ⟨rest, dec_header.2 ⟨b, hb, hd⟩⟩
  · rintro ⟨rest, h⟩
    obtain ⟨b, hb, hd⟩ := dec_header.1 h
    exact ⟨b, rest, hb, hd⟩

theorem HeaderAt.fun {file : Bytes} {off : Nat} {m0 m1 n0 n1 : UInt8} {ty ty' : EntryType}
    {size filled size' filled' : UInt32} (h : HeaderAt file off m0 m1 ty size filled)
    (h' : HeaderAt file off n0 n1 ty' size' filled') :
    m0 = n0 ∧ m1 = n1 ∧ ty = ty' ∧ size = size' ∧ filled = filled' := by
  obtain ⟨r, h⟩ := headerAt_iff.1 h
  obtain ⟨r', h'⟩ := headerAt_iff.1 h'
  rw [h] at h'
  cases h'
  exact ⟨rfl, rfl, rfl, rfl, rfl⟩

theorem HeaderAt.lt {file : Bytes} {off : Nat} {m0 m1 : UInt8} {ty : EntryType} {size filled : UInt32}
    (h : HeaderAt file off m0 m1 ty size filled) : off < file.length := by
  obtain ⟨b, _, hb, _⟩ := h
  have := congrArg List.length hb
  simp at this
  omega

theorem Next.fun {p q q' : Place} (h : Next files p q) (h' : Next files p q') : q = q' := by
  obtain ⟨f, hf, h⟩ := h
  obtain ⟨f', hf', h'⟩ := h'
  rw [hf] at hf'
  cases hf'
  rcases h with ⟨h1, rfl⟩ | ⟨h1, h2, rfl⟩ <;> rcases h' with ⟨h3, rfl⟩ | ⟨h3, h4, rfl⟩ <;> first | rfl | omega

theorem SectionAt.fun {p q q' : Place} {ty ty' : EntryType} {size size' filled filled' : UInt32} {file file' : Bytes}
    (h : SectionAt files p ty size filled q file) (h' : SectionAt files p ty' size' filled' q' file') :
    ty = ty' ∧ size = size' ∧ filled = filled' ∧ q = q' ∧ file = file' := by
  obtain ⟨hn, hf, hh⟩ := h
  obtain ⟨hn', hf', hh'⟩ := h'
  obtain rfl := hn.fun hn'
  rw [hf] at hf'
  cases hf'
  obtain ⟨_, _, h1, h2, h3⟩ := hh.fun hh'
  exact ⟨h1, h2, h3, rfl, rfl⟩

/-- A place that has one kind of end has no other. -/
theorem Ends.fun {p : Place} {k k' : EndKind} (h : Ends files t p k) (h' : Ends files t p k') : k = k' := by
  have noNext : ∀ {file q}, files[p.1]? = some file → file.length ≤ p.2 → files.length ≤ p.1 + 1 →
      ¬ Next files p q := by
    rintro file q h1 h2 h3 ⟨f, hf, h⟩
    rw [h1] at hf
    cases hf
    omega
  have hd : ∀ {q q' : Place} {file file' : Bytes} {m0 m1 n0 n1 : UInt8} {ty ty' : EntryType}
      {size size' filled filled' : UInt32}, Next files p q → files[q.1]? = some file →
      HeaderAt file q.2 m0 m1 ty size filled → Next files p q' → files[q'.1]? = some file' →
      HeaderAt file' q'.2 n0 n1 ty' size' filled' → m0 = n0 ∧ m1 = n1 ∧ ty = ty' ∧ size = size' ∧
        filled = filled' ∧ q = q' ∧ file = file' := by
    intro q q' file file' m0 m1 n0 n1 ty ty' size size' filled filled' a1 a2 a3 b1 b2 b3
    obtain rfl := a1.fun b1
    rw [a2] at b2
    cases b2
    obtain ⟨h1, h2, h3, h4, h5⟩ := a3.fun b3
    exact ⟨h1, h2, h3, h4, h5, rfl, rfl⟩
  cases h with
  | marker a =>
    cases h' with
    | marker b => rfl
    | noFile b1 b2 b3 => exact absurd a.1 (noNext b1 b2 b3)
    | notSection b1 b2 b3 b4 =>
      obtain ⟨rfl, rfl, _⟩ := hd a.1 a.2.1 a.2.2 b1 b2 b3
      exact absurd ⟨rfl, rfl⟩ b4
    | noHeader b1 b2 b3 =>
      obtain rfl := a.1.fun b1
      rw [a.2.1] at b2; cases b2
      exact absurd a.2.2 (b3 _ _ _ _ _)
    | overrun b1 b2 b3 => exact absurd (a.fun b1).1.symm b2
    | endless b1 b2 b3 => exact absurd (a.fun b1).1.symm b2
  | noFile a1 a2 a3 =>
    cases h' with
    | marker b => exact absurd b.1 (noNext a1 a2 a3)
    | noFile b1 b2 b3 => rfl
    | notSection b1 b2 b3 b4 => rfl
    | noHeader b1 b2 b3 => exact absurd b1 (noNext a1 a2 a3)
    | overrun b1 b2 b3 => exact absurd b1.1 (noNext a1 a2 a3)
    | endless b1 b2 b3 => exact absurd b1.1 (noNext a1 a2 a3)
  | notSection a1 a2 a3 a4 =>
    cases h' with
    | marker b =>
      obtain ⟨rfl, rfl, _⟩ := hd a1 a2 a3 b.1 b.2.1 b.2.2
      exact absurd ⟨rfl, rfl⟩ a4
    | noFile b1 b2 b3 => rfl
    | notSection b1 b2 b3 b4 => rfl
    | noHeader b1 b2 b3 =>
      obtain rfl := a1.fun b1
      rw [a2] at b2; cases b2
      exact absurd a3 (b3 _ _ _ _ _)
    | overrun b1 b2 b3 =>
      obtain ⟨rfl, rfl, _⟩ := hd a1 a2 a3 b1.1 b1.2.1 b1.2.2
      exact absurd ⟨rfl, rfl⟩ a4
    | endless b1 b2 b3 =>
      obtain ⟨rfl, rfl, _⟩ := hd a1 a2 a3 b1.1 b1.2.1 b1.2.2
      exact absurd ⟨rfl, rfl⟩ a4
  | noHeader a1 a2 a3 =>
    have no : ∀ {ty size filled q file}, ¬ SectionAt files p ty size filled q file := by
      rintro ty size filled q file ⟨b1, b2, b3⟩
      obtain rfl := a1.fun b1
      rw [a2] at b2; cases b2
      exact a3 _ _ _ _ _ b3
    cases h' with
    | marker b => exact absurd b no
    | noFile b1 b2 b3 => exact absurd a1 (noNext b1 b2 b3)
    | notSection b1 b2 b3 b4 =>
      obtain rfl := a1.fun b1
      rw [a2] at b2; cases b2
      exact absurd b3 (a3 _ _ _ _ _)
    | noHeader b1 b2 b3 => rfl
    | overrun b1 b2 b3 => rfl
    | endless b1 b2 b3 => exact absurd b1 no
  | overrun a1 a2 a3 =>
    cases h' with
    | marker b => exact absurd (a1.fun b).1 a2
    | noFile b1 b2 b3 => exact absurd a1.1 (noNext b1 b2 b3)
    | notSection b1 b2 b3 b4 =>
      obtain ⟨rfl, rfl, _⟩ := hd a1.1 a1.2.1 a1.2.2 b1 b2 b3
      exact absurd ⟨rfl, rfl⟩ b4
    | noHeader b1 b2 b3 => rfl
    | overrun b1 b2 b3 => rfl
    | endless b1 b2 b3 =>
      obtain ⟨rfl, rfl, rfl, rfl, rfl⟩ := a1.fun b1
      have := b3 rfl
      omega
  | endless a1 a2 a3 =>
    cases h' with
    | marker b => exact absurd (a1.fun b).1 a2
    | noFile b1 b2 b3 => exact absurd a1.1 (noNext b1 b2 b3)
    | notSection b1 b2 b3 b4 =>
      obtain ⟨rfl, rfl, _⟩ := hd a1.1 a1.2.1 a1.2.2 b1 b2 b3
      exact absurd ⟨rfl, rfl⟩ b4
    | noHeader b1 b2 b3 =>
      obtain rfl := a1.1.fun b1
      rw [a1.2.1] at b2; cases b2
      exact absurd a1.2.2 (b3 _ _ _ _ _)
    | overrun b1 b2 b3 =>
      obtain ⟨rfl, rfl, rfl, rfl, rfl⟩ := a1.fun b1
      have := a3 rfl
      omega
    | endless b1 b2 b3 => rfl

/-- One section further. -/
inductive Hop (files : List Bytes) (t : EntryType) (p : Place) : List Bytes → Place → Prop where
  | skip {q : Place} {ty : EntryType} {size filled : UInt32} {file : Bytes} :
    SectionAt files p ty size filled q file → ty ≠ .lastEntry → ty ≠ t →
    Hop files t p [] (q.1, q.2 + size.toNat)
  | take {q : Place} {size filled : UInt32} {file : Bytes} :
    SectionAt files p t size filled q file → t ≠ .lastEntry → q.2 + 15 + filled.toNat ≤ file.length →
    Hop files t p [(file.drop (q.2 + 15)).take filled.toNat] (q.1, q.2 + size.toNat)

theorem Hop.chain {p q e : Place} {d l : List Bytes} (h : Hop files t p d q) (hc : Chain files t q l e) :
    Chain files t p (d ++ l) e := by
  cases h with
  | skip a b c => exact .skip a b c hc
  | take a b c => exact .take a b c hc

theorem Chain.unhop {p e : Place} {l : List Bytes} (h : Chain files t p l e) :
    (l = [] ∧ e = p) ∨ ∃ d q l', Hop files t p d q ∧ Chain files t q l' e ∧ l = d ++ l' := by
  cases h with
  | here => exact .inl ⟨rfl, rfl⟩
  | skip a b c h => exact .inr ⟨_, _, _, .skip a b c, h, rfl⟩
  | take a b c h => exact .inr ⟨_, _, _, .take a b c, h, rfl⟩

theorem Hop.fun {p q q' : Place} {d d' : List Bytes} (h : Hop files t p d q) (h' : Hop files t p d' q') :
    d = d' ∧ q = q' := by
  cases h with
  | skip a b c =>
    cases h' with
    | skip a' b' c' => obtain ⟨rfl, rfl, rfl, rfl, rfl⟩ := a.fun a'; exact ⟨rfl, rfl⟩
    | take a' b' c' => exact absurd (a.fun a').1 c
  | take a b c =>
    cases h' with
    | skip a' b' c' => exact absurd (a.fun a').1.symm c'
    | take a' b' c' => obtain ⟨_, rfl, rfl, rfl, rfl⟩ := a.fun a'; exact ⟨rfl, rfl⟩

theorem SectionAt.again {p q : Place} {ty : EntryType} {size filled : UInt32} {file : Bytes}
    (h : SectionAt files p ty size filled q file) : SectionAt files q ty size filled q file :=
  ⟨⟨file, h.2.1, .inl ⟨h.2.2.lt, rfl⟩⟩, h.2.1, h.2.2⟩

/-- Only in front of a section that is its own successor can a chain both end and go on. -/
theorem Hop.ends {p q : Place} {d : List Bytes} {k : EndKind} (h : Hop files t p d q) (hk : Ends files t p k) :
    k = .endless ∧ Ends files t q .endless := by
  have key : ∀ {ty size filled q file}, SectionAt files p ty size filled q file → ty ≠ .lastEntry →
      (ty = t → q.2 + 15 + filled.toNat ≤ file.length) →
      k = .endless ∧ Ends files t (q.1, q.2 + size.toNat) .endless := by
    intro ty size filled q file a b c
    cases hk with
    | marker b' => exact absurd (a.fun b').1 b
    | noFile b1 b2 b3 =>
      obtain ⟨f, hf, h⟩ := a.1
      rw [b1] at hf; cases hf
      omega
    | notSection b1 b2 b3 b4 =>
      obtain rfl := a.1.fun b1
      rw [a.2.1] at b2; cases b2
      obtain ⟨rfl, rfl, _⟩ := a.2.2.fun b3
      exact absurd ⟨rfl, rfl⟩ b4
    | noHeader b1 b2 b3 =>
      obtain rfl := a.1.fun b1
      rw [a.2.1] at b2; cases b2
      exact absurd a.2.2 (b3 _ _ _ _ _)
    | overrun b1 b2 b3 =>
      obtain ⟨rfl, rfl, rfl, rfl, rfl⟩ := a.fun b1
      have := c rfl
      omega
    | endless b1 b2 b3 =>
      obtain ⟨rfl, rfl, rfl, rfl, rfl⟩ := a.fun b1
      exact ⟨rfl, .endless a.again b c⟩
  cases h with
  | skip a b c => exact key a b (fun hh => absurd hh c)
  | take a b c => exact key a b (fun _ => c)

theorem Chain.ends_endless {p e : Place} {l : List Bytes} (h : Chain files t p l e)
    (hk : Ends files t p .endless) : Ends files t e .endless := by
  have : ∀ {p l e}, Chain files t p l e → Ends files t p .endless → Ends files t e .endless := by
    intro p l e h
    induction h with
    | here => exact id
    | skip a b c _ ih => exact fun hk => ih ((Hop.skip a b c).ends hk).2
    | take a b c _ ih => exact fun hk => ih ((Hop.take a b c).ends hk).2
  exact this h hk

/-- Two chains from a place end in the same way; if not endlessly, they are the same. -/
theorem Chain.fun {p e e' : Place} {l l' : List Bytes} {k k' : EndKind} (h : Chain files t p l e)
    (hk : Ends files t e k) (h' : Chain files t p l' e') (hk' : Ends files t e' k') :
    k = k' ∧ (k ≠ .endless → l = l' ∧ e = e') := by
  have key : ∀ {p l e}, Chain files t p l e → Ends files t e k → ∀ l', Chain files t p l' e' → Ends files t e' k' →
      k = k' ∧ (k ≠ .endless → l = l' ∧ e = e') := by
    intro p l e h
    have base : ∀ p, Ends files t p k → ∀ l', Chain files t p l' e' → Ends files t e' k' →
        k = k' ∧ (k ≠ .endless → [] = l' ∧ p = e') := by
      intro p hk l' h' hk'
      rcases h'.unhop with ⟨rfl, rfl⟩ | ⟨d, q, l1, hh, hc, rfl⟩
      · exact ⟨hk.fun hk', fun _ => ⟨rfl, rfl⟩⟩
      · obtain ⟨rfl, h2⟩ := hh.ends hk
        exact ⟨(hc.ends_endless h2).fun hk', fun hne => absurd rfl hne⟩
    have step : ∀ {p q e : Place} {d l : List Bytes}, Hop files t p d q →
        Chain files t q l e → (Ends files t e k → ∀ l', Chain files t q l' e' → Ends files t e' k' →
          k = k' ∧ (k ≠ .endless → l = l' ∧ e = e')) →
        Ends files t e k → ∀ l', Chain files t p l' e' → Ends files t e' k' →
          k = k' ∧ (k ≠ .endless → d ++ l = l' ∧ e = e') := by
      intro p q e d l hh hc ih hk l' h' hk'
      rcases h'.unhop with ⟨rfl, rfl⟩ | ⟨d', q', l1, hh', hc', rfl⟩
      · obtain ⟨rfl, h2⟩ := hh.ends hk'
        have := (hc.ends_endless h2).fun hk
        subst this
        exact ⟨rfl, fun hne => absurd rfl hne⟩
      · obtain ⟨rfl, rfl⟩ := hh.fun hh'
        obtain ⟨h1, h2⟩ := ih hk l1 hc' hk'
        exact ⟨h1, fun hne => ⟨by rw [(h2 hne).1], (h2 hne).2⟩⟩
    induction h with
    | here p => exact base p
    | skip a b c hc ih => exact step (.skip a b c) hc ih
    | take a b c hc ih => exact step (.take a b c) hc ih
  exact key h hk l' h' hk'

theorem Chain.trans {p q e : Place} {l l' : List Bytes} (h : Chain files t p l q) (h' : Chain files t q l' e) :
    Chain files t p (l ++ l') e := by
  induction h with
  | here => exact h'
  | skip a b c _ ih => exact .skip a b c (ih h')
  | take a b c _ ih => exact .take a b c (ih h')

/-- A chain that ends with the marker begins with all the chains from the same place. -/
theorem Chain.prefix {p e e' : Place} {l l' : List Bytes} (h : Chain files t p l e)
    (hk : Ends files t e .marker) (h' : Chain files t p l' e') : l' <+: l ∧ ∃ l'', Chain files t e' l'' e := by
  have : ∀ {p l' e'}, Chain files t p l' e' → ∀ l, Chain files t p l e → l' <+: l ∧ ∃ l'', Chain files t e' l'' e := by
    intro p l' e' h'
    have step : ∀ {p q e' : Place} {d l' : List Bytes}, Hop files t p d q →
        (∀ l, Chain files t q l e → l' <+: l ∧ ∃ l'', Chain files t e' l'' e) →
        ∀ l, Chain files t p l e → d ++ l' <+: l ∧ ∃ l'', Chain files t e' l'' e := by
      intro p q e' d l' hh ih l hl
      rcases hl.unhop with ⟨rfl, rfl⟩ | ⟨d', q', l1, hh', hc', rfl⟩
      · exact absurd (hh.ends hk).1 (by decide)
      · obtain ⟨rfl, rfl⟩ := hh.fun hh'
        obtain ⟨h1, h2⟩ := ih _ hc'
        exact ⟨(List.prefix_append_right_inj _).2 h1, h2⟩
    induction h' with
    | here p => exact fun l hl => ⟨List.nil_prefix, _, hl⟩
    | skip a b c _ ih => exact step (.skip a b c) ih
    | take a b c _ ih => exact step (.take a b c) ih
  exact this h' l h

/-! ### The reader -/

def Reader.place (r : Reader) : Place := (r.slab, r.pos)

/-- What is left to read, with a unit for each further file. -/
def left (files : List Bytes) (p : Place) : Nat :=
  ((files.drop (p.1 + 1)).map (fun f => f.length + 1)).sum + ((files[p.1]?.getD []).length - p.2)

theorem left_next {p q : Place} (h : Next files p q) : left files q ≤ left files p := by
  obtain ⟨f, hf, ⟨h1, rfl⟩ | ⟨h1, h2, rfl⟩⟩ := h
  · exact Nat.le_refl _
  · unfold left
    simp only
    rw [List.drop_eq_getElem_cons h2, List.getElem?_eq_getElem h2]
    simp only [List.map_cons, List.sum_cons, Option.getD_some]
    omega

theorem left_hop {q : Place} {file : Bytes} (hf : files[q.1]? = some file) (hlt : q.2 < file.length) {n : Nat}
    (hn : n ≠ 0) : left files (q.1, q.2 + n) < left files q := by
  unfold left
  simp only [hf, Option.getD_some]
  omega

/-- What the outcome of the reader says. -/
def Tells (files : List Bytes) (t : EntryType) (p : Place) : Rd (Option Bytes × Reader) → Prop
  | .ok (some d, r) => ∃ q, Chain files t p [] q ∧ Hop files t q [d] r.place ∧
      (Ends files t q .endless ∨ left files r.place < left files p)
  | .ok (none, _) => ∃ q, Chain files t p [] q ∧ Ends files t q .marker
  | .err => ∃ q, Chain files t p [] q ∧ Ends files t q .refused
  | .panic => ∃ q, Chain files t p [] q ∧ Ends files t q .broken
  | .diverges => ∃ q, Chain files t p [] q ∧ Ends files t q .endless

theorem advance_eq {r : Reader} {file : Bytes} (hf : files[r.slab]? = some file) :
    (r.advance files = .err ∧ Ends files t r.place .refused) ∨
      ∃ r', r.advance files = .ok r' ∧ Next files r.place r'.place ∧
        ∃ file', files[r'.slab]? = some file' ∧ r'.pos ≤ file'.length := by
  unfold Reader.advance
  simp only [hf]
  by_cases h : file.length ≤ r.pos
  · rw [if_pos h]
    by_cases h2 : r.slab + 1 < files.length
    · refine .inr ⟨⟨r.slab + 1, 0⟩, ?_, ⟨file, hf, .inr ⟨h, h2, rfl⟩⟩, _, List.getElem?_eq_getElem h2, Nat.zero_le _⟩
      simp [openSlab, List.getElem?_eq_getElem h2]
    · refine .inl ⟨?_, .noFile hf h (by show files.length ≤ r.slab + 1; omega)⟩
      simp [openSlab, List.getElem?_eq_none (Nat.le_of_not_lt h2)]
  · rw [if_neg h]
    exact .inr ⟨r, rfl, ⟨file, hf, .inl ⟨Nat.lt_of_not_le h, rfl⟩⟩, file, hf, by omega⟩

theorem readHeader_eq {r : Reader} {file : Bytes} (hf : files[r.slab]? = some file) (hle : r.pos ≤ file.length) :
    readHeader files r =
      match (dec : Dec SectionHeader) (file.drop r.pos) with
      | .error _ => .panic
      | .ok (h, _) => if h.m0 == 0xFA && h.m1 == 0x57 then .ok h else .err := by
  unfold readHeader
  simp only [hf]
  rw [if_neg (by omega)]
  rfl

theorem readNext_selfloop {r : Reader} {ty : EntryType} {filled : UInt32} {file : Bytes}
    (hs : SectionAt files r.place ty 0 filled r.place file) (hl : ty ≠ .lastEntry) (ht : ty ≠ t) :
    ∀ fuel, readNext files t fuel r = .diverges
  | 0 => rfl
  | fuel + 1 => by
    have hf : files[r.slab]? = some file := hs.2.1
    have hlt : r.pos < file.length := hs.2.2.lt
    obtain ⟨rest, hd⟩ := headerAt_iff.1 hs.2.2
    have ha : r.advance files = .ok r := by
      unfold Reader.advance
      simp only [hf]
      rw [if_neg (by omega)]
    unfold readNext
    rw [ha]
    simp only
    rw [readHeader_eq hf (by omega), show file.drop r.pos = file.drop r.place.2 from rfl, hd]
    simp only [BEq.rfl, Bool.and_self, if_true, if_neg hl, if_neg ht]
    exact readNext_selfloop hs hl ht fuel

theorem readNext_tells : ∀ (fuel : Nat) (r : Reader), (∃ file, files[r.slab]? = some file) →
    left files r.place < fuel → Tells files t r.place (readNext files t fuel r)
  | 0, r, _, h => absurd h (Nat.not_lt_zero _)
  | fuel + 1, r, ⟨file, hf⟩, h => by
    unfold readNext
    rcases advance_eq (t := t) hf with ⟨h1, h2⟩ | ⟨r', h1, h2, file', hf', hle⟩
    · rw [h1]; exact ⟨_, .here _, h2⟩
    · rw [h1]
      simp only
      rw [readHeader_eq hf' hle]
      cases hd : (dec : Dec SectionHeader) (file'.drop r'.pos) with
      | error e =>
        refine ⟨_, .here _, .noHeader h2 hf' ?_⟩
        intro m0 m1 ty size filled hh
        obtain ⟨rest, hh⟩ := headerAt_iff.1 hh
        rw [show r'.place.2 = r'.pos from rfl, hd] at hh
        cases hh
      | ok x =>
        obtain ⟨⟨m0, m1, ty, size, filled⟩, rest⟩ := x
        have hat : HeaderAt file' r'.pos m0 m1 ty size filled := headerAt_iff.2 ⟨rest, hd⟩
        simp only
        by_cases hm : (m0 == 0xFA && m1 == 0x57) = true
        case neg =>
          rw [if_neg hm]
          refine ⟨_, .here _, .notSection h2 hf' hat ?_⟩
          simpa using hm
        rw [if_pos hm]
        simp only [Bool.and_eq_true, beq_iff_eq] at hm
        obtain ⟨rfl, rfl⟩ := hm
        have hs : SectionAt files r.place ty size filled r'.place file' := ⟨h2, hf', hat⟩
        have hpl : r'.place = (r'.slab, r'.pos) := rfl
        simp only
        by_cases hl : ty = .lastEntry
        · rw [if_pos hl]
          subst hl
          exact ⟨_, .here _, .marker hs⟩
        rw [if_neg hl]
        by_cases ht : ty = t
        · rw [if_pos ht]
          subst ht
          unfold readContent
          simp only [hf']
          by_cases hfit : file'.length < r'.pos + maxHeader + filled.toNat
          · rw [if_pos hfit]
            exact ⟨_, .here _, .overrun hs hl hfit⟩
          · rw [if_neg hfit]
            refine ⟨_, .here _, .take hs hl (Nat.le_of_not_lt hfit), ?_⟩
            by_cases hz : size = 0
            · subst hz
              exact .inl (.endless hs hl (fun _ => Nat.le_of_not_lt hfit))
            · refine .inr (Nat.lt_of_lt_of_le (left_hop (q := r'.place) hf' hat.lt ?_) (left_next h2))
              intro h0; exact hz (UInt32.toNat_inj.1 h0)
        · rw [if_neg ht]
          by_cases hz : size = 0
          · subst hz
            have hend : Ends files t r.place .endless := .endless hs hl (fun hh => absurd hh ht)
            have hloop : readNext files t fuel ⟨r'.slab, r'.pos + (0 : UInt32).toNat⟩ = .diverges :=
              readNext_selfloop hs.again hl ht fuel
            rw [hloop]
            exact ⟨_, .here _, hend⟩
          · have hlt : left files (⟨r'.slab, r'.pos + size.toNat⟩ : Reader).place < left files r.place :=
              Nat.lt_of_lt_of_le (left_hop (q := r'.place) hf' hat.lt fun h0 => hz (UInt32.toNat_inj.1 h0)) (left_next h2)
            have ih := readNext_tells fuel ⟨r'.slab, r'.pos + size.toNat⟩ ⟨_, hf'⟩ (by omega)
            have hhop : Hop files t r.place [] (r'.slab, r'.pos + size.toNat) := .skip hs hl ht
            generalize readNext files t fuel ⟨r'.slab, r'.pos + size.toNat⟩ = out at ih ⊢
            match out, ih with
            | .ok (some d, r2), ⟨q, a, b, c⟩ => exact ⟨q, hhop.chain a, b, c.imp_right fun c => by omega⟩
            | .ok (none, r2), ⟨q, a, b⟩ => exact ⟨q, hhop.chain a, b⟩
            | .err, ⟨q, a, b⟩ => exact ⟨q, hhop.chain a, b⟩
            | .panic, ⟨q, a, b⟩ => exact ⟨q, hhop.chain a, b⟩
            | .diverges, ⟨q, a, b⟩ => exact ⟨q, hhop.chain a, b⟩

theorem Hop.valid {p q : Place} {d : List Bytes} (h : Hop files t p d q) : ∃ file, files[q.1]? = some file := by
  cases h with
  | skip a _ _ => exact ⟨_, a.2.1⟩
  | take a _ _ => exact ⟨_, a.2.1⟩

theorem Chain.valid {p q : Place} {l : List Bytes} (h : Chain files t p l q) (hp : ∃ file, files[p.1]? = some file) :
    ∃ file, files[q.1]? = some file := by
  induction h with
  | here => exact hp
  | skip a b c _ ih => exact ih (Hop.skip a b c).valid
  | take a b c _ ih => exact ih (Hop.take a b c).valid

/-- All that the reader returns, and how it ends. -/
def AllTells (files : List Bytes) (t : EntryType) (p : Place) : Rd (List Bytes) → Prop
  | .ok ds => ∃ q, Chain files t p ds q ∧ Ends files t q .marker
  | .err => ∃ ds q, Chain files t p ds q ∧ Ends files t q .refused
  | .panic => ∃ ds q, Chain files t p ds q ∧ Ends files t q .broken
  | .diverges => ∃ ds q, Chain files t p ds q ∧ Ends files t q .endless

theorem sum_succ : ∀ l : List Bytes, (l.map (fun f => f.length + 1)).sum = (l.map List.length).sum + l.length
  | [] => rfl
  | f :: l => by simp only [List.map_cons, List.sum_cons, List.length_cons, sum_succ l]; omega

theorem sum_drop (g : Bytes → Nat) : ∀ (l : List Bytes) (n : Nat), ((l.drop n).map g).sum ≤ (l.map g).sum
  | l, 0 => Nat.le_refl _
  | [], n + 1 => Nat.le_refl _
  | f :: l, n + 1 => by
    simp only [List.drop_succ_cons, List.map_cons, List.sum_cons]
    have := sum_drop g l n
    omega

theorem left_lt (files : List Bytes) (p : Place) : left files p < readFuel files := by
  unfold left readFuel
  have h1 := sum_succ files
  have h2 := sum_drop (fun f => f.length + 1) files p.1
  by_cases hp : p.1 < files.length
  · rw [List.drop_eq_getElem_cons hp] at h2
    rw [List.getElem?_eq_getElem hp]
    simp only [List.map_cons, List.sum_cons, Option.getD_some] at h2 ⊢
    omega
  · have h3 := sum_drop (fun f => f.length + 1) files (p.1 + 1)
    rw [List.getElem?_eq_none (Nat.le_of_not_lt hp)]
    simp only [Option.getD_none, List.length_nil]
    omega

theorem readAll_loop {r : Reader} (hv : ∃ file, files[r.slab]? = some file)
    (he : Ends files t r.place .endless) : ∀ n, readAll files t n r = .diverges
  | 0 => rfl
  | n + 1 => by
    unfold readAll
    have h := readNext_tells (t := t) (readFuel files) r hv (left_lt _ _)
    generalize readNext files t (readFuel files) r = out at h ⊢
    match out, h with
    | .ok (some d, r2), ⟨q, a, b, c⟩ =>
      have := readAll_loop b.valid (b.ends (a.ends_endless he)).2 n
      simp only [this]
    | .ok (none, r2), ⟨q, a, b⟩ => exact absurd ((a.ends_endless he).fun b) (by decide)
    | .err, ⟨q, a, b⟩ => exact absurd ((a.ends_endless he).fun b) (by decide)
    | .panic, ⟨q, a, b⟩ => exact absurd ((a.ends_endless he).fun b) (by decide)
    | .diverges, _ => rfl

theorem readAll_tells : ∀ (n : Nat) (r : Reader), (∃ file, files[r.slab]? = some file) →
    left files r.place < n → AllTells files t r.place (readAll files t n r)
  | 0, _, _, h => absurd h (Nat.not_lt_zero _)
  | n + 1, r, hv, hn => by
    unfold readAll
    have h := readNext_tells (t := t) (readFuel files) r hv (left_lt _ _)
    generalize readNext files t (readFuel files) r = out at h ⊢
    match out, h with
    | .ok (some d, r2), ⟨q, a, b, .inl c⟩ =>
      have := readAll_loop b.valid (b.ends c).2 n
      simp only [this]
      exact ⟨_, _, a, c⟩
    | .ok (some d, r2), ⟨q, a, b, .inr c⟩ =>
      have ih := readAll_tells n r2 b.valid (by omega)
      simp only
      generalize readAll files t n r2 = out at ih ⊢
      match out, ih with
      | .ok ds, ⟨q', a', b'⟩ => exact ⟨q', a.trans (b.chain a'), b'⟩
      | .err, ⟨ds, q', a', b'⟩ => exact ⟨_, q', a.trans (b.chain a'), b'⟩
      | .panic, ⟨ds, q', a', b'⟩ => exact ⟨_, q', a.trans (b.chain a'), b'⟩
      | .diverges, ⟨ds, q', a', b'⟩ => exact ⟨_, q', a.trans (b.chain a'), b'⟩
    | .ok (none, r2), ⟨q, a, b⟩ => exact ⟨q, a, b⟩
    | .err, ⟨q, a, b⟩ => exact ⟨_, q, a, b⟩
    | .panic, ⟨q, a, b⟩ => exact ⟨_, q, a, b⟩
    | .diverges, ⟨q, a, b⟩ => exact ⟨_, q, a, b⟩

/-! ### The main header -/

theorem dec_main {bs : Bytes} :
    (dec : Dec MainHeader) bs =
      match bs with
      | m0 :: m1 :: m2 :: m3 :: b =>
        match (dec : Dec (UInt16 × UInt16)) b with
        | .error e => .error e
        | .ok ((f, p), r) => .ok (⟨m0, m1, m2, m3, f, p⟩, r)
      | _ => .error .unexpectedEnd := by
  match bs with
  | [] => rfl
  | [a] => rfl
  | [a, b] => rfl
  | [a, b, c] => rfl
  | m0 :: m1 :: m2 :: m3 :: b =>
    have e2 : ∀ (U : Dec UInt16), (do
          let f ← U
          let p ← U
          pure (⟨m0, m1, m2, m3, f, p⟩ : MainHeader) : Dec MainHeader) b =
        match (do
          let f ← U
          let p ← U
          pure (f, p) : Dec (UInt16 × UInt16)) b with
        | .error e => .error e
        | .ok ((f, p), r) => .ok (⟨m0, m1, m2, m3, f, p⟩, r) := by
      intro U
      simp only [bind, Dec.andThen, pure, Dec.ret]
      cases U b with
      | error e => rfl
      | ok x =>
        simp only
        cases U x.2 with
        | error e => rfl
        | ok y => rfl
    exact e2 dec

theorem mainAt_iff {file : Bytes} {m0 m1 m2 m3 : UInt8} {first : Nat} :
    MainAt file m0 m1 m2 m3 first ↔ ∃ off size rest, (dec : Dec MainHeader) file = .ok (⟨m0, m1, m2, m3, off, size⟩, rest) ∧
      off.toNat = first := by
  constructor
  · rintro ⟨b, rest, off, size, rfl, hd, ho⟩
    exact ⟨off, size, rest, by rw [dec_main]; simp only [hd], ho⟩
  · rintro ⟨off, size, rest, hd, ho⟩
    rw [dec_main] at hd
    match file, hd with
    | n0 :: n1 :: n2 :: n3 :: b, hd =>
      simp only at hd
      cases hb : (dec : Dec (UInt16 × UInt16)) b with
      | error e => rw [hb] at hd; cases hd
      | ok x =>
        obtain ⟨⟨f, p⟩, r⟩ := x
        rw [hb] at hd
        cases hd
        exact ⟨b, _, off, size, rfl, hb, ho⟩

theorem MainAt.fun {file : Bytes} {m0 m1 m2 m3 n0 n1 n2 n3 : UInt8} {first first' : Nat}
    (h : MainAt file m0 m1 m2 m3 first) (h' : MainAt file n0 n1 n2 n3 first') :
    m0 = n0 ∧ m1 = n1 ∧ m2 = n2 ∧ m3 = n3 ∧ first = first' := by
  obtain ⟨o, s, r, a, rfl⟩ := mainAt_iff.1 h
  obtain ⟨o', s', r', a', rfl⟩ := mainAt_iff.1 h'
  rw [a] at a'
  cases a'
  exact ⟨rfl, rfl, rfl, rfl, rfl⟩

/-- The three ways opening can go. -/
theorem open_cases (files : List Bytes) :
    (NotALog files ∧ Reader.new files = .err) ∨ (NoBeginning files ∧ Reader.new files = .panic) ∨
      ∃ first, Opens files first ∧ Reader.new files = .ok ⟨0, first⟩ := by
  unfold Reader.new openSlab
  cases files with
  | nil => exact .inl ⟨.inl rfl, rfl⟩
  | cons file files =>
    simp only [List.getElem?_cons_zero, if_true]
    cases hd : (dec : Dec MainHeader) file with
    | error e =>
      refine .inr (.inl ⟨⟨file, rfl, ?_⟩, rfl⟩)
      intro m0 m1 m2 m3 first h
      obtain ⟨_, _, _, h, _⟩ := mainAt_iff.1 h
      rw [hd] at h; cases h
    | ok x =>
      obtain ⟨⟨m0, m1, m2, m3, off, size⟩, rest⟩ := x
      have hm : MainAt file m0 m1 m2 m3 off.toNat := mainAt_iff.2 ⟨_, _, _, hd, rfl⟩
      by_cases h : (⟨m0, m1, m2, m3, off, size⟩ : MainHeader).magicOk = true
      · simp only [if_pos h]
        simp only [MainHeader.magicOk, Bool.and_eq_true, beq_iff_eq] at h
        obtain ⟨⟨⟨rfl, rfl⟩, rfl⟩, rfl⟩ := h
        exact .inr (.inr ⟨_, ⟨file, rfl, hm⟩, rfl⟩)
      · simp only [if_neg h]
        refine .inl ⟨.inr ⟨file, m0, m1, m2, m3, _, rfl, hm, ?_⟩, trivial⟩
        simpa [MainHeader.magicOk, and_assoc] using h

theorem Opens.fun {first first' : Nat} (h : Opens files first) (h' : Opens files first') : first = first' := by
  obtain ⟨f, hf, h⟩ := h
  obtain ⟨f', hf', h'⟩ := h'
  rw [hf] at hf'; cases hf'
  exact (h.fun h').2.2.2.2

theorem Opens.not_notALog {first : Nat} (h : Opens files first) : ¬ NotALog files := by
  obtain ⟨f, hf, h⟩ := h
  rintro (rfl | ⟨f', m0, m1, m2, m3, first', hf', h', hn⟩)
  · simp at hf
  · rw [hf] at hf'; cases hf'
    obtain ⟨rfl, rfl, rfl, rfl, _⟩ := h.fun h'
    exact hn ⟨rfl, rfl, rfl, rfl⟩

theorem Opens.not_noBeginning {first : Nat} (h : Opens files first) : ¬ NoBeginning files := by
  obtain ⟨f, hf, h⟩ := h
  rintro ⟨f', hf', h'⟩
  rw [hf] at hf'; cases hf'
  exact h' _ _ _ _ _ h

theorem not_both (h : NotALog files) : ¬ NoBeginning files := by
  rintro ⟨f', hf', h'⟩
  rcases h with rfl | ⟨f, m0, m1, m2, m3, first, hf, h, _⟩
  · simp at hf'
  · rw [hf] at hf'; cases hf'
    exact h' _ _ _ _ _ h

/-- What the reader does with the files. -/
theorem readLog_iff (files : List Bytes) (t : EntryType) :
    (∀ ds, readLog files t = .ok ds ↔
      ∃ first e, Opens files first ∧ Chain files t (0, first) ds e ∧ Ends files t e .marker) ∧
    (readLog files t = .err ↔ NotALog files ∨
      ∃ first ds e, Opens files first ∧ Chain files t (0, first) ds e ∧ Ends files t e .refused) ∧
    (readLog files t = .panic ↔ NoBeginning files ∨
      ∃ first ds e, Opens files first ∧ Chain files t (0, first) ds e ∧ Ends files t e .broken) ∧
    (readLog files t = .diverges ↔
      ∃ first ds e, Opens files first ∧ Chain files t (0, first) ds e ∧ Ends files t e .endless) := by
  unfold readLog
  rcases open_cases files with ⟨h, he⟩ | ⟨h, he⟩ | ⟨first, h, he⟩
  · rw [he]
    simp only [reduceCtorEq, false_iff, true_iff]
    refine ⟨?_, .inl h, ?_, ?_⟩
    · rintro ds ⟨_, _, ho, _⟩; exact ho.not_notALog h
    · rintro (hn | ⟨_, _, _, ho, _⟩)
      · exact not_both h hn
      · exact ho.not_notALog h
    · rintro ⟨_, _, _, ho, _⟩; exact ho.not_notALog h
  · rw [he]
    simp only [reduceCtorEq, false_iff, true_iff]
    refine ⟨?_, ?_, .inl h, ?_⟩
    · rintro ds ⟨_, _, ho, _⟩; exact ho.not_noBeginning h
    · rintro (hn | ⟨_, _, _, ho, _⟩)
      · exact not_both hn h
      · exact ho.not_noBeginning h
    · rintro ⟨_, _, _, ho, _⟩; exact ho.not_noBeginning h
  · rw [he]
    simp only
    have hv : ∃ file, files[(⟨0, first⟩ : Reader).slab]? = some file := by
      obtain ⟨f, hf, _⟩ := h; exact ⟨f, hf⟩
    have ht := readAll_tells (t := t) (readFuel files) ⟨0, first⟩ hv (left_lt _ _)
    generalize readAll files t (readFuel files) ⟨0, first⟩ = out at ht ⊢
    have n1 := h.not_notALog
    have n2 := h.not_noBeginning
    have only : ∀ {k ds e}, Chain files t (0, first) ds e → Ends files t e k → ∀ {k' first' ds' e'},
        Opens files first' → Chain files t (0, first') ds' e' → Ends files t e' k' →
        k = k' ∧ (k ≠ .endless → ds = ds') := by
      intro k ds e hc hk k' first' ds' e' ho' hc' hk'
      obtain rfl := h.fun ho'
      obtain ⟨a, b⟩ := hc.fun hk hc' hk'
      exact ⟨a, fun hne => (b hne).1⟩
    match out, ht with
    | .ok ds, ⟨q, hc, hk⟩ =>
      refine ⟨fun ds' => ⟨?_, ?_⟩, ⟨?_, ?_⟩, ⟨?_, ?_⟩, ?_, ?_⟩
      · rintro hh; cases hh; exact ⟨_, _, h, hc, hk⟩
      · rintro ⟨_, _, a, b, c⟩; rw [(only hc hk a b c).2 (by decide)]
      · rintro hh; cases hh
      · rintro (hn | ⟨_, _, _, a, b, c⟩)
        · exact absurd hn n1
        · exact absurd (only hc hk a b c).1 (by decide)
      · rintro hh; cases hh
      · rintro (hn | ⟨_, _, _, a, b, c⟩)
        · exact absurd hn n2
        · exact absurd (only hc hk a b c).1 (by decide)
      · rintro hh; cases hh
      · rintro ⟨_, _, _, a, b, c⟩; exact absurd (only hc hk a b c).1 (by decide)
    | .err, ⟨ds, q, hc, hk⟩ =>
      refine ⟨fun ds' => ⟨?_, ?_⟩, ⟨?_, ?_⟩, ⟨?_, ?_⟩, ?_, ?_⟩
      · rintro hh; cases hh
      · rintro ⟨_, _, a, b, c⟩; exact absurd (only hc hk a b c).1 (by decide)
      · rintro _; exact .inr ⟨_, _, _, h, hc, hk⟩
      · intro _; rfl
      · rintro hh; cases hh
      · rintro (hn | ⟨_, _, _, a, b, c⟩)
        · exact absurd hn n2
        · exact absurd (only hc hk a b c).1 (by decide)
      · rintro hh; cases hh
      · rintro ⟨_, _, _, a, b, c⟩; exact absurd (only hc hk a b c).1 (by decide)
    | .panic, ⟨ds, q, hc, hk⟩ =>
      refine ⟨fun ds' => ⟨?_, ?_⟩, ⟨?_, ?_⟩, ⟨?_, ?_⟩, ?_, ?_⟩
      · rintro hh; cases hh
      · rintro ⟨_, _, a, b, c⟩; exact absurd (only hc hk a b c).1 (by decide)
      · rintro hh; cases hh
      · rintro (hn | ⟨_, _, _, a, b, c⟩)
        · exact absurd hn n1
        · exact absurd (only hc hk a b c).1 (by decide)
      · rintro _; exact .inr ⟨_, _, _, h, hc, hk⟩
      · intro _; rfl
      · rintro hh; cases hh
      · rintro ⟨_, _, _, a, b, c⟩; exact absurd (only hc hk a b c).1 (by decide)
    | .diverges, ⟨ds, q, hc, hk⟩ =>
      refine ⟨fun ds' => ⟨?_, ?_⟩, ⟨?_, ?_⟩, ⟨?_, ?_⟩, ?_, ?_⟩
      · rintro hh; cases hh
      · rintro ⟨_, _, a, b, c⟩; exact absurd (only hc hk a b c).1 (by decide)
      · rintro hh; cases hh
      · rintro (hn | ⟨_, _, _, a, b, c⟩)
        · exact absurd hn n1
        · exact absurd (only hc hk a b c).1 (by decide)
      · rintro hh; cases hh
      · rintro (hn | ⟨_, _, _, a, b, c⟩)
        · exact absurd hn n2
        · exact absurd (only hc hk a b c).1 (by decide)
      · rintro _; exact ⟨_, _, _, h, hc, hk⟩
      · intro _; rfl

/-- What a chain delivers lies in the files behind headers of the type. -/
theorem Chain.inside {p e : Place} {l : List Bytes} (h : Chain files t p l e) :
    ∀ d ∈ l, ∃ file ∈ files, ∃ off size filled, HeaderAt file off 0xFA 0x57 t size filled ∧
      d = (file.drop (off + 15)).take filled.toNat ∧ d.length = filled.toNat := by
  induction h with
  | here => simp
  | skip _ _ _ _ ih => exact ih
  | @take p q e size filled file l a b c hc ih =>
    intro d hd
    rcases List.mem_cons.1 hd with rfl | hd
    · refine ⟨file, List.mem_of_getElem? a.2.1, q.2, size, filled, a.2.2, rfl, ?_⟩
      simp only [List.length_take, List.length_drop]
      omega
    · exact ih d hd

/-! ### A log of which the end is missing -/

theorem seq_triple : Dec.Sequential (dec : Dec (EntryType × UInt32 × UInt32)) :=
  Dec.Sequential.entryType.bind fun _ =>
    (Dec.Sequential.u32.bind fun _ => Dec.Sequential.u32.bind fun _ => .pure _).bind fun _ => .pure _

theorem HeaderAt.take {file : Bytes} {n off : Nat} {m0 m1 : UInt8} {ty : EntryType} {size filled : UInt32}
    (h : HeaderAt (file.take n) off m0 m1 ty size filled) : HeaderAt file off m0 m1 ty size filled := by
  have hlt := h.lt
  obtain ⟨b, rest, hb, hd⟩ := h
  have e : file.drop off = (file.take n).drop off ++ file.drop n := by
    conv => lhs; rw [← List.take_append_drop n file]
    rw [List.drop_append_of_le_length (by omega)]
  exact ⟨b ++ file.drop n, rest ++ file.drop n, by rw [e, hb]; rfl, seq_triple _ _ _ _ hd⟩

variable {files' : List Bytes}

theorem CutOf.get (h : CutOf files' files) {i : Nat} {f' : Bytes} (hf : files'[i]? = some f') :
    ∃ f, files[i]? = some f ∧ ∃ n, f' = f.take n ∧ (i + 1 < files'.length → f' = f) := by
  obtain ⟨k, file, n, hk, rfl⟩ := h
  have hk' := (List.getElem?_eq_some_iff.1 hk).1
  have hl : (files.take k).length = k := by simp; omega
  by_cases hi : i < k
  · rw [List.getElem?_append_left (by omega), List.getElem?_take_of_lt hi] at hf
    exact ⟨f', hf, f'.length, by simp, fun _ => rfl⟩
  · by_cases he : i = k
    · subst he
      rw [List.getElem?_append_right (by omega), hl] at hf
      simp at hf
      subst hf
      refine ⟨file, hk, n, rfl, fun hh => ?_⟩
      simp at hh
      omega
    · rw [List.getElem?_eq_none (by simp; omega)] at hf
      cases hf

theorem CutOf.next (h : CutOf files' files) {p q : Place} (hn : Next files' p q) : Next files p q := by
  obtain ⟨f', hf, hn⟩ := hn
  obtain ⟨f, hf2, n, rfl, hlast⟩ := h.get hf
  refine ⟨f, hf2, ?_⟩
  rcases hn with ⟨h1, rfl⟩ | ⟨h1, h2, rfl⟩
  · simp at h1; exact .inl ⟨by omega, rfl⟩
  · rw [hlast h2] at h1
    refine .inr ⟨h1, ?_, rfl⟩
    obtain ⟨k, file, m, hk, rfl⟩ := h
    have hk' := (List.getElem?_eq_some_iff.1 hk).1
    simp at h2
    omega

theorem CutOf.section (h : CutOf files' files) {p q : Place} {ty : EntryType} {size filled : UInt32} {f' : Bytes}
    (hs : SectionAt files' p ty size filled q f') :
    ∃ f n, SectionAt files p ty size filled q f ∧ f' = f.take n := by
  obtain ⟨hn, hf, hh⟩ := hs
  obtain ⟨f, hf2, n, rfl, _⟩ := h.get hf
  exact ⟨f, n, ⟨h.next hn, hf2, hh.take⟩, rfl⟩

theorem take_slice {f : Bytes} {n off k : Nat} (h : off + k ≤ (f.take n).length) :
    ((f.take n).drop off).take k = (f.drop off).take k := by
  simp at h
  rw [List.drop_take, List.take_take]
  congr 1
  omega

theorem CutOf.chain (h : CutOf files' files) {p e : Place} {l : List Bytes} (hc : Chain files' t p l e) :
    Chain files t p l e := by
  induction hc with
  | here => exact .here _
  | skip a b c _ ih =>
    obtain ⟨f, n, a', _⟩ := h.section a
    exact .skip a' b c ih
  | @take p q e size filled file l a b c _ ih =>
    obtain ⟨f, n, a', rfl⟩ := h.section a
    rw [take_slice c]
    exact .take a' b (by simp at c; omega) ih

theorem CutOf.marker (h : CutOf files' files) {p : Place} (hk : Ends files' t p .marker) : Ends files t p .marker := by
  cases hk with
  | marker a =>
    obtain ⟨f, n, a', _⟩ := h.section a
    exact .marker a'

theorem CutOf.endless (h : CutOf files' files) {p : Place} (hk : Ends files' t p .endless) : Ends files t p .endless := by
  cases hk with
  | endless a b c =>
    obtain ⟨f, n, a', rfl⟩ := h.section a
    exact .endless a' b (fun hh => by have := c hh; simp at this; omega)

theorem CutOf.opens (h : CutOf files' files) {first : Nat} (ho : Opens files' first) : Opens files first := by
  obtain ⟨f', hf, b, rest, off, size, rfl, hd, hoff⟩ := ho
  obtain ⟨f, hf2, n, he, _⟩ := h.get hf
  refine ⟨f, hf2, b ++ f.drop n, rest ++ f.drop n, off, size, ?_, ?_, hoff⟩
  · conv => lhs; rw [← List.take_append_drop n f, ← he]
    rfl
  · exact (Dec.Sequential.u16.bind fun _ => Dec.Sequential.u16.bind fun _ => .pure _ :
      Dec.Sequential (dec : Dec (UInt16 × UInt16))) _ _ _ _ hd

end ULog
end Verif
