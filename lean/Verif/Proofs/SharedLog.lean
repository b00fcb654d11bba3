import Verif.Spec.SharedLog
import Verif.Proofs.UnifiedLogConc
/-! Several streams of a type at the same time. -/
namespace Verif

theorem Pointwise.append {α β : Type} {R : α → β → Prop} {a : List α} {b : List β} {a' : List α} {b' : List β}
    (h : Pointwise R a b) (h' : Pointwise R a' b') : Pointwise R (a ++ a') (b ++ b') := by
  induction h with
  | nil => exact h'
  | cons h _ ih => exact .cons h ih

theorem Pointwise.split {α β : Type} {R : α → β → Prop} {A : List α} {s : α} {B : List α} {G : List β}
    (h : Pointwise R (A ++ s :: B) G) :
    ∃ A' g B', G = A' ++ g :: B' ∧ A.length = A'.length ∧ Pointwise R A A' ∧ R s g ∧ Pointwise R B B' := by
  induction A generalizing G with
  | nil => cases h with | cons h hs => exact ⟨[], _, _, rfl, rfl, .nil, h, hs⟩
  | cons a A ih =>
    cases h with
    | cons h hs =>
      obtain ⟨A', g, B', rfl, hl, h1, h2, h3⟩ := ih hs
      exact ⟨_ :: A', g, B', rfl, by simp [hl], .cons h h1, h2, h3⟩

theorem Pointwise.len {α β : Type} {R : α → β → Prop} {a : List α} {b : List β}
    (h : Pointwise R a b) : a.length = b.length := by
  induction h with
  | nil => rfl
  | cons _ _ ih => simp [ih]

theorem Pointwise.imp {α β : Type} {R S : α → β → Prop} {a : List α} {b : List β} (hRS : ∀ x y, R x y → S x y)
    (h : Pointwise R a b) : Pointwise S a b := by
  induction h with
  | nil => exact .nil
  | cons h _ ih => exact .cons (hRS _ _ h) ih

namespace ULog
open Bincode

/-- A section holds the objects of its portion. -/
def HoldsP (types : List EntryType) (s : Sec) (p : Portion) : Prop :=
  types[p.stream]? = some s.et ∧ s.data = p.objs.flatten ∧ ∀ i, s.owner = some i → p.stream = i

structure FlatP (F : List Sec) (G : List Portion) (types : List EntryType) (out : Nat → List Bytes) : Prop where
  holds : Pointwise (HoldsP types) F G
  types : ∀ t ∈ types, t ≠ .empty ∧ t ≠ .lastEntry
  out : ∀ i, portionsOf i G = out i
  last : ∀ A s B A' g B', F = A ++ s :: B → G = A' ++ g :: B' → A.length = A'.length →
    ∀ i, s.owner = some i → ∀ p ∈ B', p.stream ≠ i

theorem portionsOf_append (i : Nat) (a b : List Portion) : portionsOf i (a ++ b) = portionsOf i a ++ portionsOf i b := by
  simp [portionsOf, List.filter_append]

theorem portionsOf_cons (i : Nat) (p : Portion) (b : List Portion) :
    portionsOf i (p :: b) = (if p.stream = i then p.objs else []) ++ portionsOf i b := by
  unfold portionsOf
  by_cases h : p.stream = i
  · simp [h]
  · simp [h]

theorem portionsOf_none {i : Nat} {b : List Portion} (h : ∀ p ∈ b, p.stream ≠ i) : portionsOf i b = [] := by
  unfold portionsOf
  rw [List.filter_eq_nil_iff.2 (by simpa using h)]
  rfl

/-- More streams. -/
theorem FlatP.more {F G types out} (h : FlatP F G types out) {t : EntryType} (h1 : t ≠ .empty) (h2 : t ≠ .lastEntry) :
    FlatP F G (types ++ [t]) out := by
  refine ⟨h.holds.imp ?_, ?_, h.out, h.last⟩
  · intro s p ⟨a, b, c⟩
    refine ⟨?_, b, c⟩
    rw [List.getElem?_append_left (List.getElem?_eq_some_iff.1 a).1]
    exact a
  · intro u hu
    rcases List.mem_append.1 hu with hu | hu
    · exact h.types u hu
    · have : u = t := by simpa using hu
      subst this; exact ⟨h1, h2⟩

/-- A new section. -/
theorem FlatP.add {F G types out} (h : FlatP F G types out) {n i : Nat} {t : EntryType} (ht : types[i]? = some t)
    (hno : ∀ s ∈ F, s.owner ≠ some i) : FlatP (F ++ [⟨n, t, [], some i⟩]) (G ++ [⟨i, []⟩]) types out := by
  refine ⟨h.holds.append (.cons ⟨ht, rfl, by simp⟩ .nil), h.types, ?_, ?_⟩
  · intro j
    rw [portionsOf_append, h.out j]
    simp [portionsOf_cons, portionsOf]
  · intro A s B A' g B' hF hG hl j hj p hp
    have hlen := h.holds.len
    have hA : A.length < F.length := by
      have e1 := congrArg List.length hG
      have : B'.length ≠ 0 := by
        intro hc
        have := List.length_eq_zero_iff.1 hc
        subst this; simp at hp
      rw [List.length_append, List.length_append, List.length_cons] at e1
      simp at e1
      omega
    obtain ⟨B1, rfl⟩ : ∃ B1, B = B1 ++ [⟨n, t, [], some i⟩] := by
      have : (A ++ s :: B).drop (A.length + 1) = B := by simp
      rw [← hF, List.drop_append_of_le_length (by omega)] at this
      exact ⟨_, this.symm⟩
    have hF' : F = A ++ s :: B1 := by
      have : A ++ s :: (B1 ++ [⟨n, t, [], some i⟩]) = (A ++ s :: B1) ++ [⟨n, t, [], some i⟩] := by simp
      rw [this] at hF
      exact (List.append_inj' hF rfl).1
    obtain ⟨B2, rfl⟩ : ∃ B2, B' = B2 ++ [⟨i, []⟩] := by
      have : (A' ++ g :: B').drop (A'.length + 1) = B' := by simp
      rw [← hG, List.drop_append_of_le_length (by omega)] at this
      exact ⟨_, this.symm⟩
    have hG' : G = A' ++ g :: B2 := by
      have : A' ++ g :: (B2 ++ [(⟨i, []⟩ : Portion)]) = (A' ++ g :: B2) ++ [⟨i, []⟩] := by simp
      rw [this] at hG
      exact (List.append_inj' hG rfl).1
    rcases List.mem_append.1 hp with hp | hp
    · exact h.last A s B1 A' g B2 hF' hG' hl j hj p hp
    · have : p = ⟨i, []⟩ := by simpa using hp
      subst this
      rintro rfl
      exact hno s (by rw [hF']; simp) hj

theorem append_cons_inj {α : Type} {A A' : List α} {s s' : α} {B B' : List α} (h : A ++ s :: B = A' ++ s' :: B')
    (hl : A.length = A'.length) : A = A' ∧ s = s' ∧ B = B' := by
  obtain ⟨h1, h2⟩ := List.append_inj h hl
  simp only [List.cons.injEq] at h2
  exact ⟨h1, h2.1, h2.2⟩

/-- Replacing a section and its portion, of the same stream, without giving it an owner. -/
theorem last_replace {A s B A' g B'} {s' : Sec} {g' : Portion} (hl : A.length = A'.length)
    (h : ∀ A1 s1 B1 A1' g1 B1', A ++ s :: B = A1 ++ s1 :: B1 → A' ++ g :: B' = A1' ++ g1 :: B1' →
      A1.length = A1'.length → ∀ i, s1.owner = some i → ∀ p ∈ B1', p.stream ≠ i)
    (ho : ∀ i, s'.owner = some i → s.owner = some i) (hs : g'.stream = g.stream) :
    ∀ A1 s1 B1 A1' g1 B1', A ++ s' :: B = A1 ++ s1 :: B1 → A' ++ g' :: B' = A1' ++ g1 :: B1' →
      A1.length = A1'.length → ∀ i, s1.owner = some i → ∀ p ∈ B1', p.stream ≠ i := by
  intro A1 s1 B1 A1' g1 B1' h1 h2 h3 i hi p hp
  rcases Nat.lt_trichotomy A1.length A.length with hlt | heq | hgt
  · -- before the replaced one
    obtain ⟨C, rfl⟩ : ∃ C, A = A1 ++ s1 :: C := by
      have e := congrArg (List.take (A1.length + 1)) h1
      rw [List.take_append_of_le_length (by omega), List.take_append] at e
      simp only [Nat.add_sub_cancel_left, List.take_succ_cons, List.take_zero,
        List.take_of_length_le (Nat.le_succ _)] at e
      refine ⟨A.drop (A1.length + 1), ?_⟩
      calc A = A.take (A1.length + 1) ++ A.drop (A1.length + 1) := (List.take_append_drop _ _).symm
        _ = _ := by rw [e]; simp
    obtain ⟨C', rfl⟩ : ∃ C, A' = A1' ++ g1 :: C := by
      have e := congrArg (List.take (A1'.length + 1)) h2
      rw [List.take_append_of_le_length (by omega), List.take_append] at e
      simp only [Nat.add_sub_cancel_left, List.take_succ_cons, List.take_zero,
        List.take_of_length_le (Nat.le_succ _)] at e
      refine ⟨A'.drop (A1'.length + 1), ?_⟩
      calc A' = A'.take (A1'.length + 1) ++ A'.drop (A1'.length + 1) := (List.take_append_drop _ _).symm
        _ = _ := by rw [e]; simp
    have e2 : B1' = C' ++ g' :: B' := by
      simp only [List.append_assoc, List.cons_append] at h2
      exact ((append_cons_inj h2 rfl).2.2).symm
    have := h A1 s1 (C ++ s :: B) A1' g1 (C' ++ g :: B') (by simp) (by simp) h3 i hi
    subst e2
    simp only [List.mem_append, List.mem_cons] at hp
    rcases hp with hp | rfl | hp
    · exact this p (by simp [hp])
    · rw [hs]; exact this g (by simp)
    · exact this p (by simp [hp])
  · obtain ⟨rfl, rfl, rfl⟩ := append_cons_inj h1 heq.symm
    obtain ⟨rfl, rfl, rfl⟩ := append_cons_inj h2 (by omega)
    exact h A s B A' g B' rfl rfl hl i (ho i hi) p hp
  · obtain ⟨C, rfl⟩ : ∃ C, A1 = A ++ s' :: C := by
      have e := congrArg (List.take (A.length + 1)) h1
      rw [List.take_append, List.take_append_of_le_length (by omega)] at e
      simp only [Nat.add_sub_cancel_left, List.take_succ_cons, List.take_zero,
        List.take_of_length_le (Nat.le_succ _)] at e
      refine ⟨A1.drop (A.length + 1), ?_⟩
      calc A1 = A1.take (A.length + 1) ++ A1.drop (A.length + 1) := (List.take_append_drop _ _).symm
        _ = _ := by rw [← e]; simp
    obtain ⟨C', rfl⟩ : ∃ C, A1' = A' ++ g' :: C := by
      have e := congrArg (List.take (A'.length + 1)) h2
      rw [List.take_append, List.take_append_of_le_length (by omega)] at e
      simp only [Nat.add_sub_cancel_left, List.take_succ_cons, List.take_zero,
        List.take_of_length_le (Nat.le_succ _)] at e
      refine ⟨A1'.drop (A'.length + 1), ?_⟩
      calc A1' = A1'.take (A'.length + 1) ++ A1'.drop (A'.length + 1) := (List.take_append_drop _ _).symm
        _ = _ := by rw [← e]; simp
    have e1 : B = C ++ s1 :: B1 := by
      simp only [List.append_assoc, List.cons_append] at h1
      exact (append_cons_inj h1 rfl).2.2
    have e2 : B' = C' ++ g1 :: B1' := by
      simp only [List.append_assoc, List.cons_append] at h2
      exact (append_cons_inj h2 rfl).2.2
    exact h (A ++ s :: C) s1 B1 (A' ++ g :: C') g1 B1' (by simp [e1]) (by simp [e2])
      (by simp at h3 ⊢; omega) i hi p hp

def addObj (out : Nat → List Bytes) (i : Nat) (l : List Bytes) : Nat → List Bytes :=
  fun j => if j = i then out j ++ l else out j

/-- An object is added to the open section of a stream. -/
theorem FlatP.write {A s B G types out} (h : FlatP (A ++ s :: B) G types out) {i : Nat} (ho : s.owner = some i)
    (d : Bytes) : ∃ G', FlatP (A ++ { s with data := s.data ++ d } :: B) G' types (addObj out i [d]) := by
  obtain ⟨A', g, B', rfl, hl, h1, h2, h3⟩ := h.holds.split
  have hg := h2.2.2 i ho
  refine ⟨A' ++ { g with objs := g.objs ++ [d] } :: B', ?_, h.types, ?_, ?_⟩
  · refine h1.append (.cons ⟨h2.1, ?_, h2.2.2⟩ h3)
    simp [h2.2.1]
  · intro j
    have hj := h.out j
    rw [portionsOf_append, portionsOf_cons] at hj ⊢
    unfold addObj
    by_cases hji : j = i
    · subst hji
      have := portionsOf_none (h.last A s B A' g B' rfl rfl hl j ho)
      rw [← hj]
      simp [hg, this]
    · rw [← hj]
      simp [hg, hji, Ne.symm hji]
  · exact last_replace hl h.last (by simp) rfl

/-- The open section of a stream is closed. -/
theorem FlatP.close {A s B G types out} (h : FlatP (A ++ s :: B) G types out) :
    FlatP (A ++ { s with owner := none } :: B) G types out := by
  obtain ⟨A', g, B', rfl, hl, h1, h2, h3⟩ := h.holds.split
  exact ⟨h1.append (.cons ⟨h2.1, h2.2.1, by simp⟩ h3), h.types, h.out, last_replace hl h.last (by simp) rfl⟩

/-- What holds of a log with several streams of a type. -/
structure ShInv (page slabSize : Nat) (s : LogSys) (lay : List (List Sec)) (G : List Portion)
    (live : List (Option (EntryType × Nat))) (types : List EntryType) (out : Nat → List Bytes) : Prop where
  inv : Inv s.lg lay s.own
  pageEq : s.lg.pageSize = page
  slabEq : s.lg.slabSize = slabSize
  nonempty : NonEmpty lay
  corr : live = s.streams.map (Option.map (fun st => (st.entryType, st.minAlloc)))
  len : types.length = s.streams.length
  stream : ∀ (i : Nat) st, s.streams[i]? = some (some st) →
    st.section_.header.entryType = st.entryType ∧ st.section_.req = st.minAlloc ∧
      SizeOk page slabSize st.minAlloc ∧ types[i]? = some st.entryType
  flat : FlatP lay.flatten G types out

theorem own_none_iff {lg : Logger} {lay own} (hi : Inv lg lay own) {i : Nat} (h : own i = none) :
    ∀ s ∈ lay.flatten, s.owner ≠ some i := by
  intro s hs hc
  obtain ⟨g, hg⟩ := hi.own_conv s hs i hc
  rw [h] at hg; cases hg

section
variable {page slabSize : Nat}

theorem sh_open {s : LogSys} {lay G live types out} (hp : 13 < page) (hi : ShInv page slabSize s lay G live types out)
    {t : EntryType} {n : Nat} (h1 : t ≠ .empty) (h2 : t ≠ .lastEntry) (h4 : SizeOk page slabSize n) :
    ∃ s' lay' G', s.step (.openStream t n) = .ok s' ∧
      ShInv page slabSize s' lay' G' (live ++ [some (t, n)]) (types ++ [t]) out := by
  have hnone : s.own s.streams.length = none := by simp [LogSys.own]
  obtain ⟨lg', h, lay', e1, hi', hne', hfl, ht, hu, hr, hpg, hss, _⟩ :=
    inv_addSection (t := t) (req := n) hi.inv hi.nonempty
      (by rw [hi.pageEq]; exact ⟨hp, h4.min, h4.max⟩)
      (by rw [hi.pageEq, hi.slabEq]; exact h4.fits) hnone
  refine ⟨⟨lg', s.streams ++ [some ⟨t, h, n⟩]⟩, lay', G ++ [⟨s.streams.length, []⟩], ?_, ⟨?_, hpg.trans hi.pageEq,
    hss.trans hi.slabEq, hne', ?_, by simp [hi.len], ?_, ?_⟩⟩
  · simp [LogSys.step, openStream, e1]
  · rw [str_own_append]; exact hi'
  · rw [hi.corr]; simp
  · intro i st hst
    rw [List.getElem?_append] at hst
    split at hst
    · rename_i hlt
      obtain ⟨a, b, c, d⟩ := hi.stream i st hst
      exact ⟨a, b, c, by rw [List.getElem?_append_left (by rw [hi.len]; exact hlt)]; exact d⟩
    · rw [List.getElem?_singleton] at hst
      split at hst
      · obtain rfl := Option.some.inj (Option.some.inj hst)
        refine ⟨ht, hr, h4, ?_⟩
        have : i = types.length := by rw [hi.len]; omega
        subst this; simp
      · exact absurd hst (by simp)
  · rw [hfl]
    refine (hi.flat.more h1 h2).add ?_ (own_none_iff hi.inv hnone)
    rw [← hi.len]; simp

theorem sh_drop {s : LogSys} {lay G live types out} (hi : ShInv page slabSize s lay G live types out) (i : Nat) :
    ∃ s' lay', s.step (.drop i) = .ok s' ∧ ShInv page slabSize s' lay' G (live.set i none) types out ∧
      s'.streams = s.streams.set i none := by
  have hcorr : live.set i none = (s.streams.set i none).map
      (Option.map (fun st => (st.entryType, st.minAlloc))) := by
    rw [hi.corr, List.map_set]; rfl
  have hstream : ∀ (j : Nat) st, (s.streams.set i none)[j]? = some (some st) →
      s.streams[j]? = some (some st) := by
    intro j st hj
    rcases getElem?_set_cases hj with ⟨_, e, _⟩ | ⟨_, hj⟩
    · exact absurd e (by simp)
    · exact hj
  by_cases hst : ∃ st, s.streams[i]? = some (some st)
  · obtain ⟨st, hst⟩ := hst
    have hlt := (List.getElem?_eq_some_iff.1 hst).1
    obtain ⟨sl, sl', file', hsl, hsuf, hfs, hs1, _, _, _, _, lay2, A2, x2, B2, hi2, hA2, hB2, ho2,
      het2, hrq2, hsh2⟩ := inv_flushSection hi.inv (own_of hst)
    have hflat := hi.flat
    rw [hA2] at hflat
    have hc := hflat.close
    rw [← hB2] at hc
    refine ⟨⟨s.lg.replace st.section_.slab sl' file', s.streams.set i none⟩, lay2, ?_,
      ⟨?_, hi.pageEq, hi.slabEq, hi.nonempty.of_shape hsh2, hcorr, by simp [hi.len],
        fun j st h => hi.stream j st (hstream j st h), hc⟩, rfl⟩
    · simp [LogSys.step, hst, Stream.drop, hfs]
    · rw [str_own_set hlt]; exact hi2
  · have hsame : s.streams.set i none = s.streams := by
      apply List.ext_getElem?
      intro j
      rw [List.getElem?_set]
      split
      · rename_i e; subst e
        cases hx : s.streams[i]? with
        | none =>
          have := List.getElem?_eq_none_iff.1 hx
          rw [if_neg (by omega)]
        | some o =>
          cases o with
          | none => rw [if_pos (List.getElem?_eq_some_iff.1 hx).1]
          | some st => exact absurd ⟨st, hx⟩ hst
      · rfl
    refine ⟨s, lay, ?_, ⟨hi.inv, hi.pageEq, hi.slabEq, hi.nonempty, by rw [hcorr, hsame], hi.len, hi.stream,
      hi.flat⟩, hsame.symm⟩
    cases hx : s.streams[i]? with
    | none => simp [LogSys.step, hx]
    | some o =>
      cases o with
      | none => simp [LogSys.step, hx]
      | some st => exact absurd ⟨st, hx⟩ hst

theorem sh_drops {l : List Nat} {s : LogSys} {lay G live types out} (hi : ShInv page slabSize s lay G live types out) :
    ∃ s' lay' live', s.steps (l.map .drop) = .ok s' ∧ ShInv page slabSize s' lay' G live' types out ∧
      ∀ (j : Nat) st, s'.streams[j]? = some (some st) → s.streams[j]? = some (some st) ∧ j ∉ l := by
  induction l generalizing s lay live with
  | nil => exact ⟨s, lay, live, rfl, hi, fun j st h => ⟨h, by simp⟩⟩
  | cons i l ih =>
    obtain ⟨s1, lay1, e1, hi1, hs1⟩ := sh_drop hi i
    obtain ⟨s2, lay2, live2, e2, hi2, h3⟩ := ih hi1
    refine ⟨s2, lay2, live2, by simp only [List.map_cons, LogSys.steps, e1, e2], hi2, ?_⟩
    · intro j st hj
      obtain ⟨h4, h5⟩ := h3 j st hj
      rw [hs1] at h4
      rcases getElem?_set_cases h4 with ⟨_, e, _⟩ | ⟨hne, h4⟩
      · exact absurd e (by simp)
      · exact ⟨h4, by simp [hne, h5]⟩

/-- A stream that only changed its section. -/
theorem sh_set {s : LogSys} {lay G live types out} (hi : ShInv page slabSize s lay G live types out) {i : Nat}
    {st : Stream} (hst : s.streams[i]? = some (some st)) {lg' : Logger} {h : Handle} {lay' G' out'}
    (hinv : Inv lg' lay' (upd s.own i (some h))) (hpg : lg'.pageSize = page) (hss : lg'.slabSize = slabSize)
    (hne : NonEmpty lay') (he : h.header.entryType = st.entryType) (hr : h.req = st.minAlloc)
    (hf : FlatP lay'.flatten G' types out') :
    ShInv page slabSize ⟨lg', s.streams.set i (some { st with section_ := h })⟩ lay' G' live types out' := by
  have hlt := (List.getElem?_eq_some_iff.1 hst).1
  obtain ⟨hst1, hst2, hst3, hst4⟩ := hi.stream i st hst
  refine ⟨by rw [str_own_set hlt]; exact hinv, hpg, hss, hne, ?_, by simp [hi.len], ?_, hf⟩
  · rw [hi.corr]
    apply List.ext_getElem?
    intro j
    rw [List.getElem?_map, List.getElem?_map, List.getElem?_set]
    split
    · rename_i e; subst e
      rw [hst]; simp [hlt]
    · rfl
  · intro j st' hj
    rcases getElem?_set_cases hj with ⟨rfl, e, _⟩ | ⟨_, hj⟩
    · obtain rfl := Option.some.inj e
      exact ⟨he, hr, hst3, hst4⟩
    · exact hi.stream j st' hj

/-- The part of `log` before the lock. -/
theorem sh_try {s : LogSys} {lay G live types out} (hi : ShInv page slabSize s lay G live types out) {i : Nat}
    {st : Stream} (hst : s.streams[i]? = some (some st)) (obj : List Bytes) :
    ∃ lg' st' b lay' G', st.try_ s.lg obj = .ok (lg', st', b) ∧ st'.entryType = st.entryType ∧
      st'.minAlloc = st.minAlloc ∧
      ShInv page slabSize ⟨lg', s.streams.set i (some st')⟩ lay' G' live types
        (if b then addObj out i [obj.flatten] else out) := by
  obtain ⟨files', h', b, lay', A, x, B, d, h1, hi', hA, hB, ho, het, hu, hrq, e1, e2, e3, e4,
      e5, hb1, hb2, hb43', hsh⟩ := inv_encodeInto hi.inv (own_of hst) obj
  obtain ⟨hst1, hst2, hst3, hst4⟩ := hi.stream i st hst
  have hflat := hi.flat
  rw [hA] at hflat
  have hG : ∃ G', FlatP lay'.flatten G' types (if b then addObj out i [obj.flatten] else out) := by
    cases b with
    | true =>
      obtain ⟨G', hG'⟩ := hflat.write ho d
      rw [← hB, hb1 rfl] at hG'
      exact ⟨G', hG'⟩
    | false =>
      rw [hb2 rfl, List.append_nil] at hB
      rw [hB]
      exact ⟨G, hflat⟩
  obtain ⟨G', hG'⟩ := hG
  exact ⟨{ s.lg with files := files' }, { st with section_ := h' }, b, lay', G', by simp [Stream.try_, h1], rfl, rfl,
    sh_set hi hst hi' hi.pageEq hi.slabEq (hi.nonempty.of_shape hsh) (by rw [e1]; exact hst1)
      (by rw [e4]; exact hst2) hG'⟩

/-- The part of `log` from the lock on. -/
theorem sh_retry {s : LogSys} {lay G live types out} (hp : 13 < page)
    (hi : ShInv page slabSize s lay G live types out) {i : Nat}
    {st : Stream} (hst : s.streams[i]? = some (some st)) (obj : List Bytes)
    (hfit : 15 + obj.flatten.length ≤ st.minAlloc) :
    ∃ lg' st' lay' G', st.retry s.lg obj = .ok (lg', st') ∧ st'.entryType = st.entryType ∧
      st'.minAlloc = st.minAlloc ∧
      ShInv page slabSize ⟨lg', s.streams.set i (some st')⟩ lay' G' live types (addObj out i [obj.flatten]) := by
  obtain ⟨hst1, hst2, hst3, hst4⟩ := hi.stream i st hst
  obtain ⟨sl, sl', file', hsl, hsuf, hfs, hs1, _, _, _, _, lay2, A2, x2, B2, hi2, hA2, hB2, ho2,
    het2, hrq2, hsh2⟩ := inv_flushSection hi.inv (own_of hst)
  have hflat := hi.flat
  rw [hA2] at hflat
  have hc := hflat.close
  rw [← hB2] at hc
  have hne2 := hi.nonempty.of_shape hsh2
  have hpg2 : (s.lg.replace st.section_.slab sl' file').pageSize = page := hi.pageEq
  have hss2 : (s.lg.replace st.section_.slab sl' file').slabSize = slabSize := hi.slabEq
  generalize s.lg.replace st.section_.slab sl' file' = lg2 at *
  obtain ⟨lg3, h3, lay3, e31, hi3, hne3, hfl3, ht3, hu3, hr3, hpg3, hss3, _⟩ :=
    inv_addSection (t := st.entryType) (req := st.minAlloc) (i := i) hi2 hne2
      (by rw [hpg2]; exact ⟨hp, hst3.min, hst3.max⟩)
      (by rw [hpg2, hss2]; exact hst3.fits) (by simp [upd])
  have ha := hc.add (n := st.minAlloc) hst4 (own_none_iff hi2 (by simp [upd]))
  rw [← hfl3] at ha
  have hown3 : upd (upd s.own i none) i (some h3) i = some h3 := by simp [upd]
  obtain ⟨files4, h4, b4, lay4, A4, x4, B4, d4, h41, hi4, hA4, hB4, ho4, het4, hu4, hrq4, f1, f2,
    f3, f4, f5, hb41, _, hb43, hsh4⟩ := inv_encodeInto hi3 hown3 obj
  have hb4 : b4 = true := hb43 (by rw [hr3, hu3]; omega)
  subst hb4
  rw [hA4] at ha
  obtain ⟨G', hG'⟩ := ha.write ho4 d4
  rw [← hB4, hb41 rfl] at hG'
  rw [upd_upd, upd_upd] at hi4
  exact ⟨{ lg3 with files := files4 }, { st with section_ := h4 }, lay4, G',
    by simp [Stream.retry, hfs, e31, h41], rfl, rfl,
    sh_set hi hst hi4 (hpg3.trans hpg2) (hss3.trans hss2) (hne3.of_shape hsh4) (by rw [f1]; exact ht3)
      (by rw [f4]; exact hr3) hG'⟩

/-! ### Threads -/

structure ConcSh (page slabSize : Nat) (c : ConcSys) (lay : List (List Sec)) (G : List Portion)
    (live : List (Option (EntryType × Nat))) (types : List EntryType) (out pend : Nat → List Bytes)
    (busy : List Nat) : Prop where
  sh : ShInv page slabSize c.sys lay G live types out
  wait : ∀ i o, c.waiting i = some o → i ∈ busy ∧ pend i = [o.flatten] ∧
    ∃ st, c.sys.streams[i]? = some (some st) ∧ 15 + o.flatten.length ≤ st.minAlloc
  idle : ∀ i, c.waiting i = none → pend i = []

theorem concSh_open {c : ConcSys} {lay G live types out pend busy} (hp : 13 < page)
    (hi : ConcSh page slabSize c lay G live types out pend busy)
    {t : EntryType} {n : Nat} (h1 : t ≠ .empty) (h2 : t ≠ .lastEntry) (h4 : SizeOk page slabSize n) :
    ∃ c' lay' G', c.step (.openStream t n) = .ok c' ∧
      ConcSh page slabSize c' lay' G' (live ++ [some (t, n)]) (types ++ [t]) out pend busy := by
  obtain ⟨s', lay', G', e, hi'⟩ := sh_open hp hi.sh h1 h2 h4
  refine ⟨⟨s', c.waiting⟩, lay', G', by simp [ConcSys.step, e], ⟨hi', ?_, hi.idle⟩⟩
  intro i o ho
  obtain ⟨a, b, st, hst, hf⟩ := hi.wait i o ho
  refine ⟨a, b, ?_⟩
  have hlt := (List.getElem?_eq_some_iff.1 hst).1
  simp only [LogSys.step] at e
  cases he : openStream c.sys.lg t n with
  | panic => rw [he] at e; cases e
  | ok r =>
    rw [he] at e
    simp only [Rs.ok.injEq] at e
    subst e
    exact ⟨st, by simp only; rw [List.getElem?_append_left hlt]; exact hst, hf⟩

theorem concSh_drop {c : ConcSys} {lay G live types out pend busy}
    (hi : ConcSh page slabSize c lay G live types out pend busy) {i : Nat} (hb : i ∉ busy) :
    ∃ c' lay', c.step (.drop i) = .ok c' ∧
      ConcSh page slabSize c' lay' G (live.set i none) types out pend busy := by
  obtain ⟨s', lay', e, hi', hs⟩ := sh_drop hi.sh i
  refine ⟨⟨s', c.waiting⟩, lay', by simp [ConcSys.step, e], ⟨hi', ?_, hi.idle⟩⟩
  intro j o ho
  obtain ⟨a, b, st, hst, hf⟩ := hi.wait j o ho
  refine ⟨a, b, st, ?_, hf⟩
  rw [hs, List.getElem?_set_ne (by rintro rfl; exact hb a)]
  exact hst

theorem concSh_begin {c : ConcSys} {lay G live types out pend busy}
    (hi : ConcSh page slabSize c lay G live types out pend busy) {i : Nat} (hb : i ∉ busy) {obj : List Bytes}
    (hfit : ∀ t n, live[i]? = some (some (t, n)) → 15 + obj.flatten.length ≤ n) :
    ∃ c' lay' G' out' pend', c.step (.begin_ i obj) = .ok c' ∧
      ConcSh page slabSize c' lay' G' live types out' pend' (i :: busy) ∧
      ∀ j, out' j ++ pend' j = out j ++ pend j ++
        match live[i]? with
        | some (some _) => if i = j then [obj.flatten] else []
        | _ => [] := by
  have hlive : live[i]? = c.sys.streams[i]?.map (Option.map (fun st => (st.entryType, st.minAlloc))) := by
    rw [hi.sh.corr, List.getElem?_map]
  have hnb : ConcSh page slabSize c lay G live types out pend (i :: busy) :=
    ⟨hi.sh, fun j o h => by obtain ⟨a, b⟩ := hi.wait j o h; exact ⟨by simp [a], b⟩, hi.idle⟩
  cases hst : c.sys.streams[i]? with
  | none =>
    refine ⟨c, lay, G, out, pend, by simp [ConcSys.step, hst], hnb, ?_⟩
    rw [hlive, hst]; simp
  | some o =>
    cases o with
    | none =>
      refine ⟨c, lay, G, out, pend, by simp [ConcSys.step, hst], hnb, ?_⟩
      rw [hlive, hst]; simp
    | some st =>
      have hw : c.waiting i = none := by
        cases hw : c.waiting i with
        | none => rfl
        | some o => exact absurd (hi.wait i o hw).1 hb
      have hpi := hi.idle i hw
      rw [hst] at hlive
      simp only [Option.map_some] at hlive
      have hfit' := hfit _ _ hlive
      have hlt := (List.getElem?_eq_some_iff.1 hst).1
      obtain ⟨lg', st', b, lay', G', e, h1, h2, hi'⟩ := sh_try hi.sh hst obj
      have hother : ∀ j o, c.waiting j = some o → j ≠ i ∧ j ∈ i :: busy ∧ pend j = [o.flatten] ∧
          ∃ st, (c.sys.streams.set i (some st'))[j]? = some (some st) ∧ 15 + o.flatten.length ≤ st.minAlloc := by
        intro j o ho
        obtain ⟨a, b, st1, hs, hf⟩ := hi.wait j o ho
        have hne : j ≠ i := by rintro rfl; exact hb a
        exact ⟨hne, by simp [a], b, st1, by rw [List.getElem?_set_ne (Ne.symm hne)]; exact hs, hf⟩
      cases b with
      | true =>
        refine ⟨⟨⟨lg', c.sys.streams.set i (some st')⟩, c.waiting⟩, lay', G', addObj out i [obj.flatten], pend,
          by simp [ConcSys.step, hst, e], ⟨hi', fun j o ho => (hother j o ho).2, hi.idle⟩, ?_⟩
        intro j
        rw [hlive]
        unfold addObj
        by_cases hj : j = i
        · subst hj; simp [hpi]
        · simp [hj, Ne.symm hj]
      | false =>
        refine ⟨⟨⟨lg', c.sys.streams.set i (some st')⟩, c.setWaiting i (some obj)⟩, lay', G', out,
          addObj pend i [obj.flatten], by simp [ConcSys.step, hst, e], ⟨hi', ?_, ?_⟩, ?_⟩
        · intro j o ho
          simp only [ConcSys.setWaiting] at ho
          split at ho
          · rename_i hj
            subst hj
            obtain rfl := Option.some.inj ho
            exact ⟨by simp, by simp [addObj, hpi], st', by simp [hlt], by rw [h2]; exact hfit'⟩
          · rename_i hj
            obtain ⟨_, a, b, d⟩ := hother j o ho
            exact ⟨a, by simp [addObj, hj, b], d⟩
        · intro j hj
          simp only [ConcSys.setWaiting] at hj
          split at hj
          · cases hj
          · rename_i hne
            simp [addObj, hne, hi.idle j hj]
        · intro j
          rw [hlive]
          unfold addObj
          by_cases hj : j = i
          · subst hj; simp [hpi]
          · simp [hj, Ne.symm hj]

theorem concSh_finish {c : ConcSys} {lay G live types out pend busy} (hp : 13 < page)
    (hi : ConcSh page slabSize c lay G live types out pend busy) (i : Nat) :
    ∃ c' lay' G' out' pend', c.step (.finish i) = .ok c' ∧
      ConcSh page slabSize c' lay' G' live types out' pend' (busy.filter (· != i)) ∧
      ∀ j, out' j ++ pend' j = out j ++ pend j := by
  cases hw : c.waiting i with
  | none =>
    refine ⟨c, lay, G, out, pend, by simp [ConcSys.step, hw], ⟨hi.sh, ?_, hi.idle⟩, fun _ => rfl⟩
    intro j o ho
    obtain ⟨a, b⟩ := hi.wait j o ho
    refine ⟨List.mem_filter.2 ⟨a, ?_⟩, b⟩
    have : j ≠ i := by rintro rfl; rw [hw] at ho; cases ho
    simp [this]
  | some obj =>
    obtain ⟨hb, hpi, st, hst, hf⟩ := hi.wait i obj hw
    obtain ⟨lg', st', lay', G', e, h1, h2, hi'⟩ := sh_retry hp hi.sh hst obj hf
    refine ⟨⟨⟨lg', c.sys.streams.set i (some st')⟩, c.setWaiting i none⟩, lay', G', addObj out i [obj.flatten],
      (fun j => if j = i then [] else pend j), by simp [ConcSys.step, hw, hst, e], ⟨hi', ?_, ?_⟩, ?_⟩
    · intro j o ho
      simp only [ConcSys.setWaiting] at ho
      split at ho
      · cases ho
      · rename_i hne
        obtain ⟨a, b, st1, hs, hf1⟩ := hi.wait j o ho
        refine ⟨List.mem_filter.2 ⟨a, by simp [hne]⟩, by simp [hne, b], st1, ?_, hf1⟩
        rw [List.getElem?_set_ne (Ne.symm hne)]; exact hs
    · intro j hj
      simp only [ConcSys.setWaiting] at hj
      split
      · rfl
      · rename_i hne
        rw [if_neg hne] at hj
        exact hi.idle j hj
    · intro j
      unfold addObj
      by_cases hj : j = i
      · subst hj; simp [hpi]
      · simp [hj]

theorem concSh_steps (hp : 13 < page) {ops : List ConcOp} :
    ∀ {c : ConcSys} {lay G live types out pend busy}, ConcSh page slabSize c lay G live types out pend busy →
    Interleaved busy ops → SharedOk page slabSize live (calls ops) →
    ∃ c' lay' G' live' out' pend', c.steps ops = .ok c' ∧
      ConcSh page slabSize c' lay' G' live' (types ++ openedTypes (calls ops)) out' pend' (busyAfter busy ops) ∧
      ∀ i, out' i ++ pend' i = out i ++ pend i ++ loggedOn i live (calls ops) := by
  induction ops with
  | nil =>
    intro c lay G live types out pend busy hi _ _
    exact ⟨c, lay, G, live, out, pend, rfl, by simpa [calls, openedTypes, busyAfter] using hi,
      by simp [calls, loggedOn]⟩
  | cons op ops ih =>
    intro c lay G live types out pend busy hi hin hops
    cases op with
    | openStream t n =>
      obtain ⟨h1, h2, h4, h5⟩ := hops
      obtain ⟨c1, lay1, G1, e1, hi1⟩ := concSh_open hp hi h1 h2 h4
      obtain ⟨c2, lay2, G2, live2, out2, pend2, e2, hi2, ho2⟩ := ih hi1 hin h5
      refine ⟨c2, lay2, G2, live2, out2, pend2, by simp only [ConcSys.steps, e1, e2], ?_, ho2⟩
      simpa [calls, openedTypes, busyAfter] using hi2
    | begin_ i obj =>
      obtain ⟨h1, h2⟩ := hops
      obtain ⟨c1, lay1, G1, out1, pend1, e1, hi1, ho1⟩ := concSh_begin hi hin.1 h1
      obtain ⟨c2, lay2, G2, live2, out2, pend2, e2, hi2, ho2⟩ := ih hi1 hin.2 h2
      refine ⟨c2, lay2, G2, live2, out2, pend2, by simp only [ConcSys.steps, e1, e2], hi2, fun j => ?_⟩
      rw [ho2, ho1, List.append_assoc]
      rfl
    | finish i =>
      obtain ⟨c1, lay1, G1, out1, pend1, e1, hi1, ho1⟩ := concSh_finish hp hi i
      obtain ⟨c2, lay2, G2, live2, out2, pend2, e2, hi2, ho2⟩ := ih hi1 hin.2 hops
      refine ⟨c2, lay2, G2, live2, out2, pend2, by simp only [ConcSys.steps, e1, e2], hi2, fun j => ?_⟩
      rw [ho2, ho1]
      rfl
    | drop i =>
      obtain ⟨c1, lay1, e1, hi1⟩ := concSh_drop hi hin.1
      obtain ⟨c2, lay2, G2, live2, out2, pend2, e2, hi2, ho2⟩ := ih hi1 hin.2 hops
      exact ⟨c2, lay2, G2, live2, out2, pend2, by simp only [ConcSys.steps, e1, e2], hi2, ho2⟩

/-- What the reader finds in closed sections. -/
theorem sections_read {F G types out} (h : FlatP F G types out) (hno : ∀ s ∈ F, s.owner = none) (t : EntryType) :
    (F.filter (·.et == t)).map Sec.content = sectionsOf types t G := by
  have hty := h.types
  have hh := h.holds
  clear h
  unfold sectionsOf
  induction hh with
  | nil => rfl
  | @cons s p F G h _ ih =>
    have ih := ih (fun s hs => hno s (by simp [hs]))
    have hs := hno s (by simp)
    have hc : s.content = p.objs.flatten := by
      have := (hty s.et (List.mem_of_getElem? h.1)).1
      unfold Sec.content
      simp [hs, h.2.1, this]
    by_cases ht : s.et = t
    · rw [List.filter_cons_of_pos (by simp [ht]), List.filter_cons_of_pos (by simp [h.1, ht]), List.map_cons,
        List.map_cons, ih, hc]
    · rw [List.filter_cons_of_neg (by simp [ht]), List.filter_cons_of_neg (by simp [h.1, ht]), ih]

/-- A whole history of several threads. -/
theorem writeConc_shared (hz : SizesOk page slabSize) {ops : List ConcOp} (hin : Interleaved [] ops)
    (hbusy : busyAfter [] ops = []) (hops : SharedOk page slabSize [] (calls ops)) :
    ∃ files portions, writeConc slabSize page ops = .ok files ∧
      (∀ t, readLog files t = .ok (sectionsOf (openedTypes (calls ops)) t portions)) ∧
      (∀ i, portionsOf i portions = loggedOn i [] (calls ops)) ∧
      ∀ p ∈ portions, p.stream < (openedTypes (calls ops)).length := by
  have hp := hz.page_min
  have hal := align_le (page := page) (by omega) 80
  have hsl := hz.slab
  obtain ⟨lg, e1, hi1, hpg, hss⟩ := inv_new (slabSize := slabSize) (page := page) (by omega) (by omega)
  have hci : ConcSh page slabSize ⟨⟨lg, []⟩, fun _ => none⟩ [[]] [] [] [] (fun _ => []) (fun _ => []) [] := by
    refine ⟨⟨?_, hpg, hss, ?_, rfl, rfl, by simp, ?_⟩, by simp, by simp⟩
    · have : (⟨lg, []⟩ : LogSys).own = fun _ => none := by funext j; simp [LogSys.own]
      rw [this]; exact hi1
    · intro k hk hc
      have := (List.getElem?_eq_some_iff.1 hc).1
      simp at this; omega
    · exact ⟨.nil, by simp, by simp [portionsOf], by simp⟩
  obtain ⟨c2, lay2, G2, live2, out2, pend2, e2, hi2, ho2⟩ := concSh_steps hp hci hin hops
  obtain ⟨s3, lay3, live3, e3, hi3, h32⟩ := sh_drops (l := List.range c2.sys.streams.length) hi2.sh
  have hout : ∀ i, out2 i = loggedOn i [] (calls ops) := by
    intro i
    have h := ho2 i
    have hp2 : pend2 i = [] := by
      apply hi2.idle
      cases hx : c2.waiting i with
      | none => rfl
      | some o =>
        have := (hi2.wait i o hx).1
        rw [hbusy] at this
        simp at this
    rw [hp2] at h
    simpa using h
  have hnone : ∀ i, s3.own i = none := by
    intro i
    unfold LogSys.own
    cases hx : s3.streams[i]? with
    | none => rfl
    | some o =>
      cases o with
      | none => rfl
      | some st =>
        obtain ⟨h1, h2⟩ := h32 i st hx
        have := (List.getElem?_eq_some_iff.1 h1).1
        exact absurd (List.mem_range.2 this) h2
  have hmx := hz.page_max
  have h80 : align page 80 < 4294967296 := by
    have : align page 80 ≤ 80 + page - 1 := Nat.div_mul_le_self _ _
    omega
  obtain ⟨files, lay4, e4, hh, hfl, _⟩ := inv_close hi3.inv hi3.nonempty
    (by rw [hi3.pageEq]; exact hmx) hnone
    (by rw [hi3.pageEq]; exact ⟨hp, by omega, h80⟩)
    (by rw [hi3.pageEq, hi3.slabEq]; exact hsl)
  have hflat := hi3.flat
  rw [List.nil_append] at hflat
  have hno : ∀ s ∈ lay3.flatten, s.owner = none := by
    intro x hm
    cases hxo : x.owner with
    | none => rfl
    | some j =>
      obtain ⟨g, hg⟩ := hi3.inv.own_conv x hm j hxo
      rw [hnone] at hg; exact absurd hg (by simp)
  have hmem : ∀ {F : List Sec} {G : List Portion} {types : List EntryType}, Pointwise (HoldsP types) F G →
      (∀ s ∈ F, s.et ∈ types) ∧ ∀ p ∈ G, p.stream < types.length := by
    intro F G types h
    induction h with
    | nil => simp
    | cons h _ ih =>
      refine ⟨?_, ?_⟩
      · intro s hs
        rcases List.mem_cons.1 hs with rfl | hs
        · exact List.mem_of_getElem? h.1
        · exact ih.1 s hs
      · intro p hp
        rcases List.mem_cons.1 hp with rfl | hp
        · exact (List.getElem?_eq_some_iff.1 h.1).1
        · exact ih.2 p hp
  refine ⟨files, G2, ?_, ?_, ?_, (hmem hflat.holds).2⟩
  · unfold writeConc runConc
    rw [e1]
    simp only [e2, e3]
    exact e4
  · intro t
    rw [readLog_spec hh (t := t) hfl (fun s hs => (hflat.types _ ((hmem hflat.holds).1 s hs)).2) rfl,
      sections_read hflat hno]
  · intro i
    rw [hflat.out i, hout]

/-! ### One thread -/

/-- The same history, its calls of `log` in two parts. -/
def asConc : List LogOp → List ConcOp
  | [] => []
  | .openStream t n :: ops => .openStream t n :: asConc ops
  | .log i obj :: ops => .begin_ i obj :: .finish i :: asConc ops
  | .drop i :: ops => .drop i :: asConc ops

theorem calls_asConc (ops : List LogOp) : calls (asConc ops) = ops := by
  induction ops with
  | nil => rfl
  | cons op ops ih => cases op <;> simp [asConc, calls, ih]

theorem interleaved_asConc (ops : List LogOp) : Interleaved [] (asConc ops) := by
  induction ops with
  | nil => trivial
  | cons op ops ih => cases op <;> simp [asConc, Interleaved, ih]

theorem busy_asConc (ops : List LogOp) : busyAfter [] (asConc ops) = [] := by
  induction ops with
  | nil => rfl
  | cons op ops ih => cases op <;> simp [asConc, busyAfter, ih]

theorem steps_log (s : LogSys) (i : Nat) (obj : List Bytes) (ops : List ConcOp) :
    (ConcSys.steps ⟨s, fun _ => none⟩ (.begin_ i obj :: .finish i :: ops)) =
      match s.step (.log i obj) with
      | .panic => .panic
      | .ok s => ConcSys.steps ⟨s, fun _ => none⟩ ops := by
  have hnn : (fun j => if j = i then none else if j = i then some obj else none) =
      (fun _ => (none : Option (List Bytes))) := by
    funext j; by_cases h : j = i <;> simp [h]
  rcases hst : s.streams[i]? with _ | _ | st
  · simp [ConcSys.steps, ConcSys.step, LogSys.step, hst]
  · simp [ConcSys.steps, ConcSys.step, LogSys.step, hst]
  · have hlt := (List.getElem?_eq_some_iff.1 hst).1
    simp only [ConcSys.steps, ConcSys.step, LogSys.step, hst, Stream.log, Stream.try_]
    cases he : encodeInto s.lg.files st.section_ obj with
    | panic => rfl
    | ok r =>
      obtain ⟨files, h, b⟩ := r
      cases b with
      | true => simp
      | false =>
        simp only [ConcSys.setWaiting, Bool.false_eq_true, if_false, if_true, List.getElem?_set_self hlt,
          Stream.retry]
        cases Logger.flushSection { s.lg with files := files } h with
        | panic => rfl
        | ok lg =>
          simp only
          cases lg.addSection st.entryType st.minAlloc with
          | panic => rfl
          | ok r =>
            obtain ⟨lg, h⟩ := r
            simp only
            cases encodeInto lg.files h obj with
            | panic => rfl
            | ok r =>
              obtain ⟨files, h, b⟩ := r
              cases b with
              | true =>
                simp only [List.set_set]
                congr 2
              | false => rfl

theorem steps_asConc (ops : List LogOp) : ∀ s : LogSys,
    ConcSys.steps ⟨s, fun _ => none⟩ (asConc ops) =
      match s.steps ops with
      | .panic => .panic
      | .ok s => .ok ⟨s, fun _ => none⟩ := by
  induction ops with
  | nil => intro s; rfl
  | cons op ops ih =>
    intro s
    cases op with
    | openStream t n =>
      simp only [asConc, ConcSys.steps, ConcSys.step, LogSys.steps]
      cases s.step (.openStream t n) with
      | panic => rfl
      | ok s => exact ih s
    | log i obj =>
      simp only [asConc, steps_log, LogSys.steps]
      cases s.step (.log i obj) with
      | panic => rfl
      | ok s => exact ih s
    | drop i =>
      simp only [asConc, ConcSys.steps, ConcSys.step, LogSys.steps]
      cases s.step (.drop i) with
      | panic => rfl
      | ok s => exact ih s

theorem writeLog_asConc (slabSize page : Nat) (ops : List LogOp) :
    writeLog slabSize page ops = writeConc slabSize page (asConc ops) := by
  unfold writeLog writeConc runConc
  cases Logger.new slabSize page with
  | panic => rfl
  | ok lg =>
    simp only [steps_asConc]
    cases LogSys.steps ⟨lg, []⟩ ops <;> rfl

end

end ULog
end Verif
