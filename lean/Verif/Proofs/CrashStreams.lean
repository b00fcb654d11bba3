import Verif.Proofs.CrashRead
import Verif.Proofs.UnifiedLogStreams
/-! The sections behind the streams of a log. -/
namespace Verif
namespace ULog
open Bincode

/-! ### Lists -/

theorem take_cons_drop {α : Type} {l : List α} {j : Nat} {e : α} (h : l[j]? = some e) :
    l = l.take j ++ e :: l.drop (j + 1) := by
  obtain ⟨hj, rfl⟩ := List.getElem?_eq_some_iff.1 h
  rw [← List.drop_eq_getElem_cons hj, List.take_append_drop]

theorem set_cons_drop {α : Type} {l : List α} {j : Nat} {e e' : α} (h : l[j]? = some e) :
    l.set j e' = l.take j ++ e' :: l.drop (j + 1) := by
  have hj := (List.getElem?_eq_some_iff.1 h).1
  have hl : (l.take j).length = j := by rw [List.length_take]; omega
  conv => lhs; rw [take_cons_drop h]
  rw [List.set_append_right _ _ (by omega), hl]
  simp

theorem filter_set_other {α : Type} {p : α → Bool} {l : List α} {j : Nat} {e e' : α} (h : l[j]? = some e)
    (h1 : p e = false) (h2 : p e' = false) : (l.set j e').filter p = l.filter p := by
  rw [set_cons_drop h]
  conv => rhs; rw [take_cons_drop h]
  simp [List.filter_append, h1, h2]

theorem filter_last {α : Type} {p : α → Bool} {l P : List α} {j : Nat} {e : α} (h : l[j]? = some e)
    (h1 : p e = true) (hP : l.filter p = P ++ [e]) (hn : e ∉ P) :
    (l.take j).filter p = P ∧ (l.drop (j + 1)).filter p = [] := by
  rw [take_cons_drop h, List.filter_append, List.filter_cons_of_pos h1] at hP
  rcases List.eq_nil_or_concat ((l.drop (j + 1)).filter p) with hb | ⟨b, y, hb⟩
  · rw [hb] at hP ⊢
    exact ⟨(List.append_inj_left' hP rfl), rfl⟩
  · exfalso
    rw [hb, List.concat_eq_append, ← List.cons_append, ← List.append_assoc] at hP
    have := List.append_inj_left' hP rfl
    rw [← this] at hn
    exact hn (by simp)

theorem filter_set_last {α : Type} {p : α → Bool} {l P : List α} {j : Nat} {e e' : α} (h : l[j]? = some e)
    (h1 : p e = true) (h2 : p e' = true) (hP : l.filter p = P ++ [e]) (hn : e ∉ P) :
    (l.set j e').filter p = P ++ [e'] := by
  obtain ⟨a, b⟩ := filter_last h h1 hP hn
  rw [set_cons_drop h, List.filter_append, List.filter_cons_of_pos h2, a, b]

theorem pointwise_app {α β : Type} {R : α → β → Prop} {a b : List α} {c d : List β}
    (h1 : Pointwise R a c) (h2 : Pointwise R b d) : Pointwise R (a ++ b) (c ++ d) := by
  induction h1 with
  | nil => exact h2
  | cons h _ ih => exact .cons h ih

/-! ### Objects -/

theorem objsOf_flatten (t : EntryType) (ops : List LogOp) :
    ∀ live, (objsOf t live ops).flatten = logged t live ops := by
  induction ops with
  | nil => intro live; rfl
  | cons op ops ih =>
    intro live
    cases op with
    | openStream u n => simp [objsOf, objOf, logged, liveStep, ih]
    | drop i => simp [objsOf, objOf, logged, liveStep, ih]
    | log i obj =>
      simp only [objsOf, logged, liveStep, List.flatten_append, ih, objOf]
      congr 1
      cases live[i]? with
      | none => rfl
      | some o =>
        cases o with
        | none => rfl
        | some p =>
          simp only
          split <;> simp

/-! ### Streams and their sections -/

def isOf (t : EntryType) (e : Issued) : Bool := e.h.header.entryType == t

/-- The contents of the sections of type `t`, in order. -/
def dataOf (t : EntryType) (x : SecSys) : List Bytes := (x.issued.filter (isOf t)).map Issued.data

/-- The sections of type `t` and the objects in them: they are closed and there is no stream of that type, or
the last one is open and that of the stream of that type. -/
def TypeInv (t : EntryType) (s : LogSys) (x : SecSys) (objs : List Bytes) : Prop :=
  (∃ gs : List (List Bytes), (∀ e ∈ x.issued.filter (isOf t), e.isOpen = false) ∧
    Pointwise (fun (e : Issued) (g : List Bytes) => e.data = g.flatten) (x.issued.filter (isOf t)) gs ∧
    objs = gs.flatten ∧ ∀ i, s.typ i ≠ some t) ∨
  ∃ (i : Nat) (st : Stream) (P : List Issued) (d : Bytes) (gs : List (List Bytes)) (g : List Bytes),
    s.streams[i]? = some (some st) ∧ st.entryType = t ∧
    x.issued.filter (isOf t) = P ++ [⟨st.section_, true, d⟩] ∧
    (∀ e ∈ P, e.isOpen = false) ∧ Pointwise (fun (e : Issued) (g : List Bytes) => e.data = g.flatten) P gs ∧
    d = g.flatten ∧ objs = gs.flatten ++ g

structure Tracks (page slabSize : Nat) (t : EntryType) (s : LogSys) (x : SecSys) (objs : List Bytes) : Prop where
  reach : Reachable page slabSize x
  lg : x.lg = s.lg
  types : ∀ e ∈ x.issued, e.h.header.entryType ≠ .lastEntry
  sec : ∀ (i : Nat) (st : Stream), s.streams[i]? = some (some st) →
    ∃ (j : Nat) (d : Bytes), x.issued[j]? = some (⟨st.section_, true, d⟩ : Issued)
  ty : TypeInv t s x objs

/-- Sections stay where they are and keep their type and what is in them; closed ones stay as they are. -/
def Grows (x x' : SecSys) : Prop :=
  ∀ (j : Nat) e, x.issued[j]? = some e → ∃ e', x'.issued[j]? = some e' ∧ e'.h.slab = e.h.slab ∧ e'.h.off = e.h.off ∧
    e'.h.header.entryType = e.h.header.entryType ∧ e.data <+: e'.data ∧ (e.isOpen = false → e' = e)

theorem Grows.refl (x : SecSys) : Grows x x :=
  fun _ e h => ⟨e, h, rfl, rfl, rfl, List.prefix_refl _, fun _ => rfl⟩

theorem Grows.trans {x y z : SecSys} (h : Grows x y) (h' : Grows y z) : Grows x z := by
  intro j e he
  obtain ⟨e1, a1, a2, a3, a4, a5, a6⟩ := h j e he
  obtain ⟨e2, b1, b2, b3, b4, b5, b6⟩ := h' j e1 a1
  refine ⟨e2, b1, b2.trans a2, b3.trans a3, b4.trans a4, a5.trans b5, fun hc => ?_⟩
  obtain rfl := a6 hc
  exact b6 hc

theorem encodeInto_where {files files' : List Bytes} {h h' : Handle} {obj : List Bytes} {ok : Bool}
    (he : encodeInto files h obj = .ok (files', h', ok)) :
    h'.slab = h.slab ∧ h'.off = h.off ∧ h'.header = h.header := by
  unfold encodeInto at he
  split at he
  · cases he
  · simp only at he
    split at he <;> · simp only [Rs.ok.injEq, Prod.mk.injEq] at he; rw [← he.2.1]; exact ⟨rfl, rfl, rfl⟩

theorem step_grows {x x' : SecSys} {op : SecOp} (h : x.step op = .ok x') : Grows x x' := by
  intro j e he
  have hjlt := (List.getElem?_eq_some_iff.1 he).1
  have keep : ∀ {l : List Issued} {i : Nat} {a b : Issued}, x.issued[i]? = some a → l = x.issued.set i b →
      a.isOpen = true → b.h.slab = a.h.slab → b.h.off = a.h.off → b.h.header.entryType = a.h.header.entryType →
      a.data <+: b.data → ∃ e', l[j]? = some e' ∧ e'.h.slab = e.h.slab ∧ e'.h.off = e.h.off ∧
        e'.h.header.entryType = e.h.header.entryType ∧ e.data <+: e'.data ∧ (e.isOpen = false → e' = e) := by
    rintro l i a b ha rfl ho h1 h2 h3 h4
    by_cases hij : i = j
    · subst hij
      rw [he] at ha
      obtain rfl := Option.some.inj ha
      exact ⟨b, List.getElem?_set_self hjlt, h1, h2, h3, h4, fun hc => absurd hc (by simp [ho])⟩
    · exact ⟨e, by rw [List.getElem?_set_ne hij]; exact he, rfl, rfl, rfl, List.prefix_refl _, fun _ => rfl⟩
  unfold SecSys.step at h
  cases op with
  | add t n =>
    simp only at h
    split at h
    · cases h
    · cases h
      exact ⟨e, by simp only; rw [List.getElem?_append_left hjlt]; exact he, rfl, rfl, rfl, List.prefix_refl _, fun _ => rfl⟩
  | write i obj =>
    simp only at h
    split at h
    · rename_i hd d hi
      split at h
      · cases h
      · rename_i files h' ok hen
        cases h
        obtain ⟨g1, g2, g3⟩ := encodeInto_where hen
        exact keep hi rfl rfl g1 g2 (by simp only [g3]) (by simp only; split <;> simp)
    · cases h
      exact ⟨e, he, rfl, rfl, rfl, List.prefix_refl _, fun _ => rfl⟩
  | close i =>
    simp only at h
    split at h
    · rename_i hd d hi
      split at h
      · cases h
      · cases h
        exact keep hi rfl rfl rfl rfl rfl (List.prefix_refl _)
    · cases h
      exact ⟨e, he, rfl, rfl, rfl, List.prefix_refl _, fun _ => rfl⟩

/-- A step after which the sections have grown and those of type `t` are as tidy as before, or tidier if `obj` was
logged in them. -/
def StaysTidy (t : EntryType) (x x' : SecSys) (obj : Bytes) : Prop :=
  Grows x x' ∧ ∀ idle idle' : Bool, (obj = [] → idle' = idle) → Tidy idle (dataOf t x) → Tidy idle' (dataOf t x')

theorem fitChunks_empty {obj : List Bytes} (h : obj.flatten = []) (n : Nat) : (fitChunks n obj).2 = true := by
  induction obj generalizing n with
  | nil => rfl
  | cons a obj ih =>
    simp only [List.flatten_cons, List.append_eq_nil_iff] at h
    unfold fitChunks
    rw [if_pos (by rw [h.1]; simp)]
    exact ih h.2 _

theorem encodeInto_handle {files files' : List Bytes} {h h' : Handle} {obj : List Bytes} {b : Bool}
    (he : encodeInto files h obj = .ok (files', h', b)) :
    h'.header = h.header ∧ (b = false → h' = h) := by
  unfold encodeInto at he
  split at he
  · cases he
  · simp only at he
    split at he
    · cases he; exact ⟨rfl, by simp⟩
    · cases he; exact ⟨rfl, fun _ => rfl⟩

/-- The data of an open section is what its handle has used, and there is room for it. -/
theorem open_used {page slabSize : Nat} {x : SecSys} {lay : List (List Sec)}
    (hi : SecInv page slabSize x lay) {j : Nat} {h : Handle} {d : Bytes}
    (hj : x.issued[j]? = some ⟨h, true, d⟩) : h.used = d.length ∧ 15 + d.length ≤ h.req := by
  obtain ⟨_, _, _, _, A, y, B, _, _, _, hA, _, ho, _, hu, hr, _⟩ := inv_encodeInto hi.inv (own_open hj rfl) []
  rw [hi.flat] at hA
  obtain ⟨_, e, he, rfl⟩ := flat_index hA ho
  have he' := Option.some.inj (hj.symm.trans he)
  subst he'
  have h1 : h.used = d.length := hu
  obtain ⟨pre, z, post, w⟩ := hi.inv.owns j h (own_open hj rfl)
  obtain ⟨file, hf⟩ := hi.inv.lookup w.at_
  have hroom := ((secsOk_append _ _ _ _ _).1 (hi.inv.secs _ _ _ hf w.at_)).2.1.room
  have h2 := w.used
  have h3 := w.req
  exact ⟨h1, by omega⟩

section
variable {page slabSize : Nat} {t : EntryType} {s s' : LogSys} {x : SecSys} {objs : List Bytes}
  {lay lay' : List (List Sec)} {live live' : List (Option (EntryType × Nat))} {out out' : EntryType → Bytes}

theorem typ_eq_some {i : Nat} {u : EntryType} (h : s.typ i = some u) :
    ∃ st, s.streams[i]? = some (some st) ∧ st.entryType = u := by
  unfold LogSys.typ at h
  obtain ⟨st, h1, h2⟩ := Option.map_eq_some_iff.1 h
  refine ⟨st, ?_, h2⟩
  cases hx : s.streams[i]? with
  | none => simp [hx] at h1
  | some o => rw [hx] at h1; simpa using h1

/-- The section of a stream changes (it is written, or replaced by a new one): the other streams
keep theirs. -/
theorem other_sec (hi : StrInv page slabSize s lay live out) {i i' j j' : Nat} {st st' : Stream} {d d' : Bytes}
    (hst : s.streams[i]? = some (some st)) (hst' : s.streams[i']? = some (some st')) (hne : i ≠ i')
    (hj : x.issued[j]? = some ⟨st.section_, true, d⟩) (hj' : x.issued[j']? = some ⟨st'.section_, true, d'⟩) :
    j ≠ j' := by
  rintro rfl
  have h1 := Option.some.inj (hj.symm.trans hj')
  have h2 : st.section_ = st'.section_ := congrArg Issued.h h1
  have h3 := (hi.stream i st hst).1
  have h4 := (hi.stream i' st' hst').1
  rw [h2, h4] at h3
  refine hne (hi.flat.uniqT i i' st.entryType (typ_of hst) ?_)
  rw [typ_of hst', h3]

/-- The section of a stream of type `t` is the last one of that type. -/
theorem last_of (hi : StrInv page slabSize s lay live out) {lg1 : Logger}
    (hT : Tracks page slabSize t ⟨lg1, s.streams⟩ x objs)
    {i : Nat} {st : Stream} (hst : s.streams[i]? = some (some st)) (htt : st.entryType = t) :
    ∃ (P : List Issued) (d : Bytes), x.issued.filter (isOf t) = P ++ [⟨st.section_, true, d⟩] ∧
      ∀ e ∈ P, e.isOpen = false := by
  rcases hT.ty with ⟨_, _, _, _, k4⟩ | ⟨k, stk, P, dk, gs, g, hk, hkt, hf, hP, hgs, hd, ho⟩
  · exact absurd ((typ_of (s := ⟨s.lg, s.streams⟩) hst).trans (congrArg some htt)) (k4 i)
  · have hki : k = i := hi.flat.uniqT k i t (by rw [typ_of (s := s) hk, hkt]) (by rw [typ_of hst, htt])
    subst hki
    have hsk : stk = st := by simpa using hk.symm.trans hst
    subst hsk
    exact ⟨P, dk, hf, hP⟩

theorem last_data {st : Stream} {j : Nat} {d dk : Bytes} {P : List Issued}
    (hty : st.section_.header.entryType = st.entryType) (htt : st.entryType = t)
    (hj : x.issued[j]? = some ⟨st.section_, true, d⟩)
    (hf : x.issued.filter (isOf t) = P ++ [⟨st.section_, true, dk⟩]) (hP : ∀ e ∈ P, e.isOpen = false) : d = dk := by
  have hme : (⟨st.section_, true, d⟩ : Issued) ∈ P ++ [⟨st.section_, true, dk⟩] := by
    rw [← hf]
    exact List.mem_filter.2 ⟨List.mem_of_getElem? hj, by simp [isOf, hty, htt]⟩
  rcases List.mem_append.1 hme with hc | hc
  · exact absurd (hP _ hc) (by simp)
  · simpa using hc

/-- A write that succeeds. -/
theorem tracks_write (hi : StrInv page slabSize s lay live out) (hT : Tracks page slabSize t s x objs)
    {i : Nat} {st : Stream} (hst : s.streams[i]? = some (some st)) {obj : List Bytes} {files' : List Bytes}
    {h' : Handle} (he : encodeInto s.lg.files st.section_ obj = .ok (files', h', true)) :
    ∃ x', Tracks page slabSize t ⟨{ s.lg with files := files' }, s.streams.set i (some { st with section_ := h' })⟩ x'
      (objs ++ if st.entryType = t then [obj.flatten] else []) ∧
      StaysTidy t x x' (if st.entryType = t then obj.flatten else []) := by
  obtain ⟨j, d, hj⟩ := hT.sec i st hst
  have hhd := (encodeInto_handle he).1
  have hilt := (List.getElem?_eq_some_iff.1 hst).1
  have hjlt := (List.getElem?_eq_some_iff.1 hj).1
  have hstep : x.step (.write j obj) = .ok ⟨{ x.lg with files := files' },
      x.issued.set j ⟨h', true, d ++ obj.flatten⟩⟩ := by
    simp only [SecSys.step, hj, hT.lg, he, if_true]
  have hty := (hi.stream i st hst).1
  refine ⟨_, ⟨.step hT.reach (op := .write j obj) trivial hstep, by rw [hT.lg], ?_, ?_, ?_⟩, ?_⟩
  · intro e hm
    rcases List.mem_or_eq_of_mem_set hm with hm | rfl
    · exact hT.types e hm
    · show h'.header.entryType ≠ _
      rw [hhd]
      exact hT.types _ (List.mem_of_getElem? hj)
  · intro i' st' hs'
    by_cases hii : i = i'
    · subst hii
      simp only [List.getElem?_set_self hilt, Option.some.injEq] at hs'
      subst hs'
      exact ⟨j, d ++ obj.flatten, by simp only [List.getElem?_set_self hjlt]⟩
    · simp only [List.getElem?_set_ne hii] at hs'
      obtain ⟨j', d', hj'⟩ := hT.sec i' st' hs'
      refine ⟨j', d', ?_⟩
      simp only
      rw [List.getElem?_set_ne (other_sec hi hst hs' hii hj hj')]
      exact hj'
  · have htypset : (⟨{ s.lg with files := files' }, s.streams.set i (some { st with section_ := h' })⟩ : LogSys).typ
        = s.typ := by
      rw [str_typ_set hilt]
      exact updT_same _ _ _ (by rw [typ_of hst]; rfl)
    by_cases htt : st.entryType = t
    · rw [if_pos htt]
      rcases hT.ty with ⟨_, _, _, _, k4⟩ | ⟨k, stk, P, dk, gs, g, hk, hkt, hf, hP, hgs, hd, ho⟩
      · exact absurd ((typ_of (s := ⟨s.lg, s.streams⟩) hst).trans (congrArg some htt)) (k4 i)
      · -- the stream of the type is this one, its section the last one
        have hki : k = i := hi.flat.uniqT k i t (by rw [typ_of hk, hkt]) (by rw [typ_of hst, htt])
        subst hki
        have hsk : stk = st := by simpa using hk.symm.trans hst
        subst hsk
        have hme : (⟨stk.section_, true, d⟩ : Issued) ∈ P ++ [⟨stk.section_, true, dk⟩] := by
          rw [← hf]
          exact List.mem_filter.2 ⟨List.mem_of_getElem? hj, by simp [isOf, hty, htt]⟩
        have hnP : (⟨stk.section_, true, d⟩ : Issued) ∉ P := fun hc => by simpa using hP _ hc
        have hdd : d = dk := by
          rcases List.mem_append.1 hme with hc | hc
          · exact absurd hc hnP
          · simpa using hc
        subst hdd
        refine .inr ⟨k, { stk with section_ := h' }, P, d ++ obj.flatten, gs, g ++ [obj.flatten], ?_, htt, ?_, hP,
          hgs, by simp [hd], by simp [ho]⟩
        · simp only [List.getElem?_set_self hilt]
        · exact filter_set_last hj (by simp [isOf, hty, htt]) (by simp [isOf, hhd, hty, htt]) hf hnP
    · rw [if_neg htt, List.append_nil]
      have hff : (x.issued.set j ⟨h', true, d ++ obj.flatten⟩).filter (isOf t) = x.issued.filter (isOf t) :=
        filter_set_other hj (by simp [isOf, hty, htt]) (by simp [isOf, hhd, hty, htt])
      rcases hT.ty with ⟨gs, k1, k2, k3, k4⟩ | ⟨k, stk, P, dk, gs, g, hk, hkt, hf, hP, hgs, hd, ho⟩
      · exact .inl ⟨gs, by rw [hff]; exact k1, by rw [hff]; exact k2, k3, by rw [htypset]; exact k4⟩
      · refine .inr ⟨k, stk, P, dk, gs, g, ?_, hkt, by rw [hff]; exact hf, hP, hgs, hd, ho⟩
        have hki : i ≠ k := by
          rintro rfl
          have hsk : stk = st := by simpa using hk.symm.trans hst
          subst hsk; exact htt hkt
        simp only [List.getElem?_set_ne hki]
        exact hk
  · refine ⟨step_grows hstep, fun idle idle' hid htd => ?_⟩
    by_cases htt : st.entryType = t
    · rw [if_pos htt] at hid
      obtain ⟨P, dk, hf, hP⟩ := last_of hi hT hst htt
      obtain rfl := last_data hty htt hj hf hP
      refine htd.logged (.inl ⟨P.map Issued.data, d, ?_, ?_⟩) hid
      · rw [dataOf, hf]; simp
      · rw [dataOf, filter_set_last hj (by simp [isOf, hty, htt]) (by simp [isOf, hhd, hty, htt]) hf
          (fun hc => by simpa using hP _ hc)]
        simp
    · rw [if_neg htt] at hid
      rw [hid rfl, dataOf, filter_set_other hj (by simp [isOf, hty, htt]) (by simp [isOf, hhd, hty, htt])]
      exact htd

/-- A write without room. -/
theorem tracks_fail (hz : SizesOk page slabSize) (hi : StrInv page slabSize s lay live out)
    (hT : Tracks page slabSize t s x objs)
    {i : Nat} {st : Stream} (hst : s.streams[i]? = some (some st)) {obj : List Bytes}
    (hfit : 15 + obj.flatten.length ≤ st.minAlloc) {files1 : List Bytes} {h1 : Handle}
    (he1 : encodeInto s.lg.files st.section_ obj = .ok (files1, h1, false)) :
    h1 = st.section_ ∧ st.section_.used ≠ 0 ∧ obj.flatten ≠ [] ∧
      ∃ x', Tracks page slabSize t ⟨{ s.lg with files := files1 }, s.streams⟩ x' objs ∧
        StaysTidy t x x' (if st.entryType = t then obj.flatten else []) := by
  obtain ⟨j, d, hj⟩ := hT.sec i st hst
  obtain rfl := (encodeInto_handle he1).2 rfl
  have hjlt := (List.getElem?_eq_some_iff.1 hj).1
  obtain ⟨hty, hreq, hsize, hne1, hne2⟩ := hi.stream i st hst
  have hdne : st.section_.used ≠ 0 := by
    obtain ⟨layx, hx⟩ := reachable_inv hz.page_min (by
      have := hz.slab; have := align_le (page := page) (by have := hz.page_min; omega) 80; omega) hT.reach
    obtain ⟨_, _, b, _, _, _, _, _, e1, _, _, _, _, _, _, _, _, _, _, _, _, _, _, e2, _⟩ :=
      inv_encodeInto hx.inv (own_open hj rfl) obj
    simp only at e1 e2
    rw [hT.lg, he1] at e1
    cases e1
    intro h5
    have := e2 (by rw [h5, hreq]; simpa using hfit)
    cases this
  have hone : obj.flatten ≠ [] := by
    intro hc
    have hf := fitChunks_empty hc (st.section_.req - (maxHeader + st.section_.used))
    unfold encodeInto at he1
    split at he1
    · cases he1
    · simp only [hf, if_true, Rs.ok.injEq, Prod.mk.injEq, Bool.true_eq_false, and_false] at he1
  have hset : x.issued.set j ⟨st.section_, true, d⟩ = x.issued := by
    apply List.ext_getElem?
    intro k
    by_cases hk : j = k
    · subst hk; rw [List.getElem?_set_self hjlt, hj]
    · rw [List.getElem?_set_ne hk]
  have r1 : x.step (.write j obj) = .ok ⟨{ x.lg with files := files1 }, x.issued⟩ := by
    simp only [SecSys.step, hj, hT.lg, he1]
    rw [if_neg (by simp), hset]
  refine ⟨rfl, hdne, hone, _,
    ⟨.step hT.reach (op := .write j obj) trivial r1, by rw [hT.lg], hT.types, hT.sec, hT.ty⟩, step_grows r1, ?_⟩
  intro idle idle' hid htd
  by_cases htt : st.entryType = t
  · obtain ⟨P, dk, hf, hP⟩ := last_of hi (lg1 := s.lg) hT hst htt
    obtain rfl := last_data hty htt hj hf hP
    obtain ⟨layx, hx⟩ := reachable_inv hz.page_min (by
      have := hz.slab; have := align_le (page := page) (by have := hz.page_min; omega) 80; omega) hT.reach
    have hdd : d ≠ [] := by
      rintro rfl
      exact hdne (open_used hx hj).1
    have hda : dataOf t x = P.map Issued.data ++ [d] := by rw [dataOf, hf]; simp
    have h1 := htd.1
    show Tidy idle' (dataOf t x)
    rw [hda] at h1 ⊢
    rw [List.dropLast_concat] at h1
    exact ⟨by rw [List.dropLast_concat]; exact h1, fun _ => by simp [Ne.symm hdd]; simpa using h1⟩
  · rw [if_neg htt] at hid
    rw [hid rfl]
    exact htd

/-- The section of a stream is closed and a new one gets the object. -/
theorem tracks_renew (hz : SizesOk page slabSize) (hi : StrInv page slabSize s lay live out)
    {lg1 : Logger} (hT : Tracks page slabSize t ⟨lg1, s.streams⟩ x objs)
    {i : Nat} {st : Stream} (hst : s.streams[i]? = some (some st)) {obj : List Bytes}
    (hused : st.section_.used ≠ 0) (hone : obj.flatten ≠ []) {files4 : List Bytes} {h3 h4 : Handle} {lg2 lg3 : Logger}
    (he2 : Logger.flushSection lg1 st.section_ = .ok lg2)
    (he3 : lg2.addSection st.entryType st.minAlloc = .ok (lg3, h3))
    (he4 : encodeInto lg3.files h3 obj = .ok (files4, h4, true))
    (hi' : StrInv page slabSize ⟨{ lg3 with files := files4 }, s.streams.set i (some { st with section_ := h4 })⟩
      lay' live' out') :
    ∃ x', Tracks page slabSize t ⟨{ lg3 with files := files4 }, s.streams.set i (some { st with section_ := h4 })⟩ x'
      (objs ++ if st.entryType = t then [obj.flatten] else []) ∧
      StaysTidy t x x' (if st.entryType = t then obj.flatten else []) := by
  obtain ⟨j, d, hj⟩ := hT.sec i st hst
  have hhd4 := (encodeInto_handle he4).1
  have hilt := (List.getElem?_eq_some_iff.1 hst).1
  have hjlt := (List.getElem?_eq_some_iff.1 hj).1
  obtain ⟨hty, hreq, hsize, hne1, hne2⟩ := hi.stream i st hst
  have hst4 : (⟨{ lg3 with files := files4 }, s.streams.set i (some { st with section_ := h4 })⟩ : LogSys).streams[i]?
      = some (some { st with section_ := h4 }) := by simp only [List.getElem?_set_self hilt]
  have hty4 : h4.header.entryType = st.entryType := (hi'.stream i _ hst4).1
  have hty3 : h3.header.entryType = st.entryType := by rw [← hhd4]; exact hty4
  -- the section is not empty
  have hdne : d ≠ [] := by
    obtain ⟨layx, hx⟩ := reachable_inv hz.page_min (by
      have := hz.slab; have := align_le (page := page) (by have := hz.page_min; omega) 80; omega) hT.reach
    rintro rfl
    exact hused (open_used hx hj).1
  have r2 : x.step (.close j) =
      .ok ⟨lg2, x.issued.set j ⟨st.section_, false, d⟩⟩ := by
    simp only [SecSys.step, hj, hT.lg, he2]
  have r3 : SecSys.step ⟨lg2, x.issued.set j ⟨st.section_, false, d⟩⟩ (.add st.entryType st.minAlloc) =
      .ok ⟨lg3, x.issued.set j ⟨st.section_, false, d⟩ ++ [⟨h3, true, []⟩]⟩ := by
    simp only [SecSys.step, he3]
  have hlast : (x.issued.set j ⟨st.section_, false, d⟩ ++ [⟨h3, true, []⟩])[x.issued.length]? =
      some ⟨h3, true, []⟩ := by
    rw [List.getElem?_append_right (by simp)]; simp
  have r4 : SecSys.step ⟨lg3, x.issued.set j ⟨st.section_, false, d⟩ ++ [⟨h3, true, []⟩]⟩ (.write x.issued.length obj) =
      .ok ⟨{ lg3 with files := files4 }, x.issued.set j ⟨st.section_, false, d⟩ ++ [⟨h4, true, obj.flatten⟩]⟩ := by
    simp only [SecSys.step, hlast, he4, if_true, List.nil_append]
    congr 2
    rw [List.set_append_right _ _ (by simp)]
    simp
  refine ⟨_, ⟨.step (.step (.step hT.reach (op := .close j) trivial r2)
    (op := .add st.entryType st.minAlloc) hsize r3) (op := .write x.issued.length obj) trivial r4, rfl, ?_, ?_, ?_⟩, ?_⟩
  · intro e hm
    rcases List.mem_append.1 hm with hm | hm
    · rcases List.mem_or_eq_of_mem_set hm with hm | rfl
      · exact hT.types e hm
      · exact hT.types ⟨st.section_, true, d⟩ (List.mem_of_getElem? hj)
    · have : e = ⟨h4, true, obj.flatten⟩ := by simpa using hm
      subst this
      show h4.header.entryType ≠ _
      rw [hty4]; exact hne2
  · intro i' st' hs'
    by_cases hii : i = i'
    · subst hii
      simp only [List.getElem?_set_self hilt, Option.some.injEq] at hs'
      subst hs'
      refine ⟨x.issued.length, obj.flatten, ?_⟩
      simp only
      rw [List.getElem?_append_right (by simp)]; simp
    · simp only [List.getElem?_set_ne hii] at hs'
      obtain ⟨j', d', hj'⟩ := hT.sec i' st' hs'
      refine ⟨j', d', ?_⟩
      simp only
      rw [List.getElem?_append_left (by
        have := (List.getElem?_eq_some_iff.1 hj').1; simpa using this),
        List.getElem?_set_ne (other_sec hi hst hs' hii hj hj')]
      exact hj'
  · have htypset : (⟨{ lg3 with files := files4 }, s.streams.set i (some { st with section_ := h4 })⟩ : LogSys).typ
        = s.typ := by
      rw [str_typ_set hilt]
      exact updT_same _ _ _ (by rw [typ_of hst]; rfl)
    by_cases htt : st.entryType = t
    · rw [if_pos htt]
      rcases hT.ty with ⟨_, _, _, _, k4⟩ | ⟨k, stk, P, dk, gs, g, hk, hkt, hf, hP, hgs, hd, ho⟩
      · exact absurd ((typ_of (s := ⟨s.lg, s.streams⟩) hst).trans (congrArg some htt)) (k4 i)
      · have hki : k = i := hi.flat.uniqT k i t (by rw [typ_of (s := s) hk, hkt]) (by rw [typ_of hst, htt])
        subst hki
        have hsk : stk = st := by simpa using hk.symm.trans hst
        subst hsk
        have hme : (⟨stk.section_, true, d⟩ : Issued) ∈ P ++ [⟨stk.section_, true, dk⟩] := by
          rw [← hf]
          exact List.mem_filter.2 ⟨List.mem_of_getElem? hj, by simp [isOf, hty, htt]⟩
        have hnP : (⟨stk.section_, true, d⟩ : Issued) ∉ P := fun hc => by simpa using hP _ hc
        have hdd : d = dk := by
          rcases List.mem_append.1 hme with hc | hc
          · exact absurd hc hnP
          · simpa using hc
        subst hdd
        refine .inr ⟨k, { stk with section_ := h4 }, P ++ [⟨stk.section_, false, d⟩], obj.flatten, gs ++ [g],
          [obj.flatten], hst4, htt, ?_, ?_, pointwise_app hgs (.cons hd .nil), by simp, by simp [ho]⟩
        · simp only [List.filter_append]
          rw [filter_set_last hj (by simp [isOf, hty, htt]) (by simp [isOf, hty, htt]) hf hnP]
          simp [isOf, hty4, htt]
        · intro e he
          rcases List.mem_append.1 he with he | he
          · exact hP e he
          · have : e = ⟨stk.section_, false, d⟩ := by simpa using he
            subst this; rfl
    · rw [if_neg htt, List.append_nil]
      have hff : (x.issued.set j ⟨st.section_, false, d⟩ ++ [(⟨h4, true, obj.flatten⟩ : Issued)]).filter (isOf t) =
          x.issued.filter (isOf t) := by
        rw [List.filter_append, filter_set_other hj (by simp [isOf, hty, htt]) (by simp [isOf, hty, htt])]
        simp [isOf, hty4, htt]
      rcases hT.ty with ⟨gs, k1, k2, k3, k4⟩ | ⟨k, stk, P, dk, gs, g, hk, hkt, hf, hP, hgs, hd, ho⟩
      · exact .inl ⟨gs, by rw [hff]; exact k1, by rw [hff]; exact k2, k3, by rw [htypset]; exact k4⟩
      · refine .inr ⟨k, stk, P, dk, gs, g, ?_, hkt, by rw [hff]; exact hf, hP, hgs, hd, ho⟩
        have hki : i ≠ k := by
          rintro rfl
          have hsk : stk = st := by simpa using hk.symm.trans hst
          subst hsk; exact htt hkt
        simp only [List.getElem?_set_ne hki]
        exact hk
  · refine ⟨((step_grows r2).trans (step_grows r3)).trans (step_grows r4), fun idle idle' hid htd => ?_⟩
    by_cases htt : st.entryType = t
    · rw [if_pos htt] at hid
      obtain ⟨P, dk, hf, hP⟩ := last_of hi hT hst htt
      obtain rfl := last_data hty htt hj hf hP
      refine htd.logged (.inr ⟨hone, ⟨P.map Issued.data, d, ?_, hdne⟩, ?_⟩) hid
      · rw [dataOf, hf]; simp
      · rw [dataOf, dataOf, hf]
        simp only [List.filter_append]
        rw [filter_set_last hj (by simp [isOf, hty, htt]) (by simp [isOf, hty, htt]) hf
          (fun hc => by simpa using hP _ hc)]
        simp [isOf, hty4, htt]
    · rw [if_neg htt] at hid
      rw [hid rfl, dataOf]
      simp only [List.filter_append]
      rw [filter_set_other hj (by simp [isOf, hty, htt]) (by simp [isOf, hty, htt])]
      simpa [isOf, hty4, htt, dataOf] using htd

/-- A section is full: it is closed and a new one gets the object. -/
theorem tracks_roll (hz : SizesOk page slabSize) (hi : StrInv page slabSize s lay live out)
    (hT : Tracks page slabSize t s x objs)
    {i : Nat} {st : Stream} (hst : s.streams[i]? = some (some st)) {obj : List Bytes}
    (hfit : 15 + obj.flatten.length ≤ st.minAlloc)
    {files1 files4 : List Bytes} {h1 h3 h4 : Handle} {lg2 lg3 : Logger}
    (he1 : encodeInto s.lg.files st.section_ obj = .ok (files1, h1, false))
    (he2 : Logger.flushSection { s.lg with files := files1 } h1 = .ok lg2)
    (he3 : lg2.addSection st.entryType st.minAlloc = .ok (lg3, h3))
    (he4 : encodeInto lg3.files h3 obj = .ok (files4, h4, true))
    (hi' : StrInv page slabSize ⟨{ lg3 with files := files4 }, s.streams.set i (some { st with section_ := h4 })⟩
      lay' live' out') :
    ∃ x', Tracks page slabSize t ⟨{ lg3 with files := files4 }, s.streams.set i (some { st with section_ := h4 })⟩ x'
      (objs ++ if st.entryType = t then [obj.flatten] else []) ∧
      StaysTidy t x x' (if st.entryType = t then obj.flatten else []) := by
  obtain ⟨rfl, hu, hone, x1, hT1, ht1⟩ := tracks_fail hz hi hT hst hfit he1
  obtain ⟨x2, hT2, ht2⟩ := tracks_renew hz hi hT1 hst hu hone he2 he3 he4 hi'
  exact ⟨x2, hT2, ht1.1.trans ht2.1,
    fun idle idle' hid htd => ht2.2 idle' idle' (fun _ => rfl) (ht1.2 idle idle' hid htd)⟩

theorem live_of (hi : StrInv page slabSize s lay live out) (i : Nat) :
    live[i]? = s.streams[i]?.map (Option.map (fun st => (st.entryType, st.minAlloc))) := by
  rw [hi.corr, List.getElem?_map]

theorem tracks_log (hz : SizesOk page slabSize) (hi : StrInv page slabSize s lay live out)
    (hT : Tracks page slabSize t s x objs) {i : Nat} {obj : List Bytes}
    (hfit : ∀ t n, live[i]? = some (some (t, n)) → 15 + obj.flatten.length ≤ n)
    (hs : s.step (.log i obj) = .ok s') (hi' : StrInv page slabSize s' lay' live' out') :
    ∃ x', Tracks page slabSize t s' x' (objs ++ objOf t live (.log i obj)) ∧
      StaysTidy t x x' (logged t live [.log i obj]) := by
  have hl := live_of hi i
  unfold LogSys.step at hs
  cases hst : s.streams[i]? with
  | none =>
    simp only [hst, Rs.ok.injEq] at hs
    subst hs
    refine ⟨x, by simpa [objOf, hl, hst] using hT, .refl x, fun idle idle' hid htd => ?_⟩
    rw [hid (by simp [logged, hl, hst])]
    exact htd
  | some o =>
    cases o with
    | none =>
      simp only [hst, Rs.ok.injEq] at hs
      subst hs
      refine ⟨x, by simpa [objOf, hl, hst] using hT, .refl x, fun idle idle' hid htd => ?_⟩
      rw [hid (by simp [logged, hl, hst])]
      exact htd
    | some st =>
      simp only [hst] at hs
      rw [hst] at hl
      simp only [Option.map_some] at hl
      have hob : objOf t live (.log i obj) = if st.entryType = t then [obj.flatten] else [] := by
        simp [objOf, hl]
      have hlo : logged t live [.log i obj] = if st.entryType = t then obj.flatten else [] := by
        simp [logged, hl]
      rw [hob, hlo]
      unfold Stream.log at hs
      cases he : encodeInto s.lg.files st.section_ obj with
      | panic => simp [he] at hs
      | ok p =>
        obtain ⟨files1, h1, b⟩ := p
        rw [he] at hs
        cases b with
        | true =>
          simp only [Rs.ok.injEq] at hs
          subst hs
          exact tracks_write hi hT hst he
        | false =>
          simp only at hs
          cases he2 : Logger.flushSection { s.lg with files := files1 } h1 with
          | panic => simp [he2] at hs
          | ok lg2 =>
            simp only [he2] at hs
            cases he3 : lg2.addSection st.entryType st.minAlloc with
            | panic => simp [he3] at hs
            | ok q =>
              obtain ⟨lg3, h3⟩ := q
              simp only [he3] at hs
              cases he4 : encodeInto lg3.files h3 obj with
              | panic => simp [he4] at hs
              | ok q =>
                obtain ⟨files4, h4, b⟩ := q
                cases b with
                | false => simp [he4] at hs
                | true =>
                  simp only [he4, Rs.ok.injEq] at hs
                  subst hs
                  exact tracks_roll hz hi hT hst (hfit _ _ hl) he he2 he3 he4 hi'

theorem tracks_open (hi : StrInv page slabSize s lay live out)
    (hT : Tracks page slabSize t s x objs) {u : EntryType} {n : Nat}
    (h2 : u ≠ .lastEntry) (h3 : ∀ m, some (u, m) ∉ live) (h4 : SizeOk page slabSize n)
    (hs : s.step (.openStream u n) = .ok s') (hi' : StrInv page slabSize s' lay' live' out') :
    ∃ x', Tracks page slabSize t s' x' objs ∧ Grows x x' ∧
      ∀ idle, (u = t → idle = false) → Tidy idle (dataOf t x) → Tidy (idle || u == t) (dataOf t x') := by
  unfold LogSys.step openStream at hs
  cases he : s.lg.addSection u n with
  | panic => simp [he] at hs
  | ok q =>
    obtain ⟨lg, h⟩ := q
    simp only [he, Rs.ok.injEq] at hs
    subst hs
    have hnew : (⟨lg, s.streams ++ [some ⟨u, h, n⟩]⟩ : LogSys).streams[s.streams.length]? = some (some ⟨u, h, n⟩) := by
      simp
    have hty : h.header.entryType = u := (hi'.stream _ _ hnew).1
    have r1 : x.step (.add u n) = .ok ⟨lg, x.issued ++ [⟨h, true, []⟩]⟩ := by
      simp only [SecSys.step, hT.lg, he]
    have htyp : ∀ i, s.typ i ≠ some u := by
      intro i hc
      obtain ⟨st, hst, hu⟩ := typ_eq_some hc
      have := live_of hi i
      rw [hst] at this
      simp only [Option.map_some, hu] at this
      exact h3 _ (List.mem_of_getElem? this)
    refine ⟨_, ⟨.step hT.reach (op := .add u n) h4 r1, rfl, ?_, ?_, ?_⟩, step_grows r1, ?_⟩
    · intro e hm
      rcases List.mem_append.1 hm with hm | hm
      · exact hT.types e hm
      · have : e = ⟨h, true, []⟩ := by simpa using hm
        subst this
        show h.header.entryType ≠ _
        rw [hty]; exact h2
    · intro i st hst
      simp only at hst ⊢
      rw [List.getElem?_append] at hst
      split at hst
      · obtain ⟨j, d, hj⟩ := hT.sec i st hst
        exact ⟨j, d, by rw [List.getElem?_append_left (List.getElem?_eq_some_iff.1 hj).1]; exact hj⟩
      · rw [List.getElem?_singleton] at hst
        split at hst
        · obtain rfl := Option.some.inj (Option.some.inj hst)
          exact ⟨x.issued.length, [], by simp⟩
        · cases hst
    · by_cases hut : u = t
      · subst hut
        rcases hT.ty with ⟨gs, k1, k2, k3, k4⟩ | ⟨k, stk, P, dk, gs, g, hk, hkt, hf, hP, hgs, hd, ho⟩
        · refine .inr ⟨s.streams.length, ⟨u, h, n⟩, x.issued.filter (isOf u), [], gs, [], hnew, rfl, ?_, k1, k2, rfl,
            by simpa using k3⟩
          simp only [List.filter_append]
          simp [isOf, hty]
        · exact absurd (by rw [typ_of hk, hkt]) (htyp k)
      · have hff : (x.issued ++ [(⟨h, true, []⟩ : Issued)]).filter (isOf t) = x.issued.filter (isOf t) := by
          simp [List.filter_append, isOf, hty, hut]
        rcases hT.ty with ⟨gs, k1, k2, k3, k4⟩ | ⟨k, stk, P, dk, gs, g, hk, hkt, hf, hP, hgs, hd, ho⟩
        · refine .inl ⟨gs, by rw [hff]; exact k1, by rw [hff]; exact k2, k3, ?_⟩
          rw [str_typ_append]
          intro i hc
          unfold updT at hc
          split at hc
          · exact hut (Option.some.inj hc)
          · exact k4 i hc
        · refine .inr ⟨k, stk, P, dk, gs, g, ?_, hkt, by rw [hff]; exact hf, hP, hgs, hd, ho⟩
          simp only
          rw [List.getElem?_append_left (List.getElem?_eq_some_iff.1 hk).1]
          exact hk
    · intro idle hid htd
      rw [dataOf]
      simp only [List.filter_append, List.map_append]
      by_cases hut : u = t
      · rw [beq_iff_eq.2 hut, Bool.or_true]
        rw [hid hut] at htd
        simpa [isOf, hty, hut, dataOf] using htd.opened
      · rw [beq_eq_false_iff_ne.2 hut, Bool.or_false]
        simpa [isOf, hty, hut, dataOf] using htd

theorem tracks_drop (hi : StrInv page slabSize s lay live out)
    (hT : Tracks page slabSize t s x objs) {i : Nat} (hs : s.step (.drop i) = .ok s') :
    ∃ x', Tracks page slabSize t s' x' objs ∧ Grows x x' ∧
      ∀ idle, Tidy idle (dataOf t x) → Tidy idle (dataOf t x') := by
  unfold LogSys.step at hs
  cases hst : s.streams[i]? with
  | none =>
    simp only [hst, Rs.ok.injEq] at hs
    subst hs
    exact ⟨x, hT, .refl x, fun _ h => h⟩
  | some o =>
    cases o with
    | none =>
      simp only [hst, Rs.ok.injEq] at hs
      subst hs
      exact ⟨x, hT, .refl x, fun _ h => h⟩
    | some st =>
      simp only [hst] at hs
      unfold Stream.drop at hs
      cases he : s.lg.flushSection st.section_ with
      | panic => simp [he] at hs
      | ok lg =>
        simp only [he, Rs.ok.injEq] at hs
        subst hs
        obtain ⟨j, d, hj⟩ := hT.sec i st hst
        have hty := (hi.stream i st hst).1
        have hilt := (List.getElem?_eq_some_iff.1 hst).1
        have r1 : x.step (.close j) = .ok ⟨lg, x.issued.set j ⟨st.section_, false, d⟩⟩ := by
          simp only [SecSys.step, hj, hT.lg, he]
        refine ⟨_, ⟨.step hT.reach (op := .close j) trivial r1, rfl, ?_, ?_, ?_⟩, step_grows r1, ?_⟩
        · intro e hm
          rcases List.mem_or_eq_of_mem_set hm with hm | rfl
          · exact hT.types e hm
          · exact hT.types ⟨st.section_, true, d⟩ (List.mem_of_getElem? hj)
        · intro i' st' hs'
          by_cases hii : i = i'
          · subst hii
            simp only [List.getElem?_set_self hilt] at hs'
            cases hs'
          · simp only [List.getElem?_set_ne hii] at hs'
            obtain ⟨j', d', hj'⟩ := hT.sec i' st' hs'
            refine ⟨j', d', ?_⟩
            simp only
            rw [List.getElem?_set_ne (other_sec hi hst hs' hii hj hj')]
            exact hj'
        · by_cases htt : st.entryType = t
          · -- the stream of the type is closed
            rcases hT.ty with ⟨_, _, _, _, k4⟩ | ⟨k, stk, P, dk, gs, g, hk, hkt, hf, hP, hgs, hd, ho⟩
            · exact absurd ((typ_of hst).trans (congrArg some htt)) (k4 i)
            · have hki : k = i := hi.flat.uniqT k i t (by rw [typ_of hk, hkt]) (by rw [typ_of hst, htt])
              subst hki
              have hsk : stk = st := by simpa using hk.symm.trans hst
              subst hsk
              obtain rfl := last_data hty htt hj hf hP
              have hfs : (x.issued.set j ⟨stk.section_, false, d⟩).filter (isOf t) = P ++ [⟨stk.section_, false, d⟩] :=
                filter_set_last hj (by simp [isOf, hty, htt]) (by simp [isOf, hty, htt]) hf
                  (fun hc => by simpa using hP _ hc)
              refine .inl ⟨gs ++ [g], ?_, ?_, by simp [ho], ?_⟩
              · simp only [hfs]
                intro e he
                rcases List.mem_append.1 he with he | he
                · exact hP e he
                · obtain rfl : e = ⟨stk.section_, false, d⟩ := by simpa using he
                  rfl
              · simp only [hfs]
                exact pointwise_app hgs (.cons hd .nil)
              · rw [str_typ_set hilt]
                intro i' hc
                unfold updT at hc
                split at hc
                · cases hc
                · rename_i hne
                  exact hne (hi.flat.uniqT i' k t hc (by rw [typ_of hst, htt]))
          · have hff : (x.issued.set j ⟨st.section_, false, d⟩).filter (isOf t) = x.issued.filter (isOf t) :=
              filter_set_other hj (by simp [isOf, hty, htt]) (by simp [isOf, hty, htt])
            rcases hT.ty with ⟨gs, k1, k2, k3, k4⟩ | ⟨k, stk, P, dk, gs, g, hk, hkt, hf, hP, hgs, hd, ho⟩
            · refine .inl ⟨gs, by rw [hff]; exact k1, by rw [hff]; exact k2, k3, ?_⟩
              rw [str_typ_set hilt]
              intro i' hc
              unfold updT at hc
              split at hc
              · cases hc
              · exact k4 i' hc
            · refine .inr ⟨k, stk, P, dk, gs, g, ?_, hkt, by rw [hff]; exact hf, hP, hgs, hd, ho⟩
              have hki : i ≠ k := by
                rintro rfl
                have hsk : stk = st := by simpa using hk.symm.trans hst
                subst hsk; exact htt hkt
              simp only [List.getElem?_set_ne hki]
              exact hk
        · intro idle htd
          by_cases htt : st.entryType = t
          · obtain ⟨P, dk, hf, hP⟩ := last_of hi (lg1 := s.lg) hT hst htt
            obtain rfl := last_data hty htt hj hf hP
            rw [dataOf, hf] at htd
            rw [dataOf, filter_set_last hj (by simp [isOf, hty, htt]) (by simp [isOf, hty, htt]) hf
              (fun hc => by simpa using hP _ hc)]
            simpa using htd
          · rw [dataOf, filter_set_other hj (by simp [isOf, hty, htt]) (by simp [isOf, hty, htt])]
            exact htd

/-- A history of operations on streams, seen as operations on sections. -/
theorem tracks_steps (hz : SizesOk page slabSize) {ops : List LogOp} :
    ∀ {s : LogSys} {x : SecSys} {objs : List Bytes} {lay : List (List Sec)}
      {live : List (Option (EntryType × Nat))} {out : EntryType → Bytes},
    StrInv page slabSize s lay live out → Tracks page slabSize t s x objs → HistoryOk page slabSize live ops →
    ∃ s' x' lay' live' out', s.steps ops = .ok s' ∧ StrInv page slabSize s' lay' live' out' ∧
      Tracks page slabSize t s' x' (objs ++ objsOf t live ops) ∧
      ∀ idle, UsedFirst t idle live ops → Tidy idle (dataOf t x) → [] ∉ (dataOf t x').dropLast := by
  induction ops with
  | nil =>
    intro s x objs lay live out hi hT _
    exact ⟨s, x, lay, live, out, rfl, hi, by simpa [objsOf] using hT, fun _ _ h => h.1⟩
  | cons op ops ih =>
    intro s x objs lay live out hi hT hops
    cases op with
    | openStream u n =>
      obtain ⟨h1, h2, h3, h4, h5⟩ := hops
      obtain ⟨s1, lay1, e1, hi1, _⟩ := str_open hz.page_min hi h1 h2 h3 h4
      obtain ⟨x1, hT1, _, ht1⟩ := tracks_open hi hT h2 h3 h4 e1 hi1
      obtain ⟨s2, x2, lay2, live2, out2, e2, hi2, hT2, ht2⟩ := ih hi1 hT1 h5
      refine ⟨s2, x2, lay2, live2, out2, by simp only [LogSys.steps, e1, e2], hi2, ?_,
        fun idle hu htd => ht2 _ hu.2 (ht1 idle hu.1 htd)⟩
      simpa [objsOf, objOf, liveStep] using hT2
    | log i obj =>
      obtain ⟨h1, h2⟩ := hops
      obtain ⟨s1, lay1, e1, hi1, _⟩ := str_log hz.page_min hi h1
      obtain ⟨x1, hT1, _, ht1⟩ := tracks_log hz hi hT h1 e1 hi1
      obtain ⟨s2, x2, lay2, live2, out2, e2, hi2, hT2, ht2⟩ := ih hi1 hT1 h2
      refine ⟨s2, x2, lay2, live2, out2, by simp only [LogSys.steps, e1, e2], hi2, ?_,
        fun idle hu htd => ht2 _ hu (ht1 idle _ (fun h => by rw [h]; simp) htd)⟩
      rw [List.append_assoc] at hT2
      simpa only [objsOf, liveStep] using hT2
    | drop i =>
      obtain ⟨s1, lay1, e1, hi1, _⟩ := str_drop hi i
      obtain ⟨x1, hT1, _, ht1⟩ := tracks_drop hi hT e1
      obtain ⟨s2, x2, lay2, live2, out2, e2, hi2, hT2, ht2⟩ := ih hi1 hT1 hops
      refine ⟨s2, x2, lay2, live2, out2, by simp only [LogSys.steps, e1, e2], hi2, ?_,
        fun idle hu htd => ht2 _ hu (ht1 idle htd)⟩
      simpa [objsOf, objOf, liveStep] using hT2

/-- A new log. -/
theorem log_begin (t : EntryType) (hz : SizesOk page slabSize) :
    ∃ s x lay, (∀ ops, runLog slabSize page ops = s.steps ops) ∧ StrInv page slabSize s lay [] (fun _ => []) ∧
      Tracks page slabSize t s x [] ∧ Tidy false (dataOf t x) := by
  have hp := hz.page_min
  have hal := align_le (page := page) (by omega) 80
  have hsl := hz.slab
  obtain ⟨lg, e1, hi1, hpg, hss⟩ := inv_new (slabSize := slabSize) (page := page) (by omega) (by omega)
  refine ⟨⟨lg, []⟩, ⟨lg, []⟩, [[]], fun ops => by unfold runLog; rw [e1], ?_,
    ⟨.new e1, rfl, by simp, by simp, .inl ⟨[], by simp, .nil, rfl, by simp [LogSys.typ]⟩⟩, by simp [dataOf, Tidy]⟩
  refine ⟨?_, hpg, hss, ?_, rfl, by simp, ?_⟩
  · have : (⟨lg, []⟩ : LogSys).own = fun _ => none := by funext j; simp [LogSys.own]
    rw [this]; exact hi1
  · intro k hk hc
    have := (List.getElem?_eq_some_iff.1 hc).1
    simp at this; omega
  · refine ⟨?_, by simp, by simp, ?_⟩
    · intro i j t h; simp [LogSys.typ] at h
    · intro i t h; simp [LogSys.typ] at h

/-- A running log and the sections behind it. -/
theorem runLog_tracks (hz : SizesOk page slabSize) {ops : List LogOp} (hops : HistoryOk page slabSize [] ops) :
    ∃ s x lay live out, runLog slabSize page ops = .ok s ∧ StrInv page slabSize s lay live out ∧
      Tracks page slabSize t s x (objsOf t [] ops) ∧ (UsedFirst t false [] ops → [] ∉ (dataOf t x).dropLast) := by
  obtain ⟨s, x, lay, h0, hi, hT, htd⟩ := log_begin t hz
  obtain ⟨s', x', lay', live', out', h1, h2, h3, h4⟩ := tracks_steps hz hi hT hops
  exact ⟨s', x', lay', live', out', by rw [h0]; exact h1, h2, by simpa using h3, fun hu => h4 false hu htd⟩

/-- If no stream of a type is dropped, only one is opened. -/
theorem used_of_never {ops : List LogOp} : ∀ {live : List (Option (EntryType × Nat))} {idle : Bool},
    HistoryOk page slabSize live ops → NeverDropped t live ops → (idle = true → ∃ m, some (t, m) ∈ live) →
    UsedFirst t idle live ops := by
  induction ops with
  | nil => intros; trivial
  | cons op ops ih =>
    intro live idle hops hnd hid
    cases op with
    | openStream u n =>
      obtain ⟨_, _, h3, _, h5⟩ := hops
      refine ⟨?_, ih h5 hnd ?_⟩
      · rintro rfl
        cases hx : idle with
        | false => rfl
        | true => obtain ⟨m, hm⟩ := hid hx; exact absurd hm (h3 m)
      · intro h
        rcases Bool.or_eq_true_iff.1 h with h | h
        · obtain ⟨m, hm⟩ := hid h
          exact ⟨m, List.mem_append_left _ hm⟩
        · exact ⟨n, by simp [beq_iff_eq.1 h]⟩
    | log i obj =>
      exact ih hops.2 hnd (fun h => hid (Bool.and_eq_true_iff.1 h).1)
    | drop i =>
      refine ih hops hnd.2 (fun h => ?_)
      obtain ⟨m, hm⟩ := hid h
      obtain ⟨j, hj⟩ := List.mem_iff_getElem?.1 hm
      refine ⟨m, List.mem_iff_getElem?.2 ⟨j, ?_⟩⟩
      rw [List.getElem?_set_ne, hj]
      rintro rfl
      exact hnd.1 m hj

end

end ULog
end Verif
