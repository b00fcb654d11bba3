import Verif.Proofs.KillDrain
/-! A process killed in the middle of an operation on a stream. -/
namespace Verif
namespace ULog
open Bincode

section
variable {page slabSize : Nat} {t : EntryType}

/-! ### The oldest slab -/

theorem oldest_mem {lg : Logger} : ∃ sl ∈ lg.live, lg.oldestMapped = sl.suffix := by
  unfold Logger.oldestMapped Logger.mapped Logger.live
  cases lg.back with
  | nil => exact ⟨lg.front, by simp, rfl⟩
  | cons a l => exact ⟨a, by simp, rfl⟩

theorem oldest_close {x x' : SecSys} {lay : List (List Sec)} (hi : SecInv page slabSize x lay) {j : Nat}
    (h : x.step (.close j) = .ok x') : x.lg.oldestMapped ≤ x'.lg.oldestMapped := by
  unfold SecSys.step at h
  simp only at h
  split at h
  · rename_i hd d hj
    obtain ⟨sl, sl', file', hsl, hsuf, hfl, hsuf', _⟩ := inv_flushSection hi.inv (own_open hj rfl)
    simp only at hfl
    rw [hfl] at h
    cases h
    obtain ⟨s2, hs2, ho⟩ := oldest_mem (lg := x.lg.replace hd.slab sl' file')
    rw [live_replace, List.mem_map] at hs2
    obtain ⟨s1, hs1, rfl⟩ := hs2
    simp only at ho ⊢
    rw [ho]
    unfold subst
    split
    · rename_i he
      rw [hsuf', ← hsuf]
      exact (oldest_le hi.inv).2 sl hsl
    · exact (oldest_le hi.inv).2 s1 hs1
  · cases h
    exact Nat.le_refl _

theorem oldest_add (hp : 13 < page) {x x' : SecSys} {lay : List (List Sec)} (hi : SecInv page slabSize x lay) {u : EntryType}
    {req : Nat} (hr : SizeOk page slabSize req)
    (h : x.step (.add u req) = .ok x') : x.lg.oldestMapped ≤ x'.lg.oldestMapped := by
  obtain ⟨lg', hd, lay', hadd, _, _, _, _, _, _, _, _, _, _, _, hlive⟩ := inv_addSection hi.inv hi.nonempty (t := u)
    (req := req) (i := x.issued.length)
    ⟨by rw [hi.pageEq]; exact hp, hr.min, by rw [hi.pageEq]; exact hr.max⟩ (by rw [hi.pageEq, hi.slabEq]; exact hr.fits) (by simp [SecSys.own])
  unfold SecSys.step at h
  simp only [hadd, Rs.ok.injEq] at h
  subst h
  obtain ⟨s2, hs2, ho⟩ := oldest_mem (lg := lg')
  simp only
  rw [ho]
  rcases hlive s2 hs2 with ⟨sl, hsl, he, _⟩ | ⟨he, _⟩
  · rw [← he]
    exact (oldest_le hi.inv).2 sl hsl
  · have := oldest_front hi.inv
    omega

/-! ### A kill during an operation on sections -/

/-- The sections of a type: all but the last one are closed. -/
structure KillPoint (page slabSize : Nat) (t : EntryType) (x : SecSys) (P L : List Issued) : Prop where
  reach : Reachable page slabSize x
  types : ∀ e ∈ x.issued, e.h.header.entryType ≠ .lastEntry
  filter : x.issued.filter (isOf t) = P ++ L
  closed : ∀ e ∈ P, e.isOpen = false
  last : L.length ≤ 1

/-- Reading the files as a stream of a type delivers these bytes. -/
def Delivers (files : List Bytes) (t : EntryType) (o : Bytes) : Prop :=
  ∀ ns : List Nat, (∀ n ∈ ns, 0 < n) →
    (drainLog files t ns).1 <+: o ∧ ((drainLog files t ns).2 ≠ .more → (drainLog files t ns).1 = o) ∧
      (o.length < ns.length → (drainLog files t ns).2 ≠ .more)

theorem upTo_within {P : List Issued} {ds : List Bytes} (h : Pointwise Issued.left P ds)
    (hP : ∀ e ∈ P, e.isOpen = false) {tl : List Bytes} {d : Bytes} (hd : (upTo tl).1.flatten <+: d) :
    (upTo (ds ++ tl)).1.flatten <+: (P.map Issued.data).flatten ++ d := by
  induction h with
  | nil => exact hd
  | @cons e c P ds h _ ih =>
    obtain rfl : c = e.data := h.2 (hP e (by simp))
    simp only [List.cons_append, upTo]
    split
    · simp
    · simp only [List.map_cons, List.flatten_cons, List.append_assoc]
      exact (List.prefix_append_right_inj _).2 (ih (fun e he => hP e (by simp [he])))

theorem upTo_left {P : List Issued} {ds : List Bytes} (h : Pointwise Issued.left P ds)
    (hP : ∀ e ∈ P, e.isOpen = false ∧ e.data ≠ []) (tl : List Bytes) :
    (upTo (ds ++ tl)).1 = P.map Issued.data ++ (upTo tl).1 := by
  induction h with
  | nil => rfl
  | @cons e d P ds h _ ih =>
    obtain ⟨h1, h2⟩ := hP e (by simp)
    have hv : d = e.data := h.2 h1
    simp only [List.map_cons, List.cons_append, upTo, hv, if_neg h2, ih (fun e he => hP e (by simp [he]))]

theorem pointwise_split {α β : Type} {R : α → β → Prop} {a1 a2 : List α} {b : List β}
    (h : Pointwise R (a1 ++ a2) b) : ∃ b1 b2, b = b1 ++ b2 ∧ Pointwise R a1 b1 ∧ Pointwise R a2 b2 := by
  induction a1 generalizing b with
  | nil => exact ⟨[], b, rfl, .nil, h⟩
  | cons a a1 ih =>
    cases h with
    | cons h hs =>
      obtain ⟨b1, b2, rfl, h1, h2⟩ := ih hs
      exact ⟨_ :: b1, b2, rfl, .cons h h1, h2⟩

theorem flatten_prefix {a b : List Bytes} (h : a <+: b) : a.flatten <+: b.flatten := by
  obtain ⟨c, rfl⟩ := h
  rw [List.flatten_append]
  exact List.prefix_append _ _

theorem kill_point (hz : SizesOk page slabSize) (hp256 : 256 ∣ page) {x : SecSys} {P L : List Issued}
    (hk : KillPoint page slabSize t x P L) {op : SecOp} (hop : SecOpOk page slabSize op) {files' : List Bytes}
    (hc : KilledDuring x.lg.files (opEffects x op) files') (ht : t ≠ .lastEntry) (ht' : t ≠ .empty) :
    ∃ o, o <+: ((P ++ L).map Issued.data).flatten ∧ Delivers files' t o ∧
      ((∀ e ∈ P, e.data ≠ []) →
        ∀ (j : Nat) (e : Issued), x.issued[j]? = some e → isOf t e = true → e.h.slab ≤ x.lg.oldestMapped →
        (((x.issued.take j).filter (isOf t)).map Issued.data).flatten <+: o) := by
  obtain ⟨m, ds, hm, hds, hd⟩ := drain_kill hz hp256 hk.reach hk.types hop hc ht ht'
  have hsplit : P ++ L = (x.issued.take m).filter (isOf t) ++ (x.issued.drop m).filter (isOf t) := by
    rw [← hk.filter, ← List.filter_append, List.take_append_drop]
  have hpre : (x.issued.take m).filter (isOf t) <+: P ++ L := ⟨_, hsplit.symm⟩
  obtain ⟨p, hp⟩ : ∃ p, (x.issued.take m).filter (isOf t) = (P ++ L).take p :=
    ⟨_, List.prefix_iff_eq_take.1 hpre⟩
  rw [hp, List.take_append] at hds
  obtain ⟨d1, d2, rfl, hd1, hd2⟩ := pointwise_split hds
  -- the last one
  have hlast : (upTo d2).1.flatten <+: ((L.take (p - P.length)).map Issued.data).flatten := by
    have hl := hk.last
    cases hL : L.take (p - P.length) with
    | nil => rw [hL] at hd2; cases hd2; exact List.prefix_rfl
    | cons e l =>
      have hl' : l = [] := by
        have := congrArg List.length hL
        rw [List.length_take, List.length_cons] at this
        exact List.length_eq_zero_iff.1 (by omega)
      subst hl'
      rw [hL] at hd2
      cases hd2 with
      | @cons _ d _ _ h hs =>
        cases hs
        simp only [upTo]
        split
        · simp
        · simpa using h.1
  refine ⟨(upTo (d1 ++ d2)).1.flatten, ?_, hd, ?_⟩
  · refine (upTo_within hd1 (fun e he => hk.closed e (List.mem_of_mem_take he)) hlast).trans ?_
    rw [← List.flatten_append, ← List.map_append, ← List.take_append]
    exact flatten_prefix ((List.take_prefix _ _).map _)
  · intro hne j e hj he hsl
    have hup := upTo_left hd1 (fun e he => ⟨hk.closed e (List.mem_of_mem_take he), hne e (List.mem_of_mem_take he)⟩) d2
    have hjm := hm j e hj hsl
    have hjlt := (List.getElem?_eq_some_iff.1 hj).1
    -- the sections before are among the closed ones
    have h1 : (x.issued.take j).filter (isOf t) ++ [e] <+: (P ++ L).take p := by
      rw [← hp]
      have h2 : x.issued.take j ++ [e] = x.issued.take (j + 1) := by
        rw [List.take_add_one, hj]; rfl
      have h3 : x.issued.take (j + 1) <+: x.issued.take m := List.take_prefix_take_left (by omega)
      have h4 := h3.filter (isOf t)
      rw [← h2, List.filter_append, List.filter_cons_of_pos he] at h4
      exact h4
    have hlen := h1.length_le
    rw [List.length_append, List.length_take, List.length_append] at hlen
    simp only [List.length_singleton] at hlen
    have hl := hk.last
    have h5 : (x.issued.take j).filter (isOf t) <+: P.take p := by
      have h6 : (x.issued.take j).filter (isOf t) <+: (P ++ L).take p := (List.prefix_append _ _).trans h1
      rw [List.take_append] at h6
      refine List.prefix_of_prefix_length_le h6 (List.prefix_append _ _) ?_
      rw [List.length_take]
      omega
    rw [hup, List.flatten_append]
    exact (flatten_prefix (h5.map _)).trans (List.prefix_append _ _)

/-! ### A kill during an operation on a stream -/

theorem reach_inv (hz : SizesOk page slabSize) {x : SecSys} (h : Reachable page slabSize x) :
    ∃ lay, SecInv page slabSize x lay :=
  reachable_inv hz.page_min (by
    have := hz.slab; have := align_le (page := page) (by have := hz.page_min; omega) 80; omega) h

/-- What a stream operation killed at any instant leaves, for the objects logged before; `tidy` says that no
section but the last one is empty. -/
def KillLeft (t : EntryType) (tidy : Prop) (s : LogSys) (objs : List Bytes) (files' : List Bytes) : Prop :=
  ∃ o, o <+: objs.flatten ∧ Delivers files' t o ∧
    (tidy → ∀ (i : Nat) (st : Stream), s.streams[i]? = some (some st) → st.entryType = t →
      st.section_.slab ≤ s.lg.oldestMapped →
      ∃ a b, objs = a ++ b ∧ b.flatten.length = st.section_.used ∧ 15 + b.flatten.length ≤ st.minAlloc ∧
        a.flatten <+: o)

theorem KillLeft.mono {tidy tidy' : Prop} {s : LogSys} {objs files' : List Bytes} (h : KillLeft t tidy s objs files')
    (ht : tidy' → tidy) : KillLeft t tidy' s objs files' := by
  obtain ⟨o, h1, h2, h3⟩ := h
  exact ⟨o, h1, h2, fun h => h3 (ht h)⟩

variable {s s' : LogSys} {x : SecSys} {objs : List Bytes}
  {lay lay' : List (List Sec)} {live live' : List (Option (EntryType × Nat))} {out out' : EntryType → Bytes}

theorem tracks_point (hT : Tracks page slabSize t s x objs) :
    ∃ P L, KillPoint page slabSize t x P L ∧ ((P ++ L).map Issued.data).flatten = objs.flatten ∧
      ([] ∉ (dataOf t x).dropLast → (∃ i, s.typ i = some t) → ∀ e ∈ P, e.data ≠ []) := by
  rcases hT.ty with ⟨gs, k1, k2, k3, k4⟩ | ⟨k, stk, P, dk, gs, g, hk, hkt, hf, hP, hgs, hdk, ho⟩
  · refine ⟨x.issued.filter (isOf t), [], ⟨hT.reach, hT.types, by simp, k1, by simp⟩, ?_, ?_⟩
    · rw [List.append_nil, flatten_objs k2, k3]
    · rintro _ ⟨i, hi⟩
      exact absurd hi (k4 i)
  · refine ⟨P, [⟨stk.section_, true, dk⟩], ⟨hT.reach, hT.types, hf, hP, by simp⟩, ?_, ?_⟩
    · rw [List.map_append, List.flatten_append, flatten_objs hgs, ho, hdk]
      simp
    · intro htidy _ e he hc
      refine htidy ?_
      rw [dataOf, hf, List.map_append, List.map_cons, List.map_nil, List.dropLast_concat, ← hc]
      exact List.mem_map_of_mem he

/-- The objects of a stream, before its section and in it. -/
theorem tracks_before (hz : SizesOk page slabSize) (hi : StrInv page slabSize s lay live out)
    {lg1 : Logger} (hT : Tracks page slabSize t ⟨lg1, s.streams⟩ x objs)
    {i : Nat} {st : Stream} (hst : s.streams[i]? = some (some st)) (hty : st.entryType = t)
    {j : Nat} {d : Bytes} (hj : x.issued[j]? = some ⟨st.section_, true, d⟩) :
    ∃ a b, objs = a ++ b ∧ b.flatten.length = st.section_.used ∧ 15 + b.flatten.length ≤ st.minAlloc ∧
      a.flatten = (((x.issued.take j).filter (isOf t)).map Issued.data).flatten := by
  rcases hT.ty with ⟨_, _, _, _, k3⟩ | ⟨k, stk, P, dk, gs, g, hk, hkt, hf, hP, hgs, hdk, ho⟩
  · exact absurd (by rw [typ_of (s := ⟨lg1, s.streams⟩) hst, hty]) (k3 i)
  · have hki : k = i := hi.flat.uniqT k i t (by rw [typ_of (s := s) hk, hkt]) (by rw [typ_of hst, hty])
    subst hki
    have hsk : stk = st := by simpa using hk.symm.trans hst
    subst hsk
    have hof : isOf t (⟨stk.section_, true, d⟩ : Issued) = true := by simp [isOf, (hi.stream k stk hst).1, hty]
    have hme : (⟨stk.section_, true, d⟩ : Issued) ∈ P ++ [⟨stk.section_, true, dk⟩] := by
      rw [← hf]
      exact List.mem_filter.2 ⟨List.mem_of_getElem? hj, hof⟩
    have hnP : (⟨stk.section_, true, d⟩ : Issued) ∉ P := fun hc => by simpa using hP _ hc
    have hdd : d = dk := by
      rcases List.mem_append.1 hme with hc | hc
      · exact absurd hc hnP
      · simpa using hc
    subst hdd
    obtain ⟨layx, hx⟩ := reach_inv hz hT.reach
    obtain ⟨hu, hreq⟩ := open_used hx hj
    rw [(hi.stream k stk hst).2.1] at hreq
    refine ⟨gs.flatten, g, ho, by rw [← hdk, hu], by rw [← hdk]; exact hreq, ?_⟩
    rw [(filter_last hj hof hf hnP).1, flatten_objs hgs]

/-- A kill during a later one of the operations on sections, with the same content. -/
theorem left_from (hz : SizesOk page slabSize) (hp256 : 256 ∣ page) (hi : StrInv page slabSize s lay live out)
    {lg1 : Logger} (hT : Tracks page slabSize t ⟨lg1, s.streams⟩ x objs)
    {y : SecSys} {P L : List Issued} (hk : KillPoint page slabSize t y P L)
    (hPL : ((P ++ L).map Issued.data).flatten = objs.flatten)
    (hne : [] ∉ (dataOf t x).dropLast → (∃ i, s.typ i = some t) → ∀ e ∈ P, e.data ≠ [])
    (hold : s.lg.oldestMapped ≤ y.lg.oldestMapped)
    (hsame : ∀ (j : Nat) (e : Issued), x.issued[j]? = some e → ∃ e', y.issued[j]? = some e' ∧ e'.h = e.h ∧
      ((y.issued.take j).filter (isOf t)).map Issued.data = ((x.issued.take j).filter (isOf t)).map Issued.data)
    {op : SecOp} (hop : SecOpOk page slabSize op) {files' : List Bytes}
    (hc : KilledDuring y.lg.files (opEffects y op) files') (ht : t ≠ .lastEntry) (ht' : t ≠ .empty) :
    KillLeft t ([] ∉ (dataOf t x).dropLast) s objs files' := by
  obtain ⟨o, h1, h2, h3⟩ := kill_point hz hp256 hk hop hc ht ht'
  refine ⟨o, by rw [← hPL]; exact h1, h2, fun htidy i st hst hty hsl => ?_⟩
  obtain ⟨j, d, hj⟩ := hT.sec i st hst
  obtain ⟨a, b, e1, e2, e3, e4⟩ := tracks_before hz hi hT hst hty hj
  obtain ⟨e', hj', heh, hdat⟩ := hsame j _ hj
  refine ⟨a, b, e1, e2, e3, ?_⟩
  rw [e4, ← hdat]
  exact h3 (hne htidy ⟨i, by rw [typ_of hst, hty]⟩) j _ hj' (by simp [isOf, heh, (hi.stream i st hst).1, hty]) (by rw [heh]; exact Nat.le_trans hsl hold)

theorem left_of (hz : SizesOk page slabSize) (hp256 : 256 ∣ page) (hi : StrInv page slabSize s lay live out)
    {lg1 : Logger} (hT : Tracks page slabSize t ⟨lg1, s.streams⟩ x objs)
    (hold : s.lg.oldestMapped ≤ lg1.oldestMapped) {op : SecOp}
    (hop : SecOpOk page slabSize op) {files' : List Bytes}
    (hc : KilledDuring x.lg.files (opEffects x op) files') (ht : t ≠ .lastEntry) (ht' : t ≠ .empty) :
    KillLeft t ([] ∉ (dataOf t x).dropLast) s objs files' := by
  obtain ⟨P, L, hk, hPL, hne⟩ := tracks_point hT
  exact left_from hz hp256 hi hT hk hPL hne (by rw [hT.lg]; exact hold) (fun j e hj => ⟨e, hj, rfl, rfl⟩) hop hc ht ht'

theorem filter_set_data {p : Issued → Bool} {l : List Issued} {j : Nat} {e e' : Issued}
    (hj : ∀ e2, l[j]? = some e2 → e2 = e) (hp : p e' = p e) (hd : e'.data = e.data) :
    ((l.set j e').filter p).map Issued.data = (l.filter p).map Issued.data := by
  induction l generalizing j with
  | nil => rfl
  | cons a l ih =>
    cases j with
    | zero =>
      obtain rfl : a = e := hj a rfl
      simp only [List.set_cons_zero, List.filter_cons, hp]
      split <;> simp [hd]
    | succ j =>
      have := ih (j := j) (fun e2 h => hj e2 (by simpa using h))
      simp only [List.set_cons_succ, List.filter_cons]
      split <;> simp [this]

/-- The section of a stream is closed. -/
theorem close_point (hi : StrInv page slabSize s lay live out)
    {lg1 : Logger} (hT : Tracks page slabSize t ⟨lg1, s.streams⟩ x objs)
    {i : Nat} {st : Stream} (hst : s.streams[i]? = some (some st)) {j : Nat} {d : Bytes}
    (hj : x.issued[j]? = some ⟨st.section_, true, d⟩) (hdne : d ≠ []) {lg2 : Logger}
    (hr : Reachable page slabSize ⟨lg2, x.issued.set j ⟨st.section_, false, d⟩⟩) :
    ∃ P L, KillPoint page slabSize t ⟨lg2, x.issued.set j ⟨st.section_, false, d⟩⟩ P L ∧
      ((P ++ L).map Issued.data).flatten = objs.flatten ∧ (st.entryType = t → L = []) ∧
      ([] ∉ (dataOf t x).dropLast → (∃ i, s.typ i = some t) → ∀ e ∈ P, e.data ≠ []) := by
  have hty := (hi.stream i st hst).1
  have htypes : ∀ e ∈ x.issued.set j ⟨st.section_, false, d⟩, e.h.header.entryType ≠ .lastEntry := by
    intro e hm
    rcases List.mem_or_eq_of_mem_set hm with hm | rfl
    · exact hT.types e hm
    · exact hT.types ⟨st.section_, true, d⟩ (List.mem_of_getElem? hj)
  by_cases htt : st.entryType = t
  · rcases hT.ty with ⟨_, _, _, _, k4⟩ | ⟨k, stk, P, dk, gs, g, hk, hkt, hf, hP, hgs, hd, ho⟩
    · exact absurd ((typ_of (s := ⟨s.lg, s.streams⟩) hst).trans (congrArg some htt)) (k4 i)
    · have hki : k = i := hi.flat.uniqT k i t (by rw [typ_of (s := s) hk, hkt]) (by rw [typ_of hst, htt])
      subst hki
      have hsk : stk = st := by simpa using hk.symm.trans hst
      subst hsk
      have hme : (⟨stk.section_, true, d⟩ : Issued) ∈ P ++ [⟨stk.section_, true, dk⟩] := by
        rw [← hf]
        exact List.mem_filter.2 ⟨List.mem_of_getElem? hj, by simp [isOf, hty, htt]⟩
      have hnP : (⟨stk.section_, true, d⟩ : Issued) ∉ P := fun hc => by simpa using hP _ hc
      have hdd : d = dk := by
        rcases List.mem_append.1 hme with hc | hc
        · exact absurd hc hnP
        · simpa using hc
      subst hdd
      refine ⟨P ++ [⟨stk.section_, false, d⟩], [], ⟨hr, htypes, ?_, ?_, by simp⟩, ?_, fun _ => rfl, ?_⟩
      · rw [List.append_nil]
        exact filter_set_last hj (by simp [isOf, hty, htt]) (by simp [isOf, hty, htt]) hf hnP
      · intro e he
        rcases List.mem_append.1 he with he | he
        · exact hP e he
        · have : e = ⟨stk.section_, false, d⟩ := by simpa using he
          subst this; rfl
      · rw [List.append_nil, List.map_append, List.flatten_append, flatten_objs hgs, ho, hd]
        simp
      · intro htidy _ e he hc
        rcases List.mem_append.1 he with he | he
        · refine htidy ?_
          rw [dataOf, hf, List.map_append, List.map_cons, List.map_nil, List.dropLast_concat, ← hc]
          exact List.mem_map_of_mem he
        · obtain rfl : e = ⟨stk.section_, false, d⟩ := by simpa using he
          exact hdne hc
  · obtain ⟨P, L, hk, hPL, hne⟩ := tracks_point hT
    refine ⟨P, L, ⟨hr, htypes, ?_, hk.closed, hk.last⟩, hPL, fun h => absurd h htt, hne⟩
    rw [← hk.filter]
    exact filter_set_other hj (by simp [isOf, hty, htt]) (by simp [isOf, hty, htt])

theorem effects_write {x : SecSys} {j : Nat} {h : Handle} {d : Bytes} (hj : x.issued[j]? = some ⟨h, true, d⟩)
    (obj : List Bytes) : opEffects x (.write j obj) = encodeEffects h obj := by
  simp [opEffects, hj, encodeEffects]

theorem effects_close {x : SecSys} {j : Nat} {h : Handle} {d : Bytes} (hj : x.issued[j]? = some ⟨h, true, d⟩) :
    opEffects x (.close j) = closeEffects h := by
  simp [opEffects, hj, closeEffects]

/-- The operations after a write without room. -/
theorem left_renew (hz : SizesOk page slabSize) (hp256 : 256 ∣ page) (hi : StrInv page slabSize s lay live out)
    {lg1 : Logger} (hT : Tracks page slabSize t ⟨lg1, s.streams⟩ x objs)
    (hold : s.lg.oldestMapped ≤ lg1.oldestMapped)
    {i : Nat} {st : Stream} (hst : s.streams[i]? = some (some st)) {obj : List Bytes}
    (hused : st.section_.used ≠ 0) {h3 : Handle} {lg2 lg3 : Logger}
    (he2 : Logger.flushSection lg1 st.section_ = .ok lg2)
    (he3 : lg2.addSection st.entryType st.minAlloc = .ok (lg3, h3))
    {files' : List Bytes}
    (hc : KilledDuring lg1.files (closeEffects st.section_ ++ (addEffects lg2 st.entryType st.minAlloc ++
      encodeEffects h3 obj)) files')
    (ht : t ≠ .lastEntry) (ht' : t ≠ .empty) : KillLeft t ([] ∉ (dataOf t x).dropLast) s objs files' := by
  obtain ⟨j, d, hj⟩ := hT.sec i st hst
  have hjlt := (List.getElem?_eq_some_iff.1 hj).1
  obtain ⟨hty, hreq, hsize, hne1, hne2⟩ := hi.stream i st hst
  obtain ⟨layx, hx⟩ := reach_inv hz hT.reach
  have hdne : d ≠ [] := by
    rintro rfl
    exact hused (open_used hx hj).1
  have hlg : x.lg = lg1 := hT.lg
  -- the section is closed
  have r2 : x.step (.close j) = .ok ⟨lg2, x.issued.set j ⟨st.section_, false, d⟩⟩ := by
    simp only [SecSys.step, hj, hlg, he2]
  have g2 : Reachable page slabSize ⟨lg2, x.issued.set j ⟨st.section_, false, d⟩⟩ :=
    .step hT.reach (op := .close j) trivial r2
  rcases hc.append with hc | hc
  · exact left_of hz hp256 hi hT hold (op := .close j) trivial (by rw [effects_close hj, hlg]; exact hc) ht ht'
  rw [← effects_close hj, ← hlg, step_effects hx (op := .close j) trivial r2] at hc
  obtain ⟨lay2, hx2⟩ := reach_inv hz g2
  have o2 := oldest_close hx r2
  rw [hlg] at o2
  obtain ⟨P, L, hk2, hPL, hL, hne⟩ := close_point hi hT hst hj hdne g2
  have hsame : ∀ (n : Nat) (e : Issued), x.issued[n]? = some e →
      ∃ e', (x.issued.set j ⟨st.section_, false, d⟩)[n]? = some e' ∧ e'.h = e.h ∧
        (((x.issued.set j ⟨st.section_, false, d⟩).take n).filter (isOf t)).map Issued.data =
          ((x.issued.take n).filter (isOf t)).map Issued.data := by
    intro n e hn
    have hdat : (((x.issued.set j ⟨st.section_, false, d⟩).take n).filter (isOf t)).map Issued.data =
          ((x.issued.take n).filter (isOf t)).map Issued.data := by
      rw [List.take_set]
      refine filter_set_data (e := ⟨st.section_, true, d⟩) ?_ rfl rfl
      intro e2 h2
      rw [List.getElem?_take] at h2
      split at h2
      · exact Option.some.inj (h2.symm.trans hj)
      · cases h2
    by_cases hnj : j = n
    · subst hnj
      obtain rfl := Option.some.inj (hn.symm.trans hj)
      exact ⟨⟨st.section_, false, d⟩, List.getElem?_set_self hjlt, rfl, hdat⟩
    · exact ⟨e, by rw [List.getElem?_set_ne hnj]; exact hn, rfl, hdat⟩
  rcases hc.append with hc | hc
  · exact left_from hz hp256 hi hT hk2 hPL hne (Nat.le_trans hold o2) hsame
      (op := .add st.entryType st.minAlloc) hsize hc ht ht'
  -- a new section is added
  have r3 : SecSys.step ⟨lg2, x.issued.set j ⟨st.section_, false, d⟩⟩ (.add st.entryType st.minAlloc) =
      .ok ⟨lg3, x.issued.set j ⟨st.section_, false, d⟩ ++ [⟨h3, true, []⟩]⟩ := by
    simp only [SecSys.step, he3]
  have hty3 : h3.header.entryType = st.entryType := by
    obtain ⟨lg', hd, lay', hadd, _, _, _, hd3, _⟩ := inv_addSection hx2.inv hx2.nonempty (t := st.entryType)
      (req := st.minAlloc) (i := (x.issued.set j ⟨st.section_, false, d⟩).length)
      ⟨by rw [hx2.pageEq]; exact hz.page_min, hsize.min, by rw [hx2.pageEq]; exact hsize.max⟩
      (by rw [hx2.pageEq, hx2.slabEq]; exact hsize.fits) (by simp [SecSys.own])
    simp only at hadd
    rw [he3] at hadd
    cases hadd
    exact hd3
  have hfx := step_effects hx2 (op := .add st.entryType st.minAlloc) hsize r3
  have o3 := oldest_add hz.page_min hx2 hsize r3
  have hc : KilledDuring lg3.files (encodeEffects h3 obj) files' := by
    have : (addEffects lg2 st.entryType st.minAlloc).foldl Effect.apply lg2.files = lg3.files := hfx
    simp only at hc
    rwa [this] at hc
  have hlast : (x.issued.set j ⟨st.section_, false, d⟩ ++ [⟨h3, true, []⟩])[x.issued.length]? =
      some ⟨h3, true, []⟩ := by
    rw [List.getElem?_append_right (by simp)]; simp
  have hk3 : ∃ L', KillPoint page slabSize t
      ⟨lg3, x.issued.set j ⟨st.section_, false, d⟩ ++ [⟨h3, true, []⟩]⟩ P L' ∧
      ((P ++ L').map Issued.data).flatten = objs.flatten := by
    refine ⟨L ++ [(⟨h3, true, []⟩ : Issued)].filter (isOf t), ⟨.step g2 (op := .add st.entryType st.minAlloc) hsize r3,
      ?_, ?_, hk2.closed, ?_⟩, ?_⟩
    · intro e hm
      rcases List.mem_append.1 hm with hm | hm
      · exact hk2.types e hm
      · have : e = ⟨h3, true, []⟩ := by simpa using hm
        subst this
        show h3.header.entryType ≠ _
        rw [hty3]; exact hne2
    · simp only [List.filter_append]
      rw [← List.append_assoc, ← hk2.filter]
    · by_cases htt : st.entryType = t
      · rw [hL htt]; exact List.length_filter_le _ _
      · have : isOf t (⟨h3, true, []⟩ : Issued) = false := by simp [isOf, hty3, htt]
        rw [List.filter_cons_of_neg (by rw [this]; simp)]
        simpa using hk2.last
    · rw [← hPL, ← List.append_assoc, List.map_append, List.flatten_append]
      have : (([(⟨h3, true, []⟩ : Issued)].filter (isOf t)).map Issued.data).flatten = [] := by
        rw [List.filter_cons]; split <;> simp
      rw [this, List.append_nil]
  obtain ⟨L', hk3, hPL'⟩ := hk3
  refine left_from hz hp256 hi hT hk3 hPL' hne (Nat.le_trans hold (Nat.le_trans o2 o3)) ?_
    (op := .write x.issued.length obj) trivial (by rw [effects_write hlast]; exact hc) ht ht'
  intro n e hn
  obtain ⟨e', k1, k2, k3⟩ := hsame n e hn
  have hnl := (List.getElem?_eq_some_iff.1 hn).1
  refine ⟨e', ?_, k2, ?_⟩
  · simp only
    rw [List.getElem?_append_left (by rw [List.length_set]; exact hnl)]; exact k1
  · simp only
    rw [List.take_append_of_le_length (by rw [List.length_set]; omega)]; exact k3

/-- Any operation on streams. -/
theorem tracks_kill (hz : SizesOk page slabSize) (hp256 : 256 ∣ page) (hi : StrInv page slabSize s lay live out)
    (hT : Tracks page slabSize t s x objs) {op : LogOp} (hop : HistoryOk page slabSize live [op])
    (hs : s.step op = .ok s') {files' : List Bytes} (hc : KilledDuring s.lg.files (s.effects op) files')
    (ht : t ≠ .lastEntry) (ht' : t ≠ .empty) : KillLeft t ([] ∉ (dataOf t x).dropLast) s objs files' := by
  have hlg := hT.lg
  have nothing : KilledDuring s.lg.files [] files' → KillLeft t ([] ∉ (dataOf t x).dropLast) s objs files' := by
    intro h
    exact left_of hz hp256 hi (lg1 := s.lg) hT (Nat.le_refl _) (op := .close x.issued.length) trivial
      (by simpa [opEffects, hlg] using h) ht ht'
  cases op with
  | openStream u n =>
    exact left_of hz hp256 hi (lg1 := s.lg) hT (Nat.le_refl _) (op := .add u n) hop.2.2.2.1
      (by rw [hlg]; simpa [opEffects, hlg, LogSys.effects, addEffects] using hc) ht ht'
  | drop i =>
    simp only [LogSys.effects] at hc
    split at hc
    · rename_i st hst
      obtain ⟨j, d, hj⟩ := hT.sec i st hst
      exact left_of hz hp256 hi (lg1 := s.lg) hT (Nat.le_refl _) (op := .close j) trivial
        (by rw [effects_close hj, hlg]; exact hc) ht ht'
    · exact nothing hc
  | log i obj =>
    simp only [LogSys.effects] at hc
    split at hc
    · rename_i st hst
      obtain ⟨j, d, hj⟩ := hT.sec i st hst
      have hl := live_of hi i
      rw [hst] at hl
      have hfit := hop.1 st.entryType st.minAlloc (by rw [hl]; rfl)
      unfold Stream.logEffects at hc
      rcases hc.append with hc | hc
      · exact left_of hz hp256 hi (lg1 := s.lg) hT (Nat.le_refl _) (op := .write j obj) trivial
          (by rw [effects_write hj, hlg]; exact hc) ht ht'
      obtain ⟨layx, hx⟩ := reach_inv hz hT.reach
      simp only [LogSys.step, hst, Stream.log] at hs
      cases he : encodeInto s.lg.files st.section_ obj with
      | panic => simp [he] at hs
      | ok q =>
        obtain ⟨files1, h1, b⟩ := q
        have hst1 : x.step (.write j obj) = .ok ⟨{ x.lg with files := files1 },
            x.issued.set j ⟨h1, true, if b then d ++ obj.flatten else d⟩⟩ := by
          simp only [SecSys.step, hj, hlg, he]
        have hfx := step_effects hx (op := .write j obj) trivial hst1
        rw [effects_write hj, hlg] at hfx
        rw [hfx, he] at hc
        cases b with
        | true =>
          simp only at hc
          cases hc
          -- everything was stored
          refine left_of hz hp256 hi (lg1 := s.lg) hT (Nat.le_refl _) (op := .write j obj) trivial ?_ ht ht'
          rw [effects_write hj, hlg]
          have : files' = (Effect.store st.section_.slab (st.section_.off + maxHeader + st.section_.used)
              (fitChunks (st.section_.req - (maxHeader + st.section_.used)) obj).1).apply s.lg.files := by
            exact hfx.symm
          rw [this]
          exact .next .done
        | false =>
          obtain ⟨rfl, hused, _, x1, hT1, htd⟩ := tracks_fail hz hi hT hst hfit he
          rw [he] at hs
          simp only at hs hc
          cases he2 : Logger.flushSection { s.lg with files := files1 } st.section_ with
          | panic => simp [he2] at hs
          | ok lg2 =>
            simp only [he2] at hs hc
            cases he3 : lg2.addSection st.entryType st.minAlloc with
            | panic => simp [he3] at hs
            | ok q =>
              obtain ⟨lg3, h3⟩ := q
              simp only [he3] at hs hc
              exact (left_renew hz hp256 hi hT1 (Nat.le_refl _) hst hused he2 he3 hc ht ht').mono
                (fun h => (htd.2 true true (fun _ => rfl) ⟨h, fun hc => by cases hc⟩).1)
    · exact nothing hc

end
end ULog
end Verif
