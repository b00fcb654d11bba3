import Verif.Spec.UnifiedLog
import Verif.Proofs.UnifiedLogRead
/-! Histories of operations on streams. -/
namespace Verif
namespace ULog
open Bincode

theorem NonEmpty.of_shape {lay lay' : List (List Sec)} (h : NonEmpty lay)
    (hs : shape lay' = shape lay) : NonEmpty lay' := by
  intro k hk hc
  have e1 := congrArg (fun l => l[k]?) hs
  unfold shape at e1
  simp only [List.getElem?_map, hc] at e1
  simp only [Option.map_some, List.map_nil] at e1
  obtain ⟨x, hx, hx2⟩ := Option.map_eq_some_iff.1 e1.symm
  have : x = [] := by simpa using hx2
  subst this
  exact h k hk hx

/-- The sections in order, the type of each stream, and what has been logged of each type. -/
structure FlatInv (F : List Sec) (typ : Nat → Option EntryType) (out : EntryType → Bytes) : Prop where
  uniqT : ∀ i j t, typ i = some t → typ j = some t → i = j
  types : ∀ s ∈ F, s.et ≠ .empty ∧ s.et ≠ .lastEntry
  data : ∀ t, ((F.filter (·.et == t)).map Sec.data).flatten = out t
  last : ∀ i t, typ i = some t → ∃ P s, F.filter (·.et == t) = P ++ [s] ∧ s.owner = some i

def updT (typ : Nat → Option EntryType) (i : Nat) (a : Option EntryType) : Nat → Option EntryType :=
  fun j => if j = i then a else typ j

theorem flat_append {F : List Sec} {typ : Nat → Option EntryType} {out : EntryType → Bytes}
    (h : FlatInv F typ out) {i n : Nat} {t : EntryType} (h1 : t ≠ .empty) (h2 : t ≠ .lastEntry)
    (h3 : ∀ j, j ≠ i → typ j ≠ some t) :
    FlatInv (F ++ [⟨n, t, [], some i⟩]) (updT typ i (some t)) out := by
  refine ⟨?_, ?_, ?_, ?_⟩
  · intro a b u ha hb
    unfold updT at ha hb
    split at ha <;> split at hb
    · omega
    · rename_i hai hbi
      obtain rfl := Option.some.inj ha
      exact absurd hb (h3 b hbi)
    · rename_i hai hbi
      obtain rfl := Option.some.inj hb
      exact absurd ha (h3 a hai)
    · exact h.uniqT a b u ha hb
  · intro s hs
    rcases List.mem_append.1 hs with hs | hs
    · exact h.types s hs
    · have : s = ⟨n, t, [], some i⟩ := by simpa using hs
      subst this; exact ⟨h1, h2⟩
  · intro u
    rw [← h.data u]
    by_cases hu : t = u
    · simp [List.filter_append, hu]
    · simp [List.filter_append, hu]
  · intro j u hj
    unfold updT at hj
    split at hj
    · rename_i e; subst e
      obtain rfl := Option.some.inj hj
      exact ⟨F.filter (·.et == t), _, by simp [List.filter_append]; rfl, rfl⟩
    · rename_i hne
      have hu : ¬ t = u := by rintro rfl; exact h3 j hne hj
      obtain ⟨P, s, hP, hs⟩ := h.last j u hj
      exact ⟨P, s, by simp [List.filter_append, hu, hP], hs⟩

/-- The open section of a stream is the last one of its type. -/
theorem flat_split {A B : List Sec} {s : Sec} {typ : Nat → Option EntryType}
    {out : EntryType → Bytes} (h : FlatInv (A ++ s :: B) typ out)
    (hu : ((A ++ s :: B).filterMap Sec.owner).Nodup) {i : Nat} (hi : typ i = some s.et)
    (ho : s.owner = some i) : B.filter (·.et == s.et) = [] := by
  obtain ⟨P, x, hP, hx⟩ := h.last i s.et hi
  rw [List.filter_append, List.filter_cons_of_pos (by simp)] at hP
  cases hB : B.filter (·.et == s.et) with
  | nil => rfl
  | cons y l =>
    exfalso
    have hlast : x ∈ B := by
      have h1 := congrArg List.getLast? hP
      rw [hB] at h1
      rw [List.getLast?_append, List.getLast?_append] at h1
      simp at h1
      have : x ∈ y :: l := by
        rw [List.getLast?_eq_some_iff] at h1
        obtain ⟨ys, hys⟩ := h1
        rw [hys]; simp
      rw [← hB] at this
      exact (List.mem_filter.1 this).1
    rw [List.filterMap_append, List.filterMap_cons_some ho] at hu
    have := (List.pairwise_append.1 hu).2.1
    rw [List.pairwise_cons] at this
    exact this.1 i (List.mem_filterMap.2 ⟨x, hlast, hx⟩) rfl

theorem flat_write {A B : List Sec} {s : Sec} {typ : Nat → Option EntryType}
    {out : EntryType → Bytes} (h : FlatInv (A ++ s :: B) typ out)
    (hu : ((A ++ s :: B).filterMap Sec.owner).Nodup) {i : Nat} (hi : typ i = some s.et)
    (ho : s.owner = some i) (d : Bytes) :
    FlatInv (A ++ { s with data := s.data ++ d } :: B) typ
      (fun t => out t ++ if s.et = t then d else []) := by
  have hB := flat_split h hu hi ho
  refine ⟨h.uniqT, ?_, ?_, ?_⟩
  · intro x hx
    simp only [List.mem_append, List.mem_cons] at hx
    rcases hx with hx | rfl | hx
    · exact h.types x (by simp [hx])
    · exact h.types s (by simp)
    · exact h.types x (by simp [hx])
  · intro t
    have := h.data t
    by_cases ht : s.et = t
    · subst ht
      rw [List.filter_append, List.filter_cons_of_pos (by simp), hB] at this
      simp only
      rw [List.filter_append, List.filter_cons_of_pos (by simp), hB, ← this]
      simp
    · rw [List.filter_append, List.filter_cons_of_neg (by simpa using ht)] at this
      rw [List.filter_append, List.filter_cons_of_neg (by simpa using ht), ← this]
      simp [ht]
  · intro j t hj
    by_cases ht : s.et = t
    · have : j = i := h.uniqT j i t hj (ht ▸ hi)
      subst this ht
      exact ⟨A.filter (·.et == s.et), { s with data := s.data ++ d }, by
        rw [List.filter_append, List.filter_cons_of_pos (by simp), hB], ho⟩
    · obtain ⟨P, x, hP, hx⟩ := h.last j t hj
      rw [List.filter_append, List.filter_cons_of_neg (by simpa using ht)] at hP
      exact ⟨P, x, by rw [List.filter_append, List.filter_cons_of_neg (by simpa using ht)]; exact hP, hx⟩

theorem flat_close {A B : List Sec} {s : Sec} {typ : Nat → Option EntryType}
    {out : EntryType → Bytes} (h : FlatInv (A ++ s :: B) typ out) {i : Nat}
    (hi : typ i = some s.et) :
    FlatInv (A ++ { s with owner := none } :: B) (updT typ i none) out := by
  refine ⟨?_, ?_, ?_, ?_⟩
  · intro a b t ha hb
    unfold updT at ha hb
    split at ha
    · exact absurd ha (by simp)
    split at hb
    · exact absurd hb (by simp)
    exact h.uniqT a b t ha hb
  · intro x hx
    simp only [List.mem_append, List.mem_cons] at hx
    rcases hx with hx | rfl | hx
    · exact h.types x (by simp [hx])
    · exact h.types s (by simp)
    · exact h.types x (by simp [hx])
  · intro t
    rw [← h.data t]
    by_cases ht : s.et = t
    · simp [List.filter_append, ht]
    · simp [List.filter_append, ht]
  · intro j t hj
    unfold updT at hj
    split at hj
    · exact absurd hj (by simp)
    · rename_i hne
      have ht : ¬ s.et = t := by
        rintro rfl
        exact hne (h.uniqT j i _ hj hi)
      obtain ⟨P, x, hP, hx⟩ := h.last j t hj
      rw [List.filter_append, List.filter_cons_of_neg (by simpa using ht)] at hP
      exact ⟨P, x, by rw [List.filter_append, List.filter_cons_of_neg (by simpa using ht)]; exact hP, hx⟩

def LogSys.own (s : LogSys) (i : Nat) : Option Handle := (s.streams[i]?.join).map Stream.section_
def LogSys.typ (s : LogSys) (i : Nat) : Option EntryType := (s.streams[i]?.join).map Stream.entryType

structure StrInv (page slabSize : Nat) (s : LogSys) (lay : List (List Sec))
    (live : List (Option (EntryType × Nat))) (out : EntryType → Bytes) : Prop where
  inv : Inv s.lg lay s.own
  pageEq : s.lg.pageSize = page
  slabEq : s.lg.slabSize = slabSize
  nonempty : NonEmpty lay
  corr : live = s.streams.map (Option.map (fun st => (st.entryType, st.minAlloc)))
  stream : ∀ (i : Nat) st, s.streams[i]? = some (some st) →
    st.section_.header.entryType = st.entryType ∧ st.section_.req = st.minAlloc ∧
      SizeOk page slabSize st.minAlloc ∧ st.entryType ≠ .empty ∧ st.entryType ≠ .lastEntry
  flat : FlatInv lay.flatten s.typ out

theorem str_own_set {s : LogSys} {lg : Logger} {i : Nat} {x : Option Stream}
    (hi : i < s.streams.length) :
    (⟨lg, s.streams.set i x⟩ : LogSys).own = upd s.own i (x.map Stream.section_) := by
  funext j
  unfold LogSys.own upd
  simp only [List.getElem?_set]
  by_cases h : i = j
  · subst h; simp [hi]
  · simp [h, Ne.symm h]

theorem str_typ_set {s : LogSys} {lg : Logger} {i : Nat} {x : Option Stream}
    (hi : i < s.streams.length) :
    (⟨lg, s.streams.set i x⟩ : LogSys).typ = updT s.typ i (x.map Stream.entryType) := by
  funext j
  unfold LogSys.typ updT
  simp only [List.getElem?_set]
  by_cases h : i = j
  · subst h; simp [hi]
  · simp [h, Ne.symm h]

theorem str_own_append {s : LogSys} {lg : Logger} {st : Stream} :
    (⟨lg, s.streams ++ [some st]⟩ : LogSys).own = upd s.own s.streams.length (some st.section_) := by
  funext j
  unfold LogSys.own upd
  simp only [List.getElem?_append]
  by_cases h1 : j < s.streams.length
  · simp [h1, Nat.ne_of_lt h1]
  · by_cases h2 : j = s.streams.length
    · subst h2; simp
    · have h3 : j - s.streams.length ≠ 0 := by omega
      simp [h1, h2, List.getElem?_cons, h3, List.getElem?_eq_none (Nat.le_of_not_lt h1)]

theorem str_typ_append {s : LogSys} {lg : Logger} {st : Stream} :
    (⟨lg, s.streams ++ [some st]⟩ : LogSys).typ = updT s.typ s.streams.length (some st.entryType) := by
  funext j
  unfold LogSys.typ updT
  simp only [List.getElem?_append]
  by_cases h1 : j < s.streams.length
  · simp [h1, Nat.ne_of_lt h1]
  · by_cases h2 : j = s.streams.length
    · subst h2; simp
    · have h3 : j - s.streams.length ≠ 0 := by omega
      simp [h1, h2, List.getElem?_cons, h3, List.getElem?_eq_none (Nat.le_of_not_lt h1)]

/-- The contents of the sections of a type, in order. -/
def secData (F : List Sec) (t : EntryType) : List Bytes := (F.filter (·.et == t)).map Sec.data

/-- What logging an object does to the sections of the type of its stream: the last one gets it, or
it is full (hence not empty) and a new one gets it. -/
def SecLogged (before after : List Bytes) (obj : Bytes) : Prop :=
  (∃ P d, before = P ++ [d] ∧ after = P ++ [d ++ obj]) ∨
  (obj ≠ [] ∧ (∃ P d, before = P ++ [d] ∧ d ≠ []) ∧ after = before ++ [obj])

theorem secData_owner {A B : List Sec} {s : Sec} {o : Option Nat} (t : EntryType) :
    secData (A ++ { s with owner := o } :: B) t = secData (A ++ s :: B) t := by
  unfold secData
  by_cases ht : s.et = t
  · simp [List.filter_append, ht]
  · simp [List.filter_append, ht]

theorem secData_append {F : List Sec} {n : Nat} {o : Option Nat} (t u : EntryType) :
    secData (F ++ [⟨n, t, [], o⟩]) u = secData F u ++ if u = t then [[]] else [] := by
  unfold secData
  by_cases ht : t = u
  · subst ht; simp [List.filter_append]
  · simp [List.filter_append, ht, Ne.symm ht]

theorem secData_other {A B : List Sec} {s s' : Sec} {t : EntryType} (h : s.et ≠ t) (h' : s'.et ≠ t) :
    secData (A ++ s' :: B) t = secData (A ++ s :: B) t := by
  unfold secData
  simp [List.filter_append, h, h']

theorem secData_split {A B : List Sec} {s : Sec} (h : B.filter (·.et == s.et) = []) :
    secData (A ++ s :: B) s.et = secData A s.et ++ [s.data] := by
  unfold secData
  rw [List.filter_append, List.filter_cons_of_pos (by simp), h]
  simp

/-- Streams open after some operations. -/
def liveAfter : List (Option (EntryType × Nat)) → List LogOp → List (Option (EntryType × Nat))
  | live, [] => live
  | live, .openStream t n :: ops => liveAfter (live ++ [some (t, n)]) ops
  | live, .log _ _ :: ops => liveAfter live ops
  | live, .drop i :: ops => liveAfter (live.set i none) ops

theorem upd_upd (own : Nat → Option Handle) (i : Nat) (a b : Option Handle) :
    upd (upd own i a) i b = upd own i b := by
  funext j; unfold upd; split <;> rfl

theorem updT_upd (typ : Nat → Option EntryType) (i : Nat) (a b : Option EntryType) :
    updT (updT typ i a) i b = updT typ i b := by
  funext j; unfold updT; split <;> rfl

theorem updT_same (typ : Nat → Option EntryType) (i : Nat) (a : Option EntryType)
    (h : typ i = a) : updT typ i a = typ := by
  funext j; unfold updT; split
  · rename_i e; rw [e, h]
  · rfl

theorem str_open {page slabSize : Nat} {s : LogSys} {lay : List (List Sec)}
    {live : List (Option (EntryType × Nat))} {out : EntryType → Bytes} (hp : 13 < page)
    (hi : StrInv page slabSize s lay live out) {t : EntryType} {n : Nat}
    (h1 : t ≠ .empty) (h2 : t ≠ .lastEntry) (h3 : ∀ m, some (t, m) ∉ live)
    (h4 : SizeOk page slabSize n) :
    ∃ s' lay', s.step (.openStream t n) = .ok s' ∧
      StrInv page slabSize s' lay' (live ++ [some (t, n)]) out ∧
      ∀ u, secData lay'.flatten u = secData lay.flatten u ++ if u = t then [[]] else [] := by
  have hnone : s.own s.streams.length = none := by simp [LogSys.own]
  obtain ⟨lg', h, lay', e1, hi', hne', hfl, ht, hu, hr, hpg, hss, _⟩ :=
    inv_addSection (t := t) (req := n) hi.inv hi.nonempty
      (by rw [hi.pageEq]; exact ⟨hp, h4.min, h4.max⟩)
      (by rw [hi.pageEq, hi.slabEq]; exact h4.fits) hnone
  refine ⟨⟨lg', s.streams ++ [some ⟨t, h, n⟩]⟩, lay', ?_, ⟨?_, hpg.trans hi.pageEq,
    hss.trans hi.slabEq, hne', ?_, ?_, ?_⟩, fun u => by rw [hfl]; exact secData_append t u⟩
  · simp [LogSys.step, openStream, e1]
  · rw [str_own_append]; exact hi'
  · rw [hi.corr]; simp
  · intro i st hst
    rw [List.getElem?_append] at hst
    split at hst
    · exact hi.stream i st hst
    · rw [List.getElem?_singleton] at hst
      split at hst
      · obtain rfl := Option.some.inj (Option.some.inj hst)
        exact ⟨ht, hr, h4, h1, h2⟩
      · exact absurd hst (by simp)
  · rw [str_typ_append, hfl]
    refine flat_append hi.flat h1 h2 ?_
    intro j _ hj
    unfold LogSys.typ at hj
    obtain ⟨st, hst, hst2⟩ := Option.map_eq_some_iff.1 hj
    apply h3 st.minAlloc
    rw [hi.corr]
    have : s.streams[j]? = some (some st) := by
      cases hx : s.streams[j]? with
      | none => simp [hx] at hst
      | some x => rw [hx] at hst; simpa using hst
    refine List.mem_map.2 ⟨some st, List.mem_of_getElem? this, ?_⟩
    simp [hst2]

theorem typ_of {s : LogSys} {i : Nat} {st : Stream} (h : s.streams[i]? = some (some st)) :
    s.typ i = some st.entryType := by simp [LogSys.typ, h]

theorem own_of {s : LogSys} {i : Nat} {st : Stream} (h : s.streams[i]? = some (some st)) :
    s.own i = some st.section_ := by simp [LogSys.own, h]

theorem str_log {page slabSize : Nat} {s : LogSys} {lay : List (List Sec)}
    {live : List (Option (EntryType × Nat))} {out : EntryType → Bytes} (hp : 13 < page)
    (hi : StrInv page slabSize s lay live out) {i : Nat} {obj : List Bytes}
    (hfit : ∀ t n, live[i]? = some (some (t, n)) → 15 + obj.flatten.length ≤ n) :
    ∃ s' lay', s.step (.log i obj) = .ok s' ∧ StrInv page slabSize s' lay' live
      (fun t => out t ++ match live[i]? with
        | some (some (t', _)) => if t' = t then obj.flatten else []
        | _ => []) ∧
      ∀ u, (∀ m, live[i]? ≠ some (some (u, m))) ∧ secData lay'.flatten u = secData lay.flatten u ∨
        SecLogged (secData lay.flatten u) (secData lay'.flatten u) obj.flatten := by
  have hlive : live[i]? = s.streams[i]?.map (Option.map (fun st => (st.entryType, st.minAlloc))) := by
    rw [hi.corr, List.getElem?_map]
  cases hst : s.streams[i]? with
  | none =>
    refine ⟨s, lay, by simp [LogSys.step, hst], ?_⟩
    rw [hlive, hst]
    simp only [Option.map_none, List.append_nil]
    exact ⟨hi, fun u => .inl (by simp)⟩
  | some o =>
    cases o with
    | none =>
      refine ⟨s, lay, by simp [LogSys.step, hst], ?_⟩
      rw [hlive, hst]
      simp only [Option.map_some, Option.map_none, List.append_nil]
      exact ⟨hi, fun u => .inl (by simp)⟩
    | some st =>
      have hlt := (List.getElem?_eq_some_iff.1 hst).1
      rw [hst] at hlive
      simp only [Option.map_some] at hlive
      have hfit' := hfit _ _ hlive
      rw [hlive]
      simp only
      obtain ⟨hst1, hst2, hst3, hst4, hst5⟩ := hi.stream i st hst
      have htyp := typ_of hst
      -- the corr of a stream that only changed its section
      have hcorr : ∀ (lg : Logger) (h : Handle), live =
          (s.streams.set i (some { st with section_ := h })).map
            (Option.map (fun st => (st.entryType, st.minAlloc))) := by
        intro _ h
        rw [hi.corr]
        apply List.ext_getElem?
        intro j
        rw [List.getElem?_map, List.getElem?_map, List.getElem?_set]
        split
        · rename_i e; subst e
          rw [hst]; simp [hlt]
        · rfl
      have hstream : ∀ (h : Handle), h.header.entryType = st.entryType → h.req = st.minAlloc →
          ∀ (j : Nat) st', (s.streams.set i (some { st with section_ := h }))[j]? = some (some st') →
          st'.section_.header.entryType = st'.entryType ∧ st'.section_.req = st'.minAlloc ∧
            SizeOk page slabSize st'.minAlloc ∧ st'.entryType ≠ .empty ∧ st'.entryType ≠ .lastEntry := by
        intro h he1 he2 j st' hj
        rcases getElem?_set_cases hj with ⟨_, e, _⟩ | ⟨_, hj⟩
        · obtain rfl := Option.some.inj e
          exact ⟨he1, he2, hst3, hst4, hst5⟩
        · exact hi.stream j st' hj
      have hset : ∀ (lg : Logger) (h : Handle),
          (⟨lg, s.streams.set i (some { st with section_ := h })⟩ : LogSys).typ = s.typ := by
        intro lg h
        rw [str_typ_set hlt]
        exact updT_same _ _ _ htyp
      obtain ⟨files', h', b, lay', A, x, B, d, h1, hi', hA, hB, ho, het, hu, hrq, e1, e2, e3, e4,
          e5, hb1, hb2, hb43', hsh⟩ := inv_encodeInto hi.inv (own_of hst) obj
      rw [hst1] at het
      have huniq := hi.inv.uniq
      have hflat := hi.flat
      rw [hA] at huniq hflat
      have hw := flat_write hflat huniq (het ▸ htyp) ho d
      have hBx := flat_split hflat huniq (het ▸ htyp) ho
      have hsec : secData lay.flatten st.entryType = secData A st.entryType ++ [x.data] := by
        rw [hA, ← het]; exact secData_split hBx
      have hsec' : secData lay'.flatten st.entryType = secData A st.entryType ++ [x.data ++ d] := by
        rw [hB, ← het]; exact secData_split (s := { x with data := x.data ++ d }) hBx
      have hoth : ∀ u, u ≠ st.entryType → secData lay'.flatten u = secData lay.flatten u := by
        intro u hu
        rw [hA, hB]
        exact secData_other (by rw [het]; exact Ne.symm hu) (by simp only [het]; exact Ne.symm hu)
      rw [← hB] at hw
      cases b with
      | true =>
        rw [hb1 rfl] at hsec'
        rw [hb1 rfl, het] at hw
        refine ⟨⟨{ s.lg with files := files' }, s.streams.set i (some { st with section_ := h' })⟩,
          lay', ?_, ⟨?_, hi.pageEq, hi.slabEq, hi.nonempty.of_shape hsh, hcorr s.lg h',
          hstream h' (by rw [e1]; exact hst1) (by rw [e4]; exact hst2), ?_⟩, ?_⟩
        · simp [LogSys.step, hst, Stream.log, h1]
        · rw [str_own_set hlt]; exact hi'
        · rw [hset]; exact hw
        · intro u
          by_cases hu' : u = st.entryType
          · subst hu'; exact .inr (.inl ⟨_, _, hsec, hsec'⟩)
          · exact .inl ⟨by simp [Ne.symm hu'], hoth u hu'⟩
      | false =>
        have hfull : ¬ (15 + st.section_.used + obj.flatten.length ≤ st.section_.req) :=
          fun hc => absurd (hb43' hc) (by simp)
        have hxne : x.data ≠ [] := by
          intro hc
          rw [hu, hc, hst2] at hfull
          exact hfull (by simpa using hfit')
        have hone : obj.flatten ≠ [] := by
          intro hc
          have hroom : 15 + st.section_.used ≤ st.section_.req := by
            obtain ⟨pre, s1, post, w⟩ := hi.inv.owns i _ (own_of hst)
            obtain ⟨file, hf⟩ := hi.inv.lookup w.at_
            have := ((secsOk_append _ _ _ _ _).1 (hi.inv.secs _ _ _ hf w.at_)).2.1.room
            rw [w.req, w.used]; exact this
          rw [hc] at hfull
          simp at hfull
          omega
        rw [hb2 rfl, List.append_nil, ← hsec] at hsec'
        rw [hb2 rfl] at hw e5
        have hhe : h' = st.section_ := by
          cases h'; cases hsec : st.section_
          rw [hsec] at e1 e2 e3 e4 e5
          simp at e1 e2 e3 e4 e5
          subst e1 e2 e3 e4 e5; rfl
        -- close the full section
        have hown1 : upd s.own i (some h') i = some h' := by simp [upd]
        obtain ⟨sl, sl', file', hsl, hsuf, hfs, hs1, _, _, _, _, lay2, A2, x2, B2, hi2, hA2, hB2, ho2,
          het2, hrq2, hsh2⟩ := inv_flushSection hi' hown1
        rw [hhe, hst1] at het2
        rw [hA2] at hw
        have hc := flat_close hw (i := i) (by rw [het2]; exact htyp)
        have hsec2 : ∀ u, secData lay2.flatten u = secData lay'.flatten u := by
          intro u; rw [hA2, hB2]; exact secData_owner u
        rw [← hB2] at hc
        have hne2 := (hi.nonempty.of_shape hsh).of_shape hsh2
        have hpg2 : (Logger.replace { s.lg with files := files' } h'.slab sl' file').pageSize = page :=
          hi.pageEq
        have hss2 : (Logger.replace { s.lg with files := files' } h'.slab sl' file').slabSize = slabSize :=
          hi.slabEq
        generalize Logger.replace { s.lg with files := files' } h'.slab sl' file' = lg2 at *
        -- a new section
        obtain ⟨lg3, h3, lay3, e31, hi3, hne3, hfl3, ht3, hu3, hr3, hpg3, hss3, _⟩ :=
          inv_addSection (t := st.entryType) (req := st.minAlloc) (i := i) hi2 hne2
            (by rw [hpg2]; exact ⟨hp, hst3.min, hst3.max⟩)
            (by rw [hpg2, hss2]; exact hst3.fits) (by simp [upd])
        have ha := flat_append hc (i := i) (n := st.minAlloc) hst4 hst5 (by
          intro j hj hc'
          unfold updT at hc'
          rw [if_neg hj] at hc'
          exact hj (hi.flat.uniqT j i _ hc' htyp))
        rw [← hfl3] at ha
        -- write again
        have hown3 : upd (upd (upd s.own i (some h')) i none) i (some h3) i = some h3 := by simp [upd]
        obtain ⟨files4, h4, b4, lay4, A4, x4, B4, d4, h41, hi4, hA4, hB4, ho4, het4, hu4, hrq4, f1, f2,
          f3, f4, f5, hb41, _, hb43, hsh4⟩ := inv_encodeInto hi3 hown3 obj
        have hb4 : b4 = true := hb43 (by rw [hr3, hu3]; omega)
        subst hb4
        have huniq3 := hi3.uniq
        rw [hA4] at ha huniq3
        rw [ht3] at het4
        have hw4 := flat_write ha huniq3 (i := i) (by rw [het4]; simp [updT]) ho4 d4
        have hB4x := flat_split ha huniq3 (i := i) (by rw [het4]; simp [updT]) ho4
        have hsec3 : secData lay3.flatten st.entryType = secData lay.flatten st.entryType ++ [[]] := by
          rw [hfl3, secData_append, hsec2, hsec']; simp
        have hsec4 : secData lay4.flatten st.entryType =
            secData lay.flatten st.entryType ++ [obj.flatten] := by
          have h5 : secData (A4 ++ x4 :: B4) st.entryType = secData A4 st.entryType ++ [x4.data] := by
            rw [← het4]; exact secData_split hB4x
          have h6 : secData (A4 ++ { x4 with data := x4.data ++ d4 } :: B4) st.entryType =
              secData A4 st.entryType ++ [x4.data ++ d4] := by
            rw [← het4]; exact secData_split (s := { x4 with data := x4.data ++ d4 }) hB4x
          rw [← hA4, hsec3] at h5
          obtain ⟨h7, h8⟩ := List.append_inj' h5 rfl
          have h8 : x4.data = [] := by simpa using h8.symm
          rw [hB4, h6, ← h7, h8, hb41 rfl]; rfl
        have hoth4 : ∀ u, u ≠ st.entryType → secData lay4.flatten u = secData lay.flatten u := by
          intro u hu
          have : secData lay3.flatten u = secData lay.flatten u := by
            rw [hfl3, secData_append, hsec2, hoth u hu, if_neg hu, List.append_nil]
          rw [← this, hA4, hB4]
          exact secData_other (by rw [het4]; exact Ne.symm hu) (by simp only [het4]; exact Ne.symm hu)
        rw [← hB4, hb41 rfl, het4] at hw4
        rw [upd_upd, upd_upd, upd_upd] at hi4
        rw [updT_upd, updT_same _ _ _ htyp] at hw4
        refine ⟨⟨{ lg3 with files := files4 }, s.streams.set i (some { st with section_ := h4 })⟩,
          lay4, ?_, ⟨?_, hpg3.trans hpg2, hss3.trans hss2, hne3.of_shape hsh4, hcorr lg3 h4,
          hstream h4 (by rw [f1]; exact ht3) (by rw [f4]; exact hr3), ?_⟩, ?_⟩
        · simp [LogSys.step, hst, Stream.log, h1, hfs, e31, h41]
        · rw [str_own_set hlt]; exact hi4
        · rw [hset]
          simp only [ite_self, List.append_nil] at hw4
          exact hw4
        · intro u
          by_cases hu' : u = st.entryType
          · subst hu'; exact .inr (.inr ⟨hone, ⟨_, _, hsec, hxne⟩, hsec4⟩)
          · exact .inl ⟨by simp [Ne.symm hu'], hoth4 u hu'⟩

theorem str_drop {page slabSize : Nat} {s : LogSys} {lay : List (List Sec)}
    {live : List (Option (EntryType × Nat))} {out : EntryType → Bytes}
    (hi : StrInv page slabSize s lay live out) (i : Nat) :
    ∃ s' lay', s.step (.drop i) = .ok s' ∧ StrInv page slabSize s' lay' (live.set i none) out ∧
      s'.streams = s.streams.set i none ∧
      ∀ u, secData lay'.flatten u = secData lay.flatten u := by
  have hcorr : live.set i none = (s.streams.set i none).map
      (Option.map (fun st => (st.entryType, st.minAlloc))) := by
    rw [hi.corr, List.map_set]; rfl
  have hstream : ∀ (j : Nat) st, (s.streams.set i none)[j]? = some (some st) →
      s.streams[j]? = some (some st) := by
    intro j st hj
    rcases getElem?_set_cases hj with ⟨_, e, _⟩ | ⟨_, hj⟩
    · exact absurd e (by simp)
    · exact hj
  by_cases hst : ∃ st, s.streams[i]? = some (some st)
  · obtain ⟨st, hst⟩ := hst
    have hlt := (List.getElem?_eq_some_iff.1 hst).1
    obtain ⟨sl, sl', file', hsl, hsuf, hfs, hs1, _, _, _, _, lay2, A2, x2, B2, hi2, hA2, hB2, ho2,
      het2, hrq2, hsh2⟩ := inv_flushSection hi.inv (own_of hst)
    rw [(hi.stream i st hst).1] at het2
    have hflat := hi.flat
    rw [hA2] at hflat
    have hc := flat_close hflat (i := i) (by rw [het2]; exact typ_of hst)
    rw [← hB2] at hc
    refine ⟨⟨s.lg.replace st.section_.slab sl' file', s.streams.set i none⟩, lay2, ?_,
      ⟨?_, hi.pageEq, hi.slabEq, hi.nonempty.of_shape hsh2, hcorr,
        fun j st h => hi.stream j st (hstream j st h), ?_⟩, rfl,
      fun u => by rw [hA2, hB2]; exact secData_owner u⟩
    · simp [LogSys.step, hst, Stream.drop, hfs]
    · rw [str_own_set hlt]; exact hi2
    · rw [str_typ_set hlt]; exact hc
  · have hsame : s.streams.set i none = s.streams := by
      apply List.ext_getElem?
      intro j
      rw [List.getElem?_set]
      split
      · rename_i e; subst e
        cases hx : s.streams[i]? with
        | none =>
          have := List.getElem?_eq_none_iff.1 hx
          rw [if_neg (by omega)]
        | some o =>
          cases o with
          | none => rw [if_pos (List.getElem?_eq_some_iff.1 hx).1]
          | some st => exact absurd ⟨st, hx⟩ hst
      · rfl
    refine ⟨s, lay, ?_, ⟨hi.inv, hi.pageEq, hi.slabEq, hi.nonempty, by rw [hcorr, hsame], hi.stream,
      hi.flat⟩, hsame.symm, fun _ => rfl⟩
    cases hx : s.streams[i]? with
    | none => simp [LogSys.step, hx]
    | some o =>
      cases o with
      | none => simp [LogSys.step, hx]
      | some st => exact absurd ⟨st, hx⟩ hst

/-- At most one section, or none empty. -/
def Filled (l : List Bytes) : Prop := l.length ≤ 1 ∨ [] ∉ l

theorem Filled.emptyLast {l : List Bytes} (h : Filled l) : EmptyLast l := by
  rcases h with h | h
  · match l, h with
    | [], _ => trivial
    | [s], _ => exact ⟨fun _ => rfl, trivial⟩
  · induction l with
    | nil => trivial
    | cons s l ih =>
      simp only [List.mem_cons, not_or] at h
      exact ⟨fun hs => absurd hs.symm h.1, ih h.2⟩

theorem Filled.logged {a b : List Bytes} {obj : Bytes} (h : Filled a) (hs : SecLogged a b obj) :
    Filled b := by
  rcases hs with ⟨P, d, rfl, rfl⟩ | ⟨h1, ⟨P, d, rfl, h2⟩, rfl⟩
  · rcases h with h | h
    · left; simpa using h
    · right
      simp only [List.mem_append, List.mem_singleton, not_or] at h ⊢
      exact ⟨h.1, fun hc => h.2 (List.append_eq_nil_iff.1 hc.symm).1.symm⟩
  · right
    simp only [List.mem_append, List.mem_singleton, not_or]
    refine ⟨⟨?_, Ne.symm h2⟩, Ne.symm h1⟩
    rcases h with h | h
    · have : P = [] := by simpa using h
      subst this; simp
    · exact fun hc => h (by simp [hc])

/-- Only the last section may be empty, and only if nothing was logged on its stream. -/
def Tidy (idle : Bool) (l : List Bytes) : Prop := [] ∉ l.dropLast ∧ (idle = false → [] ∉ l)

theorem Tidy.emptyLast {idle : Bool} {l : List Bytes} (h : Tidy idle l) : EmptyLast l := by
  replace h := h.1
  induction l with
  | nil => trivial
  | cons s l ih =>
    cases l with
    | nil => exact ⟨fun _ => rfl, trivial⟩
    | cons s' l =>
      rw [List.dropLast_cons_of_ne_nil (by simp), List.mem_cons, not_or] at h
      exact ⟨fun hs => absurd hs.symm h.1, ih h.2⟩

theorem Tidy.opened {l : List Bytes} (h : Tidy false l) : Tidy true (l ++ [[]]) :=
  ⟨by rw [List.dropLast_concat]; exact h.2 rfl, fun hc => by cases hc⟩

theorem Tidy.logged {idle idle' : Bool} {a b : List Bytes} {obj : Bytes} (h : Tidy idle a) (hs : SecLogged a b obj)
    (hi : obj = [] → idle' = idle) : Tidy idle' b := by
  have key : obj ≠ [] → [] ∉ b := by
    intro ho
    rcases hs with ⟨P, d, rfl, rfl⟩ | ⟨h1, ⟨P, d, rfl, h2⟩, rfl⟩
    · have h := h.1
      rw [List.dropLast_concat] at h
      simp only [List.mem_append, List.mem_singleton, not_or]
      exact ⟨h, fun hc => ho (List.append_eq_nil_iff.1 hc.symm).2⟩
    · have h := h.1
      rw [List.dropLast_concat] at h
      simp only [List.mem_append, List.mem_singleton, not_or]
      exact ⟨⟨h, Ne.symm h2⟩, Ne.symm h1⟩
  by_cases ho : obj = []
  · subst ho
    rcases hs with ⟨P, d, rfl, rfl⟩ | ⟨h1, _⟩
    · rw [List.append_nil, hi rfl]; exact h
    · exact absurd rfl h1
  · exact ⟨fun hc => key ho (List.dropLast_subset _ hc), fun _ => key ho⟩

theorem str_steps {page slabSize : Nat} (hp : 13 < page) {ops : List LogOp} {s : LogSys}
    {lay : List (List Sec)} {live : List (Option (EntryType × Nat))} {out : EntryType → Bytes}
    (hi : StrInv page slabSize s lay live out) (hops : HistoryOk page slabSize live ops) :
    ∃ s' lay' live', s.steps ops = .ok s' ∧
      StrInv page slabSize s' lay' live' (fun t => out t ++ logged t live ops) ∧
      (∀ t, NeverDropped t live ops →
        (secData lay.flatten t = [] ∨ ∃ m, some (t, m) ∈ live) →
        Filled (secData lay.flatten t) → Filled (secData lay'.flatten t)) ∧
      ∀ t idle, UsedFirst t idle live ops → Tidy idle (secData lay.flatten t) →
        EmptyLast (secData lay'.flatten t) := by
  induction ops generalizing s lay live out with
  | nil => exact ⟨s, lay, live, rfl, by simpa [logged] using hi, fun _ _ _ h => h, fun _ _ _ h => h.emptyLast⟩
  | cons op ops ih =>
    cases op with
    | openStream t n =>
      obtain ⟨h1, h2, h3, h4, h5⟩ := hops
      obtain ⟨s1, lay1, e1, hi1, hd1⟩ := str_open hp hi h1 h2 h3 h4
      obtain ⟨s2, lay2, live2, e2, hi2, hd2, ht2⟩ := ih hi1 h5
      refine ⟨s2, lay2, live2, by simp only [LogSys.steps, e1, e2], by simpa only [logged] using hi2, ?_, ?_⟩
      rotate_left
      · intro u idle hu hf
        have hd := hd1 u
        refine ht2 u _ hu.2 ?_
        by_cases hut : u = t
        · rw [hd, if_pos hut, beq_iff_eq.2 hut.symm, Bool.or_true]
          have hf' := hf
          rw [hu.1 hut.symm] at hf'
          exact hf'.opened
        · rw [hd, if_neg hut, List.append_nil, show (t == u) = false from beq_eq_false_iff_ne.2 (Ne.symm hut),
            Bool.or_false]
          exact hf
      intro u hu hpre hf
      have hd := hd1 u
      refine hd2 u hu ?_ ?_
      · by_cases hut : u = t
        · right; exact ⟨n, by simp [hut]⟩
        · rw [if_neg hut, List.append_nil] at hd
          rw [hd]
          rcases hpre with h | ⟨m, h⟩
          · exact .inl h
          · exact .inr ⟨m, by simp [h]⟩
      · by_cases hut : u = t
        · rcases hpre with h | ⟨m, h⟩
          · rw [hd, h]; left; simp [hut]
          · exact absurd (hut ▸ h) (h3 m)
        · rw [if_neg hut, List.append_nil] at hd
          rw [hd]; exact hf
    | log i obj =>
      obtain ⟨h1, h2⟩ := hops
      obtain ⟨s1, lay1, e1, hi1, hd1⟩ := str_log hp hi h1
      obtain ⟨s2, lay2, live2, e2, hi2, hd2, ht2⟩ := ih hi1 h2
      refine ⟨s2, lay2, live2, by simp only [LogSys.steps, e1, e2], ?_, ?_, ?_⟩
      rotate_left 2
      · intro u idle hu hf
        refine ht2 u _ hu ?_
        rcases hd1 u with ⟨hne, h⟩ | h
        · have : logged u live [.log i obj] = [] := by
            simp only [logged, List.append_nil]
            split
            · rename_i t' m hm
              rw [if_neg (fun hc => hne m (by rw [hm, hc]))]
            · rfl
          rw [h, this, List.isEmpty_nil, Bool.and_true]
          exact hf
        · refine hf.logged h fun ho => ?_
          have : logged u live [.log i obj] = [] := by
            simp only [logged, List.append_nil]
            split
            · rw [ho, ite_self]
            · rfl
          rw [this, List.isEmpty_nil, Bool.and_true]
      · simp only [List.append_assoc] at hi2
        simp only [logged]
        exact hi2
      · intro u hu hpre hf
        rcases hd1 u with ⟨_, h⟩ | h
        · exact hd2 u hu (by rw [h]; exact hpre) (by rw [h]; exact hf)
        · refine hd2 u hu (.inr ?_) (hf.logged h)
          rcases hpre with h' | h'
          · rcases h with ⟨P, d, h, _⟩ | ⟨_, ⟨P, d, h, _⟩, _⟩ <;> simp [h] at h'
          · exact h'
    | drop i =>
      obtain ⟨s1, lay1, e1, hi1, _, hd1⟩ := str_drop hi i
      obtain ⟨s2, lay2, live2, e2, hi2, hd2, ht2⟩ := ih hi1 hops
      refine ⟨s2, lay2, live2, by simp only [LogSys.steps, e1, e2], by simpa only [logged] using hi2, ?_,
        fun u idle hu hf => ht2 u idle hu (by rw [hd1]; exact hf)⟩
      intro u hu hpre hf
      refine hd2 u hu.2 ?_ (by rw [hd1]; exact hf)
      rw [hd1]
      rcases hpre with h | ⟨m, h⟩
      · exact .inl h
      · right
        obtain ⟨j, hj⟩ := List.mem_iff_getElem?.1 h
        refine ⟨m, List.mem_iff_getElem?.2 ⟨j, ?_⟩⟩
        rw [List.getElem?_set_ne, hj]
        rintro rfl
        exact hu.1 m hj

theorem str_drops {page slabSize : Nat} {l : List Nat} {s : LogSys}
    {lay : List (List Sec)} {live : List (Option (EntryType × Nat))} {out : EntryType → Bytes}
    (hi : StrInv page slabSize s lay live out) :
    ∃ s' lay' live', s.steps (l.map .drop) = .ok s' ∧ StrInv page slabSize s' lay' live' out ∧
      s'.streams.length = s.streams.length ∧
      (∀ u, secData lay'.flatten u = secData lay.flatten u) ∧
      ∀ (j : Nat) st, s'.streams[j]? = some (some st) → s.streams[j]? = some (some st) ∧ j ∉ l := by
  induction l generalizing s lay live with
  | nil => exact ⟨s, lay, live, rfl, hi, rfl, fun _ => rfl, fun j st h => ⟨h, by simp⟩⟩
  | cons i l ih =>
    obtain ⟨s1, lay1, e1, hi1, hs1, hd1⟩ := str_drop hi i
    obtain ⟨s2, lay2, live2, e2, hi2, h2, hd2, h3⟩ := ih hi1
    refine ⟨s2, lay2, live2, by simp only [List.map_cons, LogSys.steps, e1, e2], hi2, ?_, ?_, ?_⟩
    · rw [h2, hs1, List.length_set]
    · intro u; rw [hd2, hd1]
    · intro j st hj
      obtain ⟨h4, h5⟩ := h3 j st hj
      rw [hs1] at h4
      rcases getElem?_set_cases h4 with ⟨_, e, _⟩ | ⟨hne, h4⟩
      · exact absurd e (by simp)
      · exact ⟨h4, by simp [hne, h5]⟩

/-- A whole history: the files hold, in order, what was logged.  Unless a stream of the type was
dropped, there is one section or no empty one. -/
theorem writeLog_spec {page slabSize : Nat} (hz : SizesOk page slabSize) {ops : List LogOp}
    (hops : HistoryOk page slabSize [] ops) :
    ∃ files, writeLog slabSize page ops = .ok files ∧
      ∀ t, ∃ secs, readLog files t = .ok secs ∧ secs.flatten = logged t [] ops ∧
        (NeverDropped t [] ops → Filled secs) ∧ (UsedFirst t false [] ops → EmptyLast secs) := by
  have hp := hz.page_min
  have hal := align_le (page := page) (by omega) 80
  have hsl := hz.slab
  obtain ⟨lg, e1, hi1, hpg, hss⟩ := inv_new (slabSize := slabSize) (page := page) (by omega) (by omega)
  have hi : StrInv page slabSize ⟨lg, []⟩ [[]] [] (fun _ => []) := by
    refine ⟨?_, hpg, hss, ?_, rfl, by simp, ?_⟩
    · have : (⟨lg, []⟩ : LogSys).own = fun _ => none := by funext j; simp [LogSys.own]
      rw [this]; exact hi1
    · intro k hk hc
      have := (List.getElem?_eq_some_iff.1 hc).1
      simp at this; omega
    · refine ⟨?_, by simp, by simp, ?_⟩
      · intro i j t h; simp [LogSys.typ] at h
      · intro i t h; simp [LogSys.typ] at h
  obtain ⟨s2, lay2, live2, e2, hi2, hd2, ht2⟩ := str_steps hp hi hops
  obtain ⟨s3, lay3, live3, e3, hi3, h31, hd3, h32⟩ := str_drops (l := List.range s2.streams.length) hi2
  have hnone : ∀ i, s3.own i = none := by
    intro i
    unfold LogSys.own
    cases hx : s3.streams[i]? with
    | none => rfl
    | some o =>
      cases o with
      | none => rfl
      | some st =>
        obtain ⟨h1, h2⟩ := h32 i st hx
        have := (List.getElem?_eq_some_iff.1 h1).1
        exact absurd (List.mem_range.2 this) h2
  have hmx := hz.page_max
  have h80 : align page 80 < 4294967296 := by
    have : align page 80 ≤ 80 + page - 1 := Nat.div_mul_le_self _ _
    omega
  obtain ⟨files, lay4, e4, hh, hfl, _⟩ := inv_close hi3.inv hi3.nonempty
    (by rw [hi3.pageEq]; exact hmx) hnone
    (by rw [hi3.pageEq]; exact ⟨hp, by omega, h80⟩)
    (by rw [hi3.pageEq, hi3.slabEq]; exact hsl)
  refine ⟨files, ?_, ?_⟩
  · unfold writeLog
    rw [e1]
    simp only [e2]
    rw [e3]
    exact e4
  · intro t
    have hsec : (lay3.flatten.filter (·.et == t)).map Sec.content = secData lay3.flatten t := by
      unfold secData
      apply List.map_congr_left
      intro x hx
      have hm := (List.mem_filter.1 hx).1
      have hxo : x.owner = none := by
        cases hxo : x.owner with
        | none => rfl
        | some j =>
          obtain ⟨g, hg⟩ := hi3.inv.own_conv x hm j hxo
          rw [hnone] at hg; exact absurd hg (by simp)
      unfold Sec.content
      simp [hxo, (hi3.flat.types x hm).1]
    refine ⟨_, readLog_spec hh (t := t) hfl (fun s hs => (hi3.flat.types s hs).2) rfl, ?_, ?_, ?_⟩
    · have hd := hi3.flat.data t
      simp only [List.nil_append] at hd
      rw [hsec, ← hd]; rfl
    · intro hnd
      rw [hsec, hd3]
      exact hd2 t hnd (.inl (by simp [secData])) (.inl (by simp [secData]))
    · intro hu
      rw [hsec, hd3]
      exact ht2 t false hu (by simp [secData, Tidy])

end ULog
end Verif
