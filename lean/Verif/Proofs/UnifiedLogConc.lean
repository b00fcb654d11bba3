import Verif.Proofs.CrashExport
import Verif.Spec.UnifiedLogConc
/-! Interleavings of the actions of several threads on a log. -/
namespace Verif
namespace ULog
open Bincode

section
variable {page slabSize : Nat} {s : LogSys} {lay : List (List Sec)}
  {live : List (Option (EntryType × Nat))} {out : EntryType → Bytes}

theorem str_corr_set (hi : StrInv page slabSize s lay live out) {i : Nat} {st : Stream}
    (hst : s.streams[i]? = some (some st)) (h : Handle) :
    live = (s.streams.set i (some { st with section_ := h })).map
      (Option.map (fun st => (st.entryType, st.minAlloc))) := by
  have hlt := (List.getElem?_eq_some_iff.1 hst).1
  rw [hi.corr]
  apply List.ext_getElem?
  intro j
  rw [List.getElem?_map, List.getElem?_map, List.getElem?_set]
  split
  · rename_i e; subst e
    rw [hst]; simp [hlt]
  · rfl

theorem str_stream_set (hi : StrInv page slabSize s lay live out) {i : Nat} {st : Stream}
    (hst : s.streams[i]? = some (some st)) {h : Handle} (he1 : h.header.entryType = st.entryType)
    (he2 : h.req = st.minAlloc) :
    ∀ (j : Nat) st', (s.streams.set i (some { st with section_ := h }))[j]? = some (some st') →
    st'.section_.header.entryType = st'.entryType ∧ st'.section_.req = st'.minAlloc ∧
      SizeOk page slabSize st'.minAlloc ∧ st'.entryType ≠ .empty ∧ st'.entryType ≠ .lastEntry := by
  obtain ⟨_, _, hst3, hst4, hst5⟩ := hi.stream i st hst
  intro j st' hj
  rcases getElem?_set_cases hj with ⟨_, e, _⟩ | ⟨_, hj⟩
  · obtain rfl := Option.some.inj e
    exact ⟨he1, he2, hst3, hst4, hst5⟩
  · exact hi.stream j st' hj

/-- The part of `log` before the lock. -/
theorem str_try (hi : StrInv page slabSize s lay live out) {i : Nat} {st : Stream}
    (hst : s.streams[i]? = some (some st)) {obj : List Bytes} (hfit : 15 + obj.flatten.length ≤ st.minAlloc) :
    ∃ lg st' b lay', st.try_ s.lg obj = .ok (lg, st', b) ∧ st'.entryType = st.entryType ∧
      st'.minAlloc = st.minAlloc ∧
      StrInv page slabSize ⟨lg, s.streams.set i (some st')⟩ lay' live
        (fun t => out t ++ if st.entryType = t ∧ b = true then obj.flatten else []) ∧
      (∀ u, u ≠ st.entryType → secData lay'.flatten u = secData lay.flatten u) ∧
      (b = true → SecLogged (secData lay.flatten st.entryType) (secData lay'.flatten st.entryType) obj.flatten) ∧
      (b = false → secData lay'.flatten st.entryType = secData lay.flatten st.entryType ∧ obj.flatten ≠ [] ∧
        ∃ P d, secData lay.flatten st.entryType = P ++ [d] ∧ d ≠ []) := by
  have hlt := (List.getElem?_eq_some_iff.1 hst).1
  obtain ⟨hst1, hst2, hst3, hst4, hst5⟩ := hi.stream i st hst
  have htyp := typ_of hst
  obtain ⟨files', h', b, lay', A, x, B, d, h1, hi', hA, hB, ho, het, hu, hrq, e1, e2, e3, e4,
      e5, hb1, hb2, hb43', hsh⟩ := inv_encodeInto hi.inv (own_of hst) obj
  rw [hst1] at het
  have huniq := hi.inv.uniq
  have hflat := hi.flat
  rw [hA] at huniq hflat
  have hw := flat_write hflat huniq (het ▸ htyp) ho d
  have hBx := flat_split hflat huniq (het ▸ htyp) ho
  have hsec : secData lay.flatten st.entryType = secData A st.entryType ++ [x.data] := by
    rw [hA, ← het]; exact secData_split hBx
  have hsec' : secData lay'.flatten st.entryType = secData A st.entryType ++ [x.data ++ d] := by
    rw [hB, ← het]; exact secData_split (s := { x with data := x.data ++ d }) hBx
  have hoth : ∀ u, u ≠ st.entryType → secData lay'.flatten u = secData lay.flatten u := by
    intro u hu
    rw [hA, hB]
    exact secData_other (by rw [het]; exact Ne.symm hu) (by simp only [het]; exact Ne.symm hu)
  rw [← hB, het] at hw
  refine ⟨{ s.lg with files := files' }, { st with section_ := h' }, b, lay', ?_, rfl, rfl,
    ⟨?_, hi.pageEq, hi.slabEq, hi.nonempty.of_shape hsh, str_corr_set hi hst h',
      str_stream_set hi hst (by rw [e1]; exact hst1) (by rw [e4]; exact hst2), ?_⟩, hoth, ?_, ?_⟩
  · simp [Stream.try_, h1]
  · rw [str_own_set hlt]; exact hi'
  · rw [str_typ_set hlt, Option.map_some, updT_same _ _ _ htyp]
    cases b with
    | true => rw [hb1 rfl] at hw; simpa using hw
    | false => rw [hb2 rfl] at hw; simpa using hw
  · intro hb
    rw [hb1 hb] at hsec'
    exact .inl ⟨_, _, hsec, hsec'⟩
  · intro hb
    have hfull : ¬ (15 + st.section_.used + obj.flatten.length ≤ st.section_.req) :=
      fun hc => absurd (hb43' hc) (by simp [hb])
    rw [hb2 hb, List.append_nil, ← hsec] at hsec'
    refine ⟨hsec', ?_, _, _, hsec, ?_⟩
    · intro hc
      have hroom : 15 + st.section_.used ≤ st.section_.req := by
        obtain ⟨pre, s1, post, w⟩ := hi.inv.owns i _ (own_of hst)
        obtain ⟨file, hf⟩ := hi.inv.lookup w.at_
        have := ((secsOk_append _ _ _ _ _).1 (hi.inv.secs _ _ _ hf w.at_)).2.1.room
        rw [w.req, w.used]; exact this
      rw [hc] at hfull
      simp at hfull
      omega
    · intro hc
      rw [hu, hc, hst2] at hfull
      exact hfull (by simpa using hfit)

/-- The part of `log` under the lock. -/
theorem str_retry (hp : 13 < page) (hi : StrInv page slabSize s lay live out) {i : Nat} {st : Stream}
    (hst : s.streams[i]? = some (some st)) {obj : List Bytes} (hfit : 15 + obj.flatten.length ≤ st.minAlloc) :
    ∃ lg st' lay', st.retry s.lg obj = .ok (lg, st') ∧ st'.entryType = st.entryType ∧
      st'.minAlloc = st.minAlloc ∧
      StrInv page slabSize ⟨lg, s.streams.set i (some st')⟩ lay' live
        (fun t => out t ++ if st.entryType = t then obj.flatten else []) ∧
      (∀ u, u ≠ st.entryType → secData lay'.flatten u = secData lay.flatten u) ∧
      secData lay'.flatten st.entryType = secData lay.flatten st.entryType ++ [obj.flatten] := by
  have hlt := (List.getElem?_eq_some_iff.1 hst).1
  obtain ⟨hst1, hst2, hst3, hst4, hst5⟩ := hi.stream i st hst
  have htyp := typ_of hst
  -- close the full section
  obtain ⟨sl, sl', file', hsl, hsuf, hfs, hs1, _, _, _, _, lay2, A2, x2, B2, hi2, hA2, hB2, ho2,
    het2, hrq2, hsh2⟩ := inv_flushSection hi.inv (own_of hst)
  rw [hst1] at het2
  have hw := hi.flat
  rw [hA2] at hw
  have hc := flat_close hw (i := i) (by rw [het2]; exact htyp)
  have hsec2 : ∀ u, secData lay2.flatten u = secData lay.flatten u := by
    intro u; rw [hA2, hB2]; exact secData_owner u
  rw [← hB2] at hc
  have hne2 := hi.nonempty.of_shape hsh2
  have hpg2 : (Logger.replace s.lg st.section_.slab sl' file').pageSize = page := hi.pageEq
  have hss2 : (Logger.replace s.lg st.section_.slab sl' file').slabSize = slabSize := hi.slabEq
  generalize Logger.replace s.lg st.section_.slab sl' file' = lg2 at *
  -- a new section
  obtain ⟨lg3, h3, lay3, e31, hi3, hne3, hfl3, ht3, hu3, hr3, hpg3, hss3, _⟩ :=
    inv_addSection (t := st.entryType) (req := st.minAlloc) (i := i) hi2 hne2
      (by rw [hpg2]; exact ⟨hp, hst3.min, hst3.max⟩)
      (by rw [hpg2, hss2]; exact hst3.fits) (by simp [upd])
  have ha := flat_append hc (i := i) (n := st.minAlloc) hst4 hst5 (by
    intro j hj hc'
    unfold updT at hc'
    rw [if_neg hj] at hc'
    exact hj (hi.flat.uniqT j i _ hc' htyp))
  rw [← hfl3] at ha
  -- write again
  have hown3 : upd (upd s.own i none) i (some h3) i = some h3 := by simp [upd]
  obtain ⟨files4, h4, b4, lay4, A4, x4, B4, d4, h41, hi4, hA4, hB4, ho4, het4, hu4, hrq4, f1, f2,
    f3, f4, f5, hb41, _, hb43, hsh4⟩ := inv_encodeInto hi3 hown3 obj
  have hb4 : b4 = true := hb43 (by rw [hr3, hu3]; omega)
  subst hb4
  have huniq3 := hi3.uniq
  rw [hA4] at ha huniq3
  rw [ht3] at het4
  have hw4 := flat_write ha huniq3 (i := i) (by rw [het4]; simp [updT]) ho4 d4
  have hB4x := flat_split ha huniq3 (i := i) (by rw [het4]; simp [updT]) ho4
  have hsec3 : secData lay3.flatten st.entryType = secData lay.flatten st.entryType ++ [[]] := by
    rw [hfl3, secData_append, hsec2]; simp
  have hsec4 : secData lay4.flatten st.entryType =
      secData lay.flatten st.entryType ++ [obj.flatten] := by
    have h5 : secData (A4 ++ x4 :: B4) st.entryType = secData A4 st.entryType ++ [x4.data] := by
      rw [← het4]; exact secData_split hB4x
    have h6 : secData (A4 ++ { x4 with data := x4.data ++ d4 } :: B4) st.entryType =
        secData A4 st.entryType ++ [x4.data ++ d4] := by
      rw [← het4]; exact secData_split (s := { x4 with data := x4.data ++ d4 }) hB4x
    rw [← hA4, hsec3] at h5
    obtain ⟨h7, h8⟩ := List.append_inj' h5 rfl
    have h8 : x4.data = [] := by simpa using h8.symm
    rw [hB4, h6, ← h7, h8, hb41 rfl]; rfl
  have hoth4 : ∀ u, u ≠ st.entryType → secData lay4.flatten u = secData lay.flatten u := by
    intro u hu
    have : secData lay3.flatten u = secData lay.flatten u := by
      rw [hfl3, secData_append, hsec2, if_neg hu, List.append_nil]
    rw [← this, hA4, hB4]
    exact secData_other (by rw [het4]; exact Ne.symm hu) (by simp only [het4]; exact Ne.symm hu)
  rw [← hB4, hb41 rfl, het4] at hw4
  rw [upd_upd, upd_upd] at hi4
  rw [updT_upd, updT_same _ _ _ htyp] at hw4
  refine ⟨{ lg3 with files := files4 }, { st with section_ := h4 }, lay4, ?_, rfl, rfl,
    ⟨?_, hpg3.trans hpg2, hss3.trans hss2, hne3.of_shape hsh4, str_corr_set hi hst h4,
    str_stream_set hi hst (by rw [f1]; exact ht3) (by rw [f4]; exact hr3), ?_⟩, hoth4, hsec4⟩
  · simp [Stream.retry, hfs, e31, h41]
  · rw [str_own_set hlt]; exact hi4
  · rw [str_typ_set hlt, Option.map_some, updT_same _ _ _ htyp]
    exact hw4

end

/-! ### The invariant -/

/-- The state of a log used by several threads: `pend t` is the object of the call under way on the
stream of type `t` that waits for the lock. -/
structure ConcInv (page slabSize : Nat) (c : ConcSys) (lay : List (List Sec))
    (live : List (Option (EntryType × Nat))) (out pend : EntryType → Bytes) (busy : List Nat) : Prop where
  str : StrInv page slabSize c.sys lay live out
  wait : ∀ i obj, c.waiting i = some obj → i ∈ busy ∧ ∃ st : Stream, c.sys.streams[i]? = some (some st) ∧
    pend st.entryType = obj.flatten ∧ obj.flatten ≠ [] ∧ 15 + obj.flatten.length ≤ st.minAlloc ∧
    ∃ P d, secData lay.flatten st.entryType = P ++ [d] ∧ d ≠ []
  idle : ∀ t, (∀ (i : Nat) (st : Stream), c.sys.streams[i]? = some (some st) → c.waiting i ≠ none →
    st.entryType ≠ t) → pend t = []

section
variable {page slabSize : Nat} {c : ConcSys} {lay : List (List Sec)}
  {live : List (Option (EntryType × Nat))} {out pend : EntryType → Bytes} {busy : List Nat}

theorem conc_live (hi : ConcInv page slabSize c lay live out pend busy) (i : Nat) :
    live[i]? = c.sys.streams[i]?.map (Option.map (fun st => (st.entryType, st.minAlloc))) := by
  rw [hi.str.corr, List.getElem?_map]

theorem uniq_stream (hi : StrInv page slabSize s lay live out) {i j : Nat} {a b : Stream}
    (ha : s.streams[i]? = some (some a)) (hb : s.streams[j]? = some (some b))
    (h : a.entryType = b.entryType) : i = j :=
  hi.flat.uniqT i j a.entryType (typ_of ha) (by rw [typ_of hb, h])

/-- What is on the way and what follows: the bytes of an action for a type. -/
def opBytes (t : EntryType) (live : List (Option (EntryType × Nat))) : ConcOp → Bytes
  | .begin_ i obj =>
    match live[i]? with
    | some (some (t', _)) => if t' = t then obj.flatten else []
    | _ => []
  | _ => []

/-- One call begins. -/
theorem conc_begin (hi : ConcInv page slabSize c lay live out pend busy) {i : Nat} {obj : List Bytes}
    (hb : i ∉ busy) (hfit : ∀ t n, live[i]? = some (some (t, n)) → 15 + obj.flatten.length ≤ n) :
    ∃ c' lay' out' pend', c.step (.begin_ i obj) = .ok c' ∧
      ConcInv page slabSize c' lay' live out' pend' (i :: busy) ∧
      (∀ t, out' t ++ pend' t = out t ++ pend t ++ opBytes t live (.begin_ i obj)) ∧
      (∀ u, secData lay'.flatten u = secData lay.flatten u ∨
        ∃ o, SecLogged (secData lay.flatten u) (secData lay'.flatten u) o) ∧
      ∀ u idle, Tidy idle (secData lay.flatten u) →
        Tidy (idle && (opBytes u live (.begin_ i obj)).isEmpty) (secData lay'.flatten u) := by
  have hl := conc_live hi i
  have hnw : c.waiting i = none := by
    cases hw : c.waiting i with
    | none => rfl
    | some o => exact absurd (hi.wait i o hw).1 hb
  have hsame : ConcInv page slabSize c lay live out pend (i :: busy) :=
    ⟨hi.str, fun j o hj => ⟨List.mem_cons_of_mem _ (hi.wait j o hj).1, (hi.wait j o hj).2⟩, hi.idle⟩
  by_cases hst : ∃ st, c.sys.streams[i]? = some (some st)
  · obtain ⟨st, hst⟩ := hst
    have hilt := (List.getElem?_eq_some_iff.1 hst).1
    rw [hst] at hl
    simp only [Option.map_some] at hl
    have hpi : pend st.entryType = [] := by
      apply hi.idle
      intro j st' hj hw hty
      have : j = i := uniq_stream hi.str hj hst hty
      subst this
      exact hw hnw
    obtain ⟨lg, st', b, lay', h1, hty', hmin', hi', h2, h3, h4⟩ := str_try hi.str hst (hfit _ _ hl)
    have hother : ∀ j o, j ≠ i → c.waiting j = some o → ∃ stj : Stream,
        (c.sys.streams.set i (some st'))[j]? = some (some stj) ∧ stj.entryType ≠ st.entryType ∧
        pend stj.entryType = o.flatten ∧ o.flatten ≠ [] ∧ 15 + o.flatten.length ≤ stj.minAlloc ∧
        ∃ P d, secData lay'.flatten stj.entryType = P ++ [d] ∧ d ≠ [] := by
      intro j o hji hw
      obtain ⟨_, stj, k1, k2, k3, k4, P, d, k5, k6⟩ := hi.wait j o hw
      have hne : stj.entryType ≠ st.entryType := fun hc => hji (uniq_stream hi.str k1 hst hc)
      exact ⟨stj, by rw [List.getElem?_set_ne (Ne.symm hji)]; exact k1, hne, k2, k3, k4, P, d,
        by rw [h2 _ hne]; exact k5, k6⟩
    have hidle : ∀ t, t ≠ st.entryType → ∀ w : Nat → Option (List Bytes), (∀ j, j ≠ i → w j = c.waiting j) →
        (∀ (j : Nat) (stj : Stream), (c.sys.streams.set i (some st'))[j]? = some (some stj) → w j ≠ none →
          stj.entryType ≠ t) → pend t = [] := by
      intro t ht w hw hall
      apply hi.idle
      intro j stj hj hwj hty
      by_cases hji : j = i
      · subst hji
        have : stj = st := by simpa using hj.symm.trans hst
        subst this; exact ht hty.symm
      · exact hall j stj (by rw [List.getElem?_set_ne (Ne.symm hji)]; exact hj) (by rw [hw j hji]; exact hwj) hty
    cases b with
    | true =>
      refine ⟨⟨⟨lg, c.sys.streams.set i (some st')⟩, c.waiting⟩, lay', _, pend, ?_, ⟨hi', ?_, ?_⟩, ?_, ?_, ?_⟩
      · simp [ConcSys.step, hst, h1]
      · intro j o hw
        have hji : j ≠ i := by rintro rfl; simp [hnw] at hw
        obtain ⟨stj, k1, _, k2⟩ := hother j o hji hw
        exact ⟨List.mem_cons_of_mem _ (hi.wait j o hw).1, stj, k1, k2⟩
      · intro t hall
        by_cases ht : t = st.entryType
        · rw [ht]; exact hpi
        · exact hidle t ht c.waiting (fun _ _ => rfl) hall
      · intro t
        simp only [opBytes, hl, and_true]
        by_cases ht : st.entryType = t
        · subst ht; simp [hpi]
        · simp [ht]
      · intro u
        by_cases hu : u = st.entryType
        · subst hu; exact .inr ⟨_, h3 rfl⟩
        · exact .inl (h2 u hu)
      · intro u idle hf
        simp only [opBytes, hl]
        by_cases hu : u = st.entryType
        · subst hu
          simp only [if_true]
          exact hf.logged (h3 rfl) (fun ho => by rw [ho, List.isEmpty_nil, Bool.and_true])
        · rw [h2 u hu, if_neg (Ne.symm hu), List.isEmpty_nil, Bool.and_true]
          exact hf
    | false =>
      obtain ⟨k1, k2, P, d, k3, k4⟩ := h4 rfl
      refine ⟨⟨⟨lg, c.sys.streams.set i (some st')⟩, c.setWaiting i (some obj)⟩, lay', _,
        fun t => if t = st.entryType then obj.flatten else pend t, ?_, ⟨hi', ?_, ?_⟩, ?_, ?_, ?_⟩
      · simp [ConcSys.step, hst, h1]
      · intro j o hw
        by_cases hji : j = i
        · subst hji
          have : obj = o := by simpa [ConcSys.setWaiting] using hw
          subst this
          refine ⟨by simp, st', by simp [hilt], by simp [hty'], k2, by rw [hmin']; exact hfit _ _ hl, P, d, ?_, k4⟩
          rw [hty', k1]; exact k3
        · have hw : c.waiting j = some o := by simpa [ConcSys.setWaiting, hji] using hw
          obtain ⟨stj, m1, m2, m3⟩ := hother j o hji hw
          exact ⟨List.mem_cons_of_mem _ (hi.wait j o hw).1, stj, m1, by simpa [m2] using m3.1, m3.2⟩
      · intro t hall
        by_cases ht : t = st.entryType
        · exfalso
          exact hall i st' (by simp [hilt]) (by simp [ConcSys.setWaiting]) (by rw [hty', ht])
        · simp only [if_neg ht]
          exact hidle t ht _ (fun j hj => by simp [ConcSys.setWaiting, hj]) hall
      · intro t
        simp only [opBytes, hl]
        by_cases ht : st.entryType = t
        · subst ht; simp [hpi]
        · simp [ht, Ne.symm ht]
      · intro u
        by_cases hu : u = st.entryType
        · subst hu; exact .inl k1
        · exact .inl (h2 u hu)
      · intro u idle hf
        simp only [opBytes, hl]
        by_cases hu : u = st.entryType
        · subst hu
          rw [k1, k3] at *
          refine ⟨hf.1, fun _ => ?_⟩
          have h := hf.1
          rw [List.dropLast_concat] at h
          simp only [List.mem_append, List.mem_singleton, not_or]
          exact ⟨h, Ne.symm k4⟩
        · rw [h2 u hu, if_neg (Ne.symm hu), List.isEmpty_nil, Bool.and_true]
          exact hf
  · have hnl : ∀ t n, live[i]? ≠ some (some (t, n)) := by
      intro t n hc
      rw [hl] at hc
      cases hx : c.sys.streams[i]? with
      | none => simp [hx] at hc
      | some o =>
        cases o with
        | none => simp [hx] at hc
        | some st => exact hst ⟨st, hx⟩
    have hno : ∀ t, opBytes t live (.begin_ i obj) = [] := by
      intro t
      simp only [opBytes]
    refine ⟨c, lay, out, pend, ?_, hsame, ?_, fun u => .inl rfl, fun u idle hf => by
      rw [hno, List.isEmpty_nil, Bool.and_true]; exact hf⟩
    · unfold ConcSys.step
      simp only
      split
      · rename_i st hx; exact absurd ⟨st, hx⟩ hst
      · rfl
    · intro t
      rw [hno, List.append_nil]

/-- One call ends. -/
theorem conc_finish (hp : 13 < page) (hi : ConcInv page slabSize c lay live out pend busy) (i : Nat) :
    ∃ c' lay' out' pend', c.step (.finish i) = .ok c' ∧
      ConcInv page slabSize c' lay' live out' pend' (busy.filter (· != i)) ∧
      (∀ t, out' t ++ pend' t = out t ++ pend t) ∧
      (∀ u, secData lay'.flatten u = secData lay.flatten u ∨
        ∃ o, SecLogged (secData lay.flatten u) (secData lay'.flatten u) o) ∧
      ∀ u idle, Tidy idle (secData lay.flatten u) → Tidy idle (secData lay'.flatten u) := by
  cases hw : c.waiting i with
  | none =>
    refine ⟨c, lay, out, pend, by simp [ConcSys.step, hw], ⟨hi.str, ?_, hi.idle⟩, fun _ => rfl, fun _ => .inl rfl,
      fun _ _ hf => hf⟩
    intro j o hj
    obtain ⟨h1, h2⟩ := hi.wait j o hj
    refine ⟨?_, h2⟩
    have : j ≠ i := by rintro rfl; simp [hw] at hj
    simp [h1, this]
  | some obj =>
    obtain ⟨_, st, hst, k1, k2, k3, P, d, k4, k5⟩ := hi.wait i obj hw
    have hilt := (List.getElem?_eq_some_iff.1 hst).1
    obtain ⟨lg, st', lay', h1, hty', hmin', hi', h2, h3⟩ := str_retry hp hi.str hst k3
    refine ⟨⟨⟨lg, c.sys.streams.set i (some st')⟩, c.setWaiting i none⟩, lay', _,
      fun t => if t = st.entryType then [] else pend t, ?_, ⟨hi', ?_, ?_⟩, ?_, ?_, ?_⟩
    · simp [ConcSys.step, hw, hst, h1]
    · intro j o hj
      have hji : j ≠ i := by rintro rfl; simp [ConcSys.setWaiting] at hj
      have hj : c.waiting j = some o := by simpa [ConcSys.setWaiting, hji] using hj
      obtain ⟨m1, stj, m2, m3, m4, m5, Q, e, m6, m7⟩ := hi.wait j o hj
      have hne : stj.entryType ≠ st.entryType := fun hc => hji (uniq_stream hi.str m2 hst hc)
      refine ⟨by simp [m1, hji], stj, ?_, by simpa [hne] using m3, m4, m5, Q, e, by rw [h2 _ hne]; exact m6, m7⟩
      simp only [List.getElem?_set_ne (Ne.symm hji)]
      exact m2
    · intro t hall
      by_cases ht : t = st.entryType
      · simp [ht]
      · simp only [if_neg ht]
        apply hi.idle
        intro j stj hj hwj hty
        have hji : j ≠ i := by
          rintro rfl
          have : stj = st := by simpa using hj.symm.trans hst
          subst this; exact ht hty.symm
        exact hall j stj (by simp only [List.getElem?_set_ne (Ne.symm hji)]; exact hj)
          (by simpa [ConcSys.setWaiting, hji] using hwj) hty
    · intro t
      by_cases ht : st.entryType = t
      · subst ht; simp [k1]
      · simp [ht, Ne.symm ht]
    · intro u
      by_cases hu : u = st.entryType
      · subst hu; exact .inr ⟨_, .inr ⟨k2, ⟨P, d, k4, k5⟩, h3⟩⟩
      · exact .inl (h2 u hu)
    · intro u idle hf
      by_cases hu : u = st.entryType
      · subst hu
        exact hf.logged (.inr ⟨k2, ⟨P, d, k4, k5⟩, h3⟩) (fun _ => rfl)
      · rw [h2 u hu]; exact hf

theorem conc_open (hp : 13 < page) (hi : ConcInv page slabSize c lay live out pend busy) {t : EntryType}
    {n : Nat} (h1 : t ≠ .empty) (h2 : t ≠ .lastEntry) (h3 : ∀ m, some (t, m) ∉ live)
    (h4 : SizeOk page slabSize n) :
    ∃ c' lay', c.step (.openStream t n) = .ok c' ∧
      ConcInv page slabSize c' lay' (live ++ [some (t, n)]) out pend busy ∧
      ∀ u, secData lay'.flatten u = secData lay.flatten u ++ if u = t then [[]] else [] := by
  obtain ⟨s1, lay1, e1, hi1, hd1⟩ := str_open hp hi.str h1 h2 h3 h4
  have hstreams : ∃ st, s1.streams = c.sys.streams ++ [some st] ∧ st.entryType = t := by
    unfold LogSys.step openStream at e1
    cases he : c.sys.lg.addSection t n with
    | panic => simp [he] at e1
    | ok q => simp [he] at e1; subst e1; exact ⟨_, rfl, rfl⟩
  obtain ⟨stn, hs1, hstn⟩ := hstreams
  refine ⟨⟨s1, c.waiting⟩, lay1, by simp [ConcSys.step, e1], ⟨hi1, ?_, ?_⟩, hd1⟩
  · intro j o hj
    obtain ⟨m1, stj, m2, m3, m4, m5, Q, e, m6, m7⟩ := hi.wait j o hj
    have hne : stj.entryType ≠ t := by
      intro hc
      have := conc_live hi j
      rw [m2] at this
      simp only [Option.map_some, hc] at this
      exact h3 _ (List.mem_of_getElem? this)
    refine ⟨m1, stj, ?_, m3, m4, m5, Q, e, ?_, m7⟩
    · simp only [hs1]
      rw [List.getElem?_append_left (List.getElem?_eq_some_iff.1 m2).1]
      exact m2
    · rw [hd1, if_neg hne, List.append_nil]; exact m6
  · intro u hall
    apply hi.idle
    intro j stj hj hw
    refine hall j stj ?_ hw
    simp only [hs1]
    rw [List.getElem?_append_left (List.getElem?_eq_some_iff.1 hj).1]
    exact hj

theorem conc_drop (hi : ConcInv page slabSize c lay live out pend busy) {i : Nat} (hb : i ∉ busy) :
    ∃ c' lay', c.step (.drop i) = .ok c' ∧
      ConcInv page slabSize c' lay' (live.set i none) out pend busy ∧
      ∀ u, secData lay'.flatten u = secData lay.flatten u := by
  obtain ⟨s1, lay1, e1, hi1, hs1, hd1⟩ := str_drop hi.str i
  refine ⟨⟨s1, c.waiting⟩, lay1, by simp [ConcSys.step, e1], ⟨hi1, ?_, ?_⟩, hd1⟩
  · intro j o hj
    obtain ⟨m1, stj, m2, m3⟩ := hi.wait j o hj
    have hji : i ≠ j := by rintro rfl; exact hb m1
    refine ⟨m1, stj, ?_, by rw [hd1]; exact m3⟩
    simp only [hs1, List.getElem?_set_ne hji]
    exact m2
  · intro u hall
    apply hi.idle
    intro j stj hj hw hty
    have hji : i ≠ j := by
      rintro rfl
      cases hx : c.waiting i with
      | none => exact hw hx
      | some o => exact hb (hi.wait i o hx).1
    exact hall j stj (by simp only [hs1, List.getElem?_set_ne hji]; exact hj) hw hty

/-- Any interleaving. -/
theorem conc_steps (hp : 13 < page) {ops : List ConcOp} :
    ∀ {c : ConcSys} {lay : List (List Sec)} {live : List (Option (EntryType × Nat))}
      {out pend : EntryType → Bytes} {busy : List Nat},
    ConcInv page slabSize c lay live out pend busy → Interleaved busy ops →
    HistoryOk page slabSize live (calls ops) →
    ∃ c' lay' live' out' pend', c.steps ops = .ok c' ∧
      ConcInv page slabSize c' lay' live' out' pend' (busyAfter busy ops) ∧
      (∀ t, out' t ++ pend' t = out t ++ pend t ++ logged t live (calls ops)) ∧
      ∀ t idle, UsedFirst t idle live (calls ops) → Tidy idle (secData lay.flatten t) →
        EmptyLast (secData lay'.flatten t) := by
  induction ops with
  | nil =>
    intro c lay live out pend busy hi _ _
    exact ⟨c, lay, live, out, pend, rfl, hi, by simp [calls, logged], fun _ _ _ h => h.emptyLast⟩
  | cons op ops ih =>
    intro c lay live out pend busy hi hin hops
    cases op with
    | openStream t n =>
      obtain ⟨h1, h2, h3, h4, h5⟩ := hops
      obtain ⟨c1, lay1, e1, hi1, hd1⟩ := conc_open hp hi h1 h2 h3 h4
      obtain ⟨c2, lay2, live2, out2, pend2, e2, hi2, ho2, hd2⟩ := ih hi1 hin h5
      refine ⟨c2, lay2, live2, out2, pend2, by simp only [ConcSys.steps, e1, e2], hi2, ho2, ?_⟩
      intro u idle hu hf
      have hd := hd1 u
      refine hd2 u _ hu.2 ?_
      by_cases hut : u = t
      · rw [hd, if_pos hut, beq_iff_eq.2 hut.symm, Bool.or_true]
        have hf' := hf
        rw [hu.1 hut.symm] at hf'
        exact hf'.opened
      · rw [hd, if_neg hut, List.append_nil, show (t == u) = false from beq_eq_false_iff_ne.2 (Ne.symm hut),
          Bool.or_false]
        exact hf
    | begin_ i obj =>
      obtain ⟨h1, h2⟩ := hops
      obtain ⟨c1, lay1, out1, pend1, e1, hi1, ho1, _, hd1⟩ := conc_begin hi hin.1 h1
      obtain ⟨c2, lay2, live2, out2, pend2, e2, hi2, ho2, hd2⟩ := ih hi1 hin.2 h2
      refine ⟨c2, lay2, live2, out2, pend2, by simp only [ConcSys.steps, e1, e2], hi2, ?_, ?_⟩
      · intro t
        rw [ho2, ho1]
        show _ = _ ++ (opBytes t live (.begin_ i obj) ++ logged t live (calls ops))
        rw [List.append_assoc]
      · intro u idle hu hf
        refine hd2 u _ hu ?_
        have e : logged u live [.log i obj] = opBytes u live (.begin_ i obj) := List.append_nil _
        rw [e]
        exact hd1 u idle hf
    | finish i =>
      obtain ⟨c1, lay1, out1, pend1, e1, hi1, ho1, _, hd1⟩ := conc_finish hp hi i
      obtain ⟨c2, lay2, live2, out2, pend2, e2, hi2, ho2, hd2⟩ := ih hi1 hin.2 hops
      refine ⟨c2, lay2, live2, out2, pend2, by simp only [ConcSys.steps, e1, e2], hi2, ?_, ?_⟩
      · intro t
        rw [ho2, ho1]
        rfl
      · intro u idle hu hf
        exact hd2 u idle hu (hd1 u idle hf)
    | drop i =>
      obtain ⟨c1, lay1, e1, hi1, hd1⟩ := conc_drop hi hin.1
      obtain ⟨c2, lay2, live2, out2, pend2, e2, hi2, ho2, hd2⟩ := ih hi1 hin.2 hops
      refine ⟨c2, lay2, live2, out2, pend2, by simp only [ConcSys.steps, e1, e2], hi2, ho2, ?_⟩
      exact fun u idle hu hf => hd2 u idle hu (by rw [hd1]; exact hf)

/-- A whole history, without calls under way at its end. -/
theorem writeConc_spec (hz : SizesOk page slabSize) {ops : List ConcOp} (hin : Interleaved [] ops)
    (hbusy : busyAfter [] ops = []) (hops : HistoryOk page slabSize [] (calls ops)) :
    ∃ files, writeConc slabSize page ops = .ok files ∧
      ∀ t, ∃ secs, readLog files t = .ok secs ∧ secs.flatten = logged t [] (calls ops) ∧
        (UsedFirst t false [] (calls ops) → EmptyLast secs) := by
  have hp := hz.page_min
  have hal := align_le (page := page) (by omega) 80
  have hsl := hz.slab
  obtain ⟨lg, e1, hi1, hpg, hss⟩ := inv_new (slabSize := slabSize) (page := page) (by omega) (by omega)
  have hi : StrInv page slabSize ⟨lg, []⟩ [[]] [] (fun _ => []) := by
    refine ⟨?_, hpg, hss, ?_, rfl, by simp, ?_⟩
    · have : (⟨lg, []⟩ : LogSys).own = fun _ => none := by funext j; simp [LogSys.own]
      rw [this]; exact hi1
    · intro k hk hc
      have := (List.getElem?_eq_some_iff.1 hc).1
      simp at this; omega
    · refine ⟨?_, by simp, by simp, ?_⟩
      · intro i j t h; simp [LogSys.typ] at h
      · intro i t h; simp [LogSys.typ] at h
  have hci : ConcInv page slabSize ⟨⟨lg, []⟩, fun _ => none⟩ [[]] [] (fun _ => []) (fun _ => []) [] :=
    ⟨hi, by simp, fun _ _ => rfl⟩
  obtain ⟨c2, lay2, live2, out2, pend2, e2, hi2, ho2, hd2⟩ := conc_steps hp hci hin hops
  obtain ⟨s3, lay3, live3, e3, hi3, h31, hd3, h32⟩ := str_drops (l := List.range c2.sys.streams.length) hi2.str
  have hout : ∀ t, out2 t = logged t [] (calls ops) := by
    intro t
    have h := ho2 t
    have hp2 : pend2 t = [] := by
      apply hi2.idle
      intro i st _ hw
      cases hx : c2.waiting i with
      | none => exact absurd hx hw
      | some o =>
        have := (hi2.wait i o hx).1
        rw [hbusy] at this
        simp at this
    rw [hp2] at h
    simpa using h
  have hnone : ∀ i, s3.own i = none := by
    intro i
    unfold LogSys.own
    cases hx : s3.streams[i]? with
    | none => rfl
    | some o =>
      cases o with
      | none => rfl
      | some st =>
        obtain ⟨h1, h2⟩ := h32 i st hx
        have := (List.getElem?_eq_some_iff.1 h1).1
        exact absurd (List.mem_range.2 this) h2
  have hmx := hz.page_max
  have h80 : align page 80 < 4294967296 := by
    have : align page 80 ≤ 80 + page - 1 := Nat.div_mul_le_self _ _
    omega
  obtain ⟨files, lay4, e4, hh, hfl, _⟩ := inv_close hi3.inv hi3.nonempty
    (by rw [hi3.pageEq]; exact hmx) hnone
    (by rw [hi3.pageEq]; exact ⟨hp, by omega, h80⟩)
    (by rw [hi3.pageEq, hi3.slabEq]; exact hsl)
  refine ⟨files, ?_, ?_⟩
  · unfold writeConc runConc
    rw [e1]
    simp only [e2, e3]
    exact e4
  · intro t
    have hsec : (lay3.flatten.filter (·.et == t)).map Sec.content = secData lay3.flatten t := by
      unfold secData
      apply List.map_congr_left
      intro x hx
      have hm := (List.mem_filter.1 hx).1
      have hxo : x.owner = none := by
        cases hxo : x.owner with
        | none => rfl
        | some j =>
          obtain ⟨g, hg⟩ := hi3.inv.own_conv x hm j hxo
          rw [hnone] at hg; exact absurd hg (by simp)
      unfold Sec.content
      simp [hxo, (hi3.flat.types x hm).1]
    refine ⟨_, readLog_spec hh (t := t) hfl (fun s hs => (hi3.flat.types s hs).2) rfl, ?_, ?_⟩
    · have hd := hi3.flat.data t
      rw [hout] at hd
      rw [hsec, ← hd]; rfl
    · intro hnd
      rw [hsec, hd3]
      exact hd2 t false hnd ⟨by simp [secData], by simp [secData]⟩

end

end ULog
end Verif
