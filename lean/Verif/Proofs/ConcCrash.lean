import Verif.Proofs.UnifiedLogConc
/-! A process whose threads share a log is killed. -/
namespace Verif
namespace ULog
open Bincode

/-- What the sections of type `t` contain, and the object of a call on the stream of that type that
waits for the lock. -/
structure ConcTracks (page slabSize : Nat) (t : EntryType) (c : ConcSys) (x : SecSys)
    (objs pend : List Bytes) : Prop where
  tracks : Tracks page slabSize t c.sys x objs
  wait : ∀ (i : Nat) (obj : List Bytes) (st : Stream), c.waiting i = some obj →
    c.sys.streams[i]? = some (some st) →
    st.section_.used ≠ 0 ∧ obj.flatten ≠ [] ∧ (st.entryType = t → pend = [obj.flatten])
  idle : (∀ (i : Nat) (st : Stream), c.sys.streams[i]? = some (some st) → c.waiting i ≠ none →
    st.entryType ≠ t) → pend = []

section
variable {page slabSize : Nat} {t : EntryType} {c c' : ConcSys} {x : SecSys} {objs pendO : List Bytes}
  {lay lay' : List (List Sec)} {live live' : List (Option (EntryType × Nat))}
  {out out' pend pend' : EntryType → Bytes} {busy busy' : List Nat}

theorem set_same {α : Type} {l : List α} {i : Nat} {a : α} (h : l[i]? = some a) : l.set i a = l := by
  apply List.ext_getElem?
  intro k
  by_cases hk : i = k
  · subst hk; rw [List.getElem?_set_self (List.getElem?_eq_some_iff.1 h).1, h]
  · rw [List.getElem?_set_ne hk]

theorem ctracks_begin (hz : SizesOk page slabSize) (hi : ConcInv page slabSize c lay live out pend busy)
    (hT : ConcTracks page slabSize t c x objs pendO) {i : Nat} {obj : List Bytes} (hb : i ∉ busy)
    (hfit : ∀ t n, live[i]? = some (some (t, n)) → 15 + obj.flatten.length ≤ n)
    (hs : c.step (.begin_ i obj) = .ok c') :
    ∃ x' objs' pendO', ConcTracks page slabSize t c' x' objs' pendO' ∧
      objs' ++ pendO' = objs ++ pendO ++ objOf t live (.log i obj) ∧
      StaysTidy t x x' (logged t live [.log i obj]) := by
  have hl := conc_live hi i
  have hnw : c.waiting i = none := by
    cases hw : c.waiting i with
    | none => rfl
    | some o => exact absurd (hi.wait i o hw).1 hb
  by_cases hst : ∃ st, c.sys.streams[i]? = some (some st)
  · obtain ⟨st, hst⟩ := hst
    have hilt := (List.getElem?_eq_some_iff.1 hst).1
    rw [hst] at hl
    simp only [Option.map_some] at hl
    have hob : objOf t live (.log i obj) = if st.entryType = t then [obj.flatten] else [] := by
      simp [objOf, hl]
    have hpi : st.entryType = t → pendO = [] := by
      intro ht
      apply hT.idle
      intro j st' hj hw hty
      have : j = i := uniq_stream hi.str hj hst (by rw [hty, ht])
      subst this
      exact hw hnw
    have hlo : logged t live [.log i obj] = if st.entryType = t then obj.flatten else [] := by
      simp [logged, hl]
    rw [hob, hlo]
    simp only [ConcSys.step, hst, Stream.try_] at hs
    cases he : encodeInto c.sys.lg.files st.section_ obj with
    | panic => simp [he] at hs
    | ok q =>
      obtain ⟨files1, h1, b⟩ := q
      simp only [he, Rs.ok.injEq] at hs
      cases b with
      | true =>
        subst hs
        simp only [if_true]
        obtain ⟨x', hT', ht'⟩ := tracks_write hi.str hT.tracks hst he
        refine ⟨x', _, pendO, ⟨hT', ?_, ?_⟩, ?_, ht'⟩
        · intro j o stj hw hj
          have hji : i ≠ j := by rintro rfl; simp [hnw] at hw
          simp only [List.getElem?_set_ne hji] at hj
          exact hT.wait j o stj hw hj
        · intro hall
          apply hT.idle
          intro j stj hj hwj
          have hji : i ≠ j := by rintro rfl; exact hwj hnw
          exact hall j stj (by simp only [List.getElem?_set_ne hji]; exact hj) hwj
        · by_cases ht : st.entryType = t
          · simp [ht, hpi ht]
          · simp [ht]
      | false =>
        obtain ⟨rfl, hu, hone, x', hT', ht'⟩ := tracks_fail hz hi.str hT.tracks hst (hfit _ _ hl) he
        rw [set_same (by rw [hst])] at hs
        subst hs
        refine ⟨x', objs, if st.entryType = t then [obj.flatten] else pendO, ⟨hT', ?_, ?_⟩, ?_, ht'⟩
        · intro j o stj hw hj
          by_cases hji : j = i
          · subst hji
            have h1 : obj = o := by simpa [ConcSys.setWaiting] using hw
            have h2 : stj = st := by simpa using hj.symm.trans hst
            subst h1 h2
            exact ⟨hu, hone, fun ht => by simp [ht]⟩
          · have hw : c.waiting j = some o := by simpa [ConcSys.setWaiting, hji] using hw
            refine ⟨(hT.wait j o stj hw hj).1, (hT.wait j o stj hw hj).2.1, fun ht => ?_⟩
            have hne : st.entryType ≠ t := by
              intro hc
              exact hji (uniq_stream hi.str (a := stj) (b := st) hj hst (by rw [ht, hc]))
            rw [if_neg hne]
            exact (hT.wait j o stj hw hj).2.2 ht
        · intro hall
          have hne : st.entryType ≠ t := hall i st hst (by simp [ConcSys.setWaiting])
          rw [if_neg hne]
          apply hT.idle
          intro j stj hj hwj
          have hji : j ≠ i := by rintro rfl; exact hwj hnw
          exact hall j stj hj (by simpa [ConcSys.setWaiting, hji] using hwj)
        · by_cases ht : st.entryType = t
          · simp [ht, hpi ht]
          · simp [ht]
  · have hc : c' = c := by
      unfold ConcSys.step at hs
      simp only at hs
      split at hs
      · rename_i st hx; exact absurd ⟨st, hx⟩ hst
      · cases hs; rfl
    subst hc
    have h0 : objOf t live (.log i obj) = [] ∧ logged t live [.log i obj] = [] := by
      cases hx : c'.sys.streams[i]? with
      | none => simp [objOf, logged, hl, hx]
      | some o =>
        cases o with
        | none => simp [objOf, logged, hl, hx]
        | some st => exact absurd ⟨st, hx⟩ hst
    refine ⟨x, objs, pendO, hT, by rw [h0.1, List.append_nil], .refl x, fun idle idle' hid htd => ?_⟩
    rw [hid h0.2]
    exact htd

theorem ctracks_finish (hz : SizesOk page slabSize) (hi : ConcInv page slabSize c lay live out pend busy)
    (hT : ConcTracks page slabSize t c x objs pendO) {i : Nat}
    (hs : c.step (.finish i) = .ok c') (hi' : ConcInv page slabSize c' lay' live' out' pend' busy') :
    ∃ x' objs' pendO', ConcTracks page slabSize t c' x' objs' pendO' ∧ objs' ++ pendO' = objs ++ pendO ∧
      Grows x x' ∧ ∀ idle, Tidy idle (dataOf t x) → Tidy idle (dataOf t x') := by
  cases hw : c.waiting i with
  | none =>
    simp [ConcSys.step, hw] at hs
    subst hs
    exact ⟨x, objs, pendO, hT, rfl, .refl x, fun _ h => h⟩
  | some obj =>
    obtain ⟨_, st, hst, _⟩ := hi.wait i obj hw
    have hilt := (List.getElem?_eq_some_iff.1 hst).1
    obtain ⟨hu, hone, hp⟩ := hT.wait i obj st hw hst
    simp only [ConcSys.step, hw, hst, Stream.retry] at hs
    cases he2 : c.sys.lg.flushSection st.section_ with
    | panic => simp [he2] at hs
    | ok lg2 =>
      simp only [he2] at hs
      cases he3 : lg2.addSection st.entryType st.minAlloc with
      | panic => simp [he3] at hs
      | ok q =>
        obtain ⟨lg3, h3⟩ := q
        simp only [he3] at hs
        cases he4 : encodeInto lg3.files h3 obj with
        | panic => simp [he4] at hs
        | ok q =>
          obtain ⟨files4, h4, b⟩ := q
          cases b with
          | false => simp [he4] at hs
          | true =>
            simp only [he4, Rs.ok.injEq] at hs
            subst hs
            obtain ⟨x', hT', ht'⟩ := tracks_renew hz hi.str (lg1 := c.sys.lg) hT.tracks hst hu hone he2 he3 he4 hi'.str
            refine ⟨x', _, if st.entryType = t then [] else pendO, ⟨hT', ?_, ?_⟩, ?_,
              ht'.1, fun idle htd => ht'.2 idle idle (fun _ => rfl) htd⟩
            · intro j o stj hwj hj
              have hji : j ≠ i := by rintro rfl; simp [ConcSys.setWaiting] at hwj
              have hwj : c.waiting j = some o := by simpa [ConcSys.setWaiting, hji] using hwj
              simp only [List.getElem?_set_ne (Ne.symm hji)] at hj
              refine ⟨(hT.wait j o stj hwj hj).1, (hT.wait j o stj hwj hj).2.1, fun ht => ?_⟩
              have hne : st.entryType ≠ t := fun hc => hji (uniq_stream hi.str hj hst (by rw [ht, hc]))
              rw [if_neg hne]
              exact (hT.wait j o stj hwj hj).2.2 ht
            · intro hall
              by_cases ht : st.entryType = t
              · rw [if_pos ht]
              · rw [if_neg ht]
                apply hT.idle
                intro j stj hj hwj hty
                have hji : j ≠ i := by
                  rintro rfl
                  have : stj = st := by simpa using hj.symm.trans hst
                  subst this; exact ht hty
                exact hall j stj (by simp only [List.getElem?_set_ne (Ne.symm hji)]; exact hj)
                  (by simpa [ConcSys.setWaiting, hji] using hwj) hty
            · by_cases ht : st.entryType = t
              · simp [ht, hp ht]
              · simp [ht]

theorem ctracks_open (hi : ConcInv page slabSize c lay live out pend busy)
    (hT : ConcTracks page slabSize t c x objs pendO) {u : EntryType} {n : Nat}
    (h2 : u ≠ .lastEntry) (h3 : ∀ m, some (u, m) ∉ live) (h4 : SizeOk page slabSize n)
    (hs : c.step (.openStream u n) = .ok c') (hi' : ConcInv page slabSize c' lay' live' out' pend' busy') :
    ∃ x', ConcTracks page slabSize t c' x' objs pendO ∧ Grows x x' ∧
      ∀ idle, (u = t → idle = false) → Tidy idle (dataOf t x) → Tidy (idle || u == t) (dataOf t x') := by
  cases e1 : c.sys.step (.openStream u n) with
  | panic => simp [ConcSys.step, e1] at hs
  | ok s1 =>
    simp only [ConcSys.step, e1, Rs.ok.injEq] at hs
    subst hs
    obtain ⟨x', hT', ht'⟩ := tracks_open hi.str hT.tracks h2 h3 h4 e1 hi'.str
    have hstreams : ∃ st, s1.streams = c.sys.streams ++ [some st] := by
      unfold LogSys.step openStream at e1
      cases he : c.sys.lg.addSection u n with
      | panic => simp [he] at e1
      | ok q => simp [he] at e1; subst e1; exact ⟨_, rfl⟩
    obtain ⟨stn, hs1⟩ := hstreams
    refine ⟨x', ⟨hT', ?_, ?_⟩, ht'⟩
    · intro j o stj hw hj
      obtain ⟨_, st, m2, _⟩ := hi.wait j o hw
      simp only [hs1] at hj
      rw [List.getElem?_append_left (List.getElem?_eq_some_iff.1 m2).1] at hj
      exact hT.wait j o stj hw hj
    · intro hall
      apply hT.idle
      intro j stj hj hw
      refine hall j stj ?_ hw
      simp only [hs1]
      rw [List.getElem?_append_left (List.getElem?_eq_some_iff.1 hj).1]
      exact hj

theorem ctracks_drop (hi : ConcInv page slabSize c lay live out pend busy)
    (hT : ConcTracks page slabSize t c x objs pendO) {i : Nat} (hb : i ∉ busy) (hs : c.step (.drop i) = .ok c') :
    ∃ x', ConcTracks page slabSize t c' x' objs pendO ∧ Grows x x' ∧ ∀ idle, Tidy idle (dataOf t x) → Tidy idle (dataOf t x') := by
  obtain ⟨s1, lay1, e1, hi1, hs1, hd1⟩ := str_drop hi.str i
  simp only [ConcSys.step, e1, Rs.ok.injEq] at hs
  subst hs
  obtain ⟨x', hT', ht'⟩ := tracks_drop hi.str hT.tracks e1
  refine ⟨x', ⟨hT', ?_, ?_⟩, ht'⟩
  · intro j o stj hw hj
    have hji : i ≠ j := by rintro rfl; exact hb (hi.wait i o hw).1
    simp only [hs1, List.getElem?_set_ne hji] at hj
    exact hT.wait j o stj hw hj
  · intro hall
    apply hT.idle
    intro j stj hj hw
    have hji : i ≠ j := by
      rintro rfl
      cases hx : c.waiting i with
      | none => exact hw hx
      | some o => exact hb (hi.wait i o hx).1
    exact hall j stj (by simp only [hs1, List.getElem?_set_ne hji]; exact hj) hw

theorem ctracks_steps (hz : SizesOk page slabSize) {ops : List ConcOp} :
    ∀ {c : ConcSys} {x : SecSys} {objs pendO : List Bytes} {lay : List (List Sec)}
      {live : List (Option (EntryType × Nat))} {out pend : EntryType → Bytes} {busy : List Nat},
    ConcInv page slabSize c lay live out pend busy → ConcTracks page slabSize t c x objs pendO →
    Interleaved busy ops → HistoryOk page slabSize live (calls ops) →
    ∃ c' x' lay' live' out' pend' objs' pendO', c.steps ops = .ok c' ∧
      ConcInv page slabSize c' lay' live' out' pend' (busyAfter busy ops) ∧
      ConcTracks page slabSize t c' x' objs' pendO' ∧
      objs' ++ pendO' = objs ++ pendO ++ objsOf t live (calls ops) ∧ Grows x x' ∧
      (∀ more, HistoryOk page slabSize live (calls ops ++ more) → HistoryOk page slabSize live' more) ∧
      ∀ idle, UsedFirst t idle live (calls ops) → Tidy idle (dataOf t x) → [] ∉ (dataOf t x').dropLast := by
  induction ops with
  | nil =>
    intro c x objs pendO lay live out pend busy hi hT _ _
    exact ⟨c, x, lay, live, out, pend, objs, pendO, rfl, hi, hT, by simp [calls, objsOf], .refl x, fun _ h => h, fun _ _ h => h.1⟩
  | cons op ops ih =>
    intro c x objs pendO lay live out pend busy hi hT hin hops
    cases op with
    | openStream u n =>
      obtain ⟨h1, h2, h3, h4, h5⟩ := hops
      obtain ⟨c1, lay1, e1, hi1, _⟩ := conc_open hz.page_min hi h1 h2 h3 h4
      obtain ⟨x1, hT1, hg1, ht1⟩ := ctracks_open hi hT h2 h3 h4 e1 hi1
      obtain ⟨c2, x2, lay2, live2, out2, pend2, objs2, po2, e2, hi2, hT2, ho2, hg2, hm2, ht2⟩ := ih hi1 hT1 hin h5
      refine ⟨c2, x2, lay2, live2, out2, pend2, objs2, po2, by simp only [ConcSys.steps, e1, e2], hi2, hT2, ?_, hg1.trans hg2,
        fun more h => hm2 more h.2.2.2.2,
        fun idle hu htd => ht2 _ hu.2 (ht1 idle hu.1 htd)⟩
      rw [ho2]
      simp [calls, objsOf, objOf, liveStep]
    | begin_ i obj =>
      obtain ⟨h1, h2⟩ := hops
      obtain ⟨c1, lay1, out1, pend1, e1, hi1, _⟩ := conc_begin hi hin.1 h1
      obtain ⟨x1, objs1, po1, hT1, ho1, hg1, ht1⟩ := ctracks_begin hz hi hT hin.1 h1 e1
      obtain ⟨c2, x2, lay2, live2, out2, pend2, objs2, po2, e2, hi2, hT2, ho2, hg2, hm2, ht2⟩ := ih hi1 hT1 hin.2 h2
      refine ⟨c2, x2, lay2, live2, out2, pend2, objs2, po2, by simp only [ConcSys.steps, e1, e2], hi2, hT2, ?_, hg1.trans hg2,
        fun more h => hm2 more h.2,
        fun idle hu htd => ht2 _ hu (ht1 idle _ (fun h => by rw [h]; simp) htd)⟩
      rw [ho2, ho1]
      simp only [calls, objsOf, liveStep, List.append_assoc]
    | finish i =>
      obtain ⟨c1, lay1, out1, pend1, e1, hi1, _⟩ := conc_finish hz.page_min hi i
      obtain ⟨x1, objs1, po1, hT1, ho1, hg1, ht1⟩ := ctracks_finish hz hi hT e1 hi1
      obtain ⟨c2, x2, lay2, live2, out2, pend2, objs2, po2, e2, hi2, hT2, ho2, hg2, hm2, ht2⟩ := ih hi1 hT1 hin.2 hops
      refine ⟨c2, x2, lay2, live2, out2, pend2, objs2, po2, by simp only [ConcSys.steps, e1, e2], hi2, hT2, ?_, hg1.trans hg2,
        fun more h => hm2 more h,
        fun idle hu htd => ht2 _ hu (ht1 idle htd)⟩
      rw [ho2, ho1]
      rfl
    | drop i =>
      obtain ⟨c1, lay1, e1, hi1, _⟩ := conc_drop hi hin.1
      obtain ⟨x1, hT1, hg1, ht1⟩ := ctracks_drop hi hT hin.1 e1
      obtain ⟨c2, x2, lay2, live2, out2, pend2, objs2, po2, e2, hi2, hT2, ho2, hg2, hm2, ht2⟩ := ih hi1 hT1 hin.2 hops
      refine ⟨c2, x2, lay2, live2, out2, pend2, objs2, po2, by simp only [ConcSys.steps, e1, e2], hi2, hT2, ?_, hg1.trans hg2,
        fun more h => hm2 more h,
        fun idle hu htd => ht2 _ hu (ht1 idle htd)⟩
      rw [ho2]
      simp [calls, objsOf, objOf, liveStep]

/-- A log used by several threads, at any point, and the sections behind it. -/
theorem runConc_tracks (hz : SizesOk page slabSize) {ops : List ConcOp} (hin : Interleaved [] ops)
    (hops : HistoryOk page slabSize [] (calls ops)) :
    ∃ c x lay live out pend objs pendO, runConc slabSize page ops = .ok c ∧
      ConcInv page slabSize c lay live out pend (busyAfter [] ops) ∧
      ConcTracks page slabSize t c x objs pendO ∧ objs ++ pendO = objsOf t [] (calls ops) ∧
      (UsedFirst t false [] (calls ops) → [] ∉ (dataOf t x).dropLast) ∧
      ∀ more, HistoryOk page slabSize [] (calls ops ++ more) → HistoryOk page slabSize live more := by
  have hp := hz.page_min
  have hal := align_le (page := page) (by omega) 80
  have hsl := hz.slab
  obtain ⟨lg, e1, hi1, hpg, hss⟩ := inv_new (slabSize := slabSize) (page := page) (by omega) (by omega)
  have hi : StrInv page slabSize ⟨lg, []⟩ [[]] [] (fun _ => []) := by
    refine ⟨?_, hpg, hss, ?_, rfl, by simp, ?_⟩
    · have : (⟨lg, []⟩ : LogSys).own = fun _ => none := by funext j; simp [LogSys.own]
      rw [this]; exact hi1
    · intro k hk hc
      have := (List.getElem?_eq_some_iff.1 hc).1
      simp at this; omega
    · refine ⟨?_, by simp, by simp, ?_⟩
      · intro i j t h; simp [LogSys.typ] at h
      · intro i t h; simp [LogSys.typ] at h
  have hci : ConcInv page slabSize ⟨⟨lg, []⟩, fun _ => none⟩ [[]] [] (fun _ => []) (fun _ => []) [] :=
    ⟨hi, by simp, fun _ _ => rfl⟩
  have hT : Tracks page slabSize t ⟨lg, []⟩ ⟨lg, []⟩ [] :=
    ⟨.new e1, rfl, by simp, by simp, .inl ⟨[], by simp, .nil, rfl, by simp [LogSys.typ]⟩⟩
  have hcT : ConcTracks page slabSize t ⟨⟨lg, []⟩, fun _ => none⟩ ⟨lg, []⟩ [] [] :=
    ⟨hT, by simp, fun _ => rfl⟩
  obtain ⟨c2, x2, lay2, live2, out2, pend2, objs2, po2, e2, hi2, hT2, ho2, _, hm2, ht2⟩ := ctracks_steps hz hci hcT hin hops
  refine ⟨c2, x2, lay2, live2, out2, pend2, objs2, po2, ?_, hi2, hT2, by simpa using ho2,
    fun hu => ht2 false hu (by simp [dataOf, Tidy]), hm2⟩
  unfold runConc
  rw [e1]
  exact e2

end

end ULog
end Verif
