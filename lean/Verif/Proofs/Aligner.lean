import Verif.Spec.Aligner
import Verif.Proofs.Clock
/-! Lemmas on the aligner. -/
namespace Verif
open Clock
namespace Aligner

variable {V : Type}

theorem inWindow_iff (a b : CuTime) (t : Tov) : inWindow a b t = true ↔ Inside a b t := by
  cases t <;> simp [inWindow, Inside]

theorem recent_iff (h : CuTime) (t : Tov) : recent h t = true ↔ ∃ u, right t = some u ∧ h.ns ≤ u.ns := by
  cases t <;> simp [recent, right]

theorem max_ns (a b : CuTime) : a.ns ≤ (a.max b).ns ∧ b.ns ≤ (a.max b).ns ∧ (a.max b = a ∨ a.max b = b) := by
  unfold CuDuration.max
  split
  · rename_i h; exact ⟨h, UInt64.le_refl _, .inr rfl⟩
  · rename_i h; exact ⟨UInt64.le_refl _, by
      rw [UInt64.le_iff_toNat_le] at h ⊢; omega, .inl rfl⟩

theorem foldRecent_spec : ∀ (ms : List (Msg V)) (acc : Option CuTime),
    (∀ x, foldRecent acc ms = some x →
      (∀ m ∈ ms, ∃ u, right m.md.tov = some u) ∧
      (ms = [] ∧ x = acc ∨ ∃ t, x = some t ∧ (acc = some t ∨ ∃ m ∈ ms, right m.md.tov = some t) ∧
        (∀ c, acc = some c → c.ns ≤ t.ns) ∧ ∀ m ∈ ms, ∀ u, right m.md.tov = some u → u.ns ≤ t.ns)) ∧
    (foldRecent acc ms = none → ∃ m ∈ ms, right m.md.tov = none)
  | [], acc => by simp [foldRecent]
  | m :: ms, acc => by
    simp only [foldRecent]
    cases hm : right m.md.tov with
    | none => simp [hm]
    | some t =>
      have hacc : ∃ t', newer acc t = t' ∧ t.ns ≤ t'.ns ∧
          (∀ c, acc = some c → c.ns ≤ t'.ns) ∧ (t' = t ∨ acc = some t') := by
        cases acc with
        | none => exact ⟨t, rfl, UInt64.le_refl _, by simp, .inl rfl⟩
        | some c =>
          obtain ⟨h1, h2, h3⟩ := max_ns c t
          refine ⟨c.max t, rfl, h2, by simpa using h1, ?_⟩
          rcases h3 with h3 | h3
          · right; rw [h3]
          · left; exact h3
      obtain ⟨t', he, h1, h2, h3⟩ := hacc
      obtain ⟨ih1, ih2⟩ := foldRecent_spec ms (some t')
      refine ⟨fun x hx => ?_, fun hx => ?_⟩
      · simp only [he] at hx
        obtain ⟨h4, h5⟩ := ih1 x hx
        refine ⟨by simpa [hm] using h4, .inr ?_⟩
        rcases h5 with ⟨rfl, rfl⟩ | ⟨v, rfl, h6, h7, h8⟩
        · refine ⟨t', rfl, ?_, h2, by simpa [hm] using h1⟩
          rcases h3 with h3 | h3
          · right; exact ⟨m, by simp, by rw [hm, h3]⟩
          · left; exact h3
        · have h9 := h7 t' rfl
          refine ⟨v, rfl, ?_, fun c hc => UInt64.le_trans (h2 c hc) h9, ?_⟩
          · rcases h6 with h6 | ⟨m', hm', h6⟩
            · simp only [Option.some.injEq] at h6
              subst h6
              rcases h3 with h3 | h3
              · right; exact ⟨m, by simp, by rw [hm, h3]⟩
              · left; exact h3
            · right; exact ⟨m', by simp [hm'], h6⟩
          · intro m' hm' u hu
            simp only [List.mem_cons] at hm'
            rcases hm' with rfl | hm'
            · rw [hm] at hu
              simp only [Option.some.injEq] at hu
              subst hu
              exact UInt64.le_trans h1 h9
            · exact h8 m' hm' u hu
      · simp only [he] at hx
        obtain ⟨m', hm', h⟩ := ih2 hx
        exact ⟨m', by simp [hm'], h⟩

theorem newest_unique {buf : List (Msg V)} {t u : CuTime} (ht : Newest buf t) (hu : Newest buf u) : t = u := by
  obtain ⟨⟨m, hm, h1⟩, h2⟩ := ht
  obtain ⟨⟨m', hm', h3⟩, h4⟩ := hu
  obtain ⟨a, h5, h6⟩ := h4 m hm
  obtain ⟨b, h7, h8⟩ := h2 m' hm'
  rw [h1] at h5
  rw [h3] at h7
  simp only [Option.some.injEq] at h5 h7
  subst h5; subst h7
  have := UInt64.le_antisymm h6 h8
  cases t; cases u; simp_all

theorem mostRecent_iff (s : Stream V) (t : CuTime) : s.mostRecent.getD none = some t ↔ Newest s.buf t := by
  unfold Stream.mostRecent
  obtain ⟨h1, h2⟩ := foldRecent_spec s.buf none
  constructor
  · intro h
    cases hf : foldRecent none s.buf with
    | none => simp [hf] at h
    | some x =>
      simp only [hf, Option.getD_some] at h
      subst h
      obtain ⟨h3, h4⟩ := h1 _ hf
      rcases h4 with ⟨_, h4⟩ | ⟨t', h4, h5, h6, h7⟩
      · simp at h4
      · simp only [Option.some.injEq] at h4
        subst h4
        simp only [reduceCtorEq, false_or] at h5
        refine ⟨h5, fun m hm => ?_⟩
        obtain ⟨u, hu⟩ := h3 m hm
        exact ⟨u, hu, h7 m hm u hu⟩
  · intro h
    cases hf : foldRecent none s.buf with
    | none =>
      obtain ⟨m, hm, h3⟩ := h2 hf
      obtain ⟨u, h4, _⟩ := h.2 m hm
      rw [h3] at h4
      simp at h4
    | some x =>
      obtain ⟨h3, h4⟩ := h1 _ hf
      rcases h4 with ⟨h4, _⟩ | ⟨t', h4, h5, h6, h7⟩
      · obtain ⟨m, hm, _⟩ := h.1
        rw [h4] at hm
        simp at hm
      · simp only [reduceCtorEq, false_or] at h5
        have hn : Newest s.buf t' := ⟨h5, fun m hm => by
          obtain ⟨u, hu⟩ := h3 m hm
          exact ⟨u, hu, h7 m hm u hu⟩⟩
        rw [newest_unique h hn, h4]
        rfl

theorem minFold (l : List CuTime) (a : CuTime) :
    ((l.foldl (fun m t => if t.ns < m.ns then t else m) a) = a ∨ (l.foldl (fun m t => if t.ns < m.ns then t else m) a) ∈ l) ∧
    (l.foldl (fun m t => if t.ns < m.ns then t else m) a).ns ≤ a.ns ∧
    ∀ t ∈ l, (l.foldl (fun m t => if t.ns < m.ns then t else m) a).ns ≤ t.ns := by
  induction l generalizing a with
  | nil => simp
  | cons x l ih =>
    simp only [List.foldl_cons]
    obtain ⟨h1, h2, h3⟩ := ih (if x.ns < a.ns then x else a)
    by_cases hx : x.ns < a.ns
    · simp only [if_pos hx] at h1 h2 h3 ⊢
      refine ⟨?_, ?_, ?_⟩
      · rcases h1 with h1 | h1
        · right; simp [h1]
        · right; simp [h1]
      · exact UInt64.le_trans h2 (UInt64.le_of_lt hx)
      · intro t ht
        simp only [List.mem_cons] at ht
        rcases ht with rfl | ht
        · exact h2
        · exact h3 t ht
    · simp only [if_neg hx] at h1 h2 h3 ⊢
      refine ⟨?_, h2, ?_⟩
      · rcases h1 with h1 | h1
        · left; exact h1
        · right; simp [h1]
      · intro t ht
        simp only [List.mem_cons] at ht
        rcases ht with rfl | ht
        · exact UInt64.le_trans h2 (UInt64.not_lt.mp hx)
        · exact h3 t ht

theorem minTime_spec (l : List CuTime) : (l = [] ∧ minTime l = none) ∨
    ∃ t, minTime l = some t ∧ t ∈ l ∧ ∀ u ∈ l, t.ns ≤ u.ns := by
  cases l with
  | nil => left; exact ⟨rfl, rfl⟩
  | cons a l =>
    right
    obtain ⟨h1, h2, h3⟩ := minFold l a
    refine ⟨_, rfl, ?_, ?_⟩
    · rcases h1 with h1 | h1
      · rw [h1]; simp
      · simp [h1]
    · intro u hu
      simp only [List.mem_cons] at hu
      rcases hu with rfl | hu
      · exact h2
      · exact h3 u hu

theorem latest_spec (t : Task V) :
    (t.latest = none ∧ ∀ s ∈ t.streams, ∀ u, ¬ Newest s.buf u) ∨
    ∃ e, t.latest = some e ∧ Earliest (t.streams.map Stream.buf) e := by
  unfold Task.latest
  rcases minTime_spec (t.streams.filterMap fun s => s.mostRecent.getD none) with ⟨h1, h2⟩ | ⟨e, h1, h2, h3⟩
  · left
    refine ⟨h2, fun s hs u hu => ?_⟩
    rw [List.filterMap_eq_nil_iff] at h1
    have := h1 s hs
    rw [(mostRecent_iff s u).mpr hu] at this
    simp at this
  · right
    refine ⟨e, h1, ?_, ?_⟩
    · rw [List.mem_filterMap] at h2
      obtain ⟨s, hs, h2⟩ := h2
      exact ⟨s.buf, List.mem_map.mpr ⟨s, hs, rfl⟩, (mostRecent_iff s e).mp h2⟩
    · intro b hb u hu
      obtain ⟨s, hs, rfl⟩ := List.mem_map.mp hb
      exact h3 u (List.mem_filterMap.mpr ⟨s, hs, (mostRecent_iff s u).mpr hu⟩)

theorem payloads_ok {ms : List (Msg V)} {ps : List V} (h : payloads ms = .ok ps) : ps.map some = ms.map Msg.payload := by
  induction ms generalizing ps with
  | nil => simp [payloads] at h; simp [← h]
  | cons m ms ih =>
    simp only [payloads, Rs.bind_eq_ok] at h
    obtain ⟨p, h1, ps', h2, h3⟩ := h
    simp only [Rs.ok.injEq] at h3
    subst h3
    cases hm : m.payload with
    | none => simp [hm] at h1
    | some q =>
      simp only [hm, Rs.ofOption_some, Rs.ok.injEq] at h1
      subst h1
      simp [hm, ih h2]

theorem payloads_total {ms : List (Msg V)} (h : ∀ m ∈ ms, m.payload ≠ none) : ∃ ps, payloads ms = .ok ps := by
  induction ms with
  | nil => exact ⟨[], rfl⟩
  | cons m ms ih =>
    obtain ⟨ps, hps⟩ := ih (fun m' hm' => h m' (by simp [hm']))
    have h1 := h m (by simp)
    cases hm : m.payload with
    | none => exact absurd hm h1
    | some p => exact ⟨p :: ps, by simp [payloads, hm, hps]⟩

theorem fill_ok {a b : CuTime} {ss : List (Stream V)} {out : List (List V)} (h : fill a b ss = .ok out) :
    Pointwise (fun (s : Stream V) row =>
      row.map some = ((s.buf.filter fun m => decide (Inside a b m.md.tov)).take s.out).map Msg.payload) ss out := by
  induction ss generalizing out with
  | nil => simp [fill] at h; subst h; exact .nil
  | cons s ss ih =>
    simp only [fill, Rs.bind_eq_ok] at h
    obtain ⟨p, h1, ps, h2, h3⟩ := h
    simp only [Rs.ok.injEq] at h3
    subst h3
    refine .cons ?_ (ih h2)
    rw [payloads_ok h1]
    have : s.iterWindow a b = s.buf.filter fun m => decide (Inside a b m.md.tov) := by
      unfold Stream.iterWindow
      apply List.filter_congr
      intro m _
      rw [Bool.eq_iff_iff, inWindow_iff, decide_eq_true_iff]
    rw [this]

theorem fill_total {a b : CuTime} {ss : List (Stream V)} (h : ∀ s ∈ ss, ∀ m ∈ s.buf, m.payload ≠ none) :
    ∃ out, fill a b ss = .ok out := by
  induction ss with
  | nil => exact ⟨[], rfl⟩
  | cons s ss ih =>
    obtain ⟨ps, hps⟩ := ih (fun s' hs' => h s' (by simp [hs']))
    obtain ⟨p, hp⟩ := payloads_total (ms := (s.iterWindow a b).take s.out) (fun m hm => by
      have := List.mem_of_mem_take hm
      unfold Stream.iterWindow at this
      exact h s (by simp) m ((List.mem_filter.mp this).1))
    exact ⟨p :: ps, by simp [fill, hp, hps]⟩

theorem purge_spec (s : Stream V) (h : CuTime) :
    ∃ old, s.buf = old ++ (s.purge h).buf ∧ (∀ m ∈ old, Older h m) ∧
      ∀ m ms, (s.purge h).buf = m :: ms → ¬ Older h m := by
  unfold Stream.purge
  cases hf : s.buf.findIdx? fun m => recent h m.md.tov with
  | none =>
    rw [List.findIdx?_eq_none_iff] at hf
    refine ⟨s.buf, by simp, fun m hm t ht => ?_, by simp⟩
    have h1 := hf m hm
    have h2 := (recent_iff h m.md.tov)
    rw [h1] at h2
    simp only [Bool.false_eq_true, false_iff, not_exists, not_and] at h2
    exact UInt64.not_le.mp (h2 t ht)
  | some i =>
    rw [List.findIdx?_eq_some_iff_getElem] at hf
    obtain ⟨hi, h1, h2⟩ := hf
    simp only [Option.getD_some]
    refine ⟨s.buf.take i, (List.take_append_drop i s.buf).symm, ?_, ?_⟩
    · intro m hm t ht
      obtain ⟨j, hj, rfl⟩ := List.mem_iff_getElem.mp hm
      simp only [List.length_take] at hj
      have h3 := h2 j (by omega)
      rw [List.getElem_take] at ht
      have h4 := recent_iff h (s.buf[j]'(by omega)).md.tov
      simp only [Bool.not_eq_true] at h3
      simp only [h3, Bool.false_eq_true, false_iff, not_exists, not_and] at h4
      exact UInt64.not_le.mp (h4 t ht)
    · intro m ms hm hold
      rw [List.drop_eq_getElem_cons hi] at hm
      simp only [List.cons.injEq] at hm
      rw [hm.1] at h1
      obtain ⟨u, h5, h6⟩ := (recent_iff _ _).mp h1
      exact absurd h6 (UInt64.not_le.mpr (hold u h5))

theorem push_buf (s : Stream V) (m : Msg V) : (s.push m).buf <:+ s.buf ++ [m] ∧ (s.push m).buf.length ≤ max s.cap 0 := by
  unfold Stream.push
  refine ⟨List.drop_suffix _ _, ?_⟩
  simp
  omega

theorem sub_some {o : Overflow} {a b : CuDuration} (h : b.ns ≤ a.ns) : CuDuration.sub o a b = some ⟨a.ns - b.ns⟩ := by
  unfold CuDuration.sub u64Arith
  have h' : b.ns.toNat ≤ a.ns.toNat := by rwa [UInt64.le_iff_toNat_le] at h
  have := a.ns.toNat_lt
  rw [if_pos (by omega)]
  simp only [Option.map_some, Option.some.injEq]
  congr 1
  apply UInt64.toNat_inj.mp
  rw [UInt64.toNat_sub_of_le _ _ h]
  rw [UInt64.toNat_ofNat_of_lt' (by simp [UInt64.size]; omega)]
  omega

/-- The buffers hold the last arrivals. -/
def Holds (sizes : List (Nat × Nat)) (arr : Nat → List (Msg V)) (ss : List (Stream V)) : Prop :=
  ss.length = sizes.length ∧
  ∀ (k : Nat) (s : Stream V) (z : Nat × Nat), ss[k]? = some s → sizes[k]? = some z →
    s.cap = z.1 ∧ s.out = z.2 ∧ s.buf <:+ arr k ∧ s.buf.length ≤ z.1

theorem iterate_holds {o : Overflow} {sizes : List (Nat × Nat)} {arr : Nat → List (Msg V)} {t t' : Task V} {i : Iter V}
    {x : Option (List (List V))} (hi : i.input.length = sizes.length) (hh : Holds sizes arr t.streams)
    (h : t.iterate o i = .ok (t', x)) : Holds sizes (fun k => arr k ++ (i.input[k]?).toList) t'.streams := by
  unfold Task.iterate at h
  simp only [Rs.bind_eq_ok] at h
  obtain ⟨t1, h1, h2⟩ := h
  unfold Task.preprocess at h1
  simp only [Rs.bind_eq_ok, Rs.ok.injEq] at h1
  obtain ⟨hz, _, rfl⟩ := h1
  have hs : t'.streams = (t.streams.map fun s => s.purge hz).zipWith Stream.push i.input := by
    unfold Task.process at h2
    simp only at h2
    split at h2
    · simp only [Rs.ok.injEq, Prod.mk.injEq] at h2
      rw [← h2.1]
    · simp only [Rs.bind_eq_ok, Rs.ok.injEq, Prod.mk.injEq] at h2
      obtain ⟨_, _, _, _, _, _, h3, _⟩ := h2
      rw [← h3]
  obtain ⟨hl, hh⟩ := hh
  refine ⟨by rw [hs]; simp [hl, hi], ?_⟩
  intro k s z hk hz'
  rw [hs, List.getElem?_zipWith] at hk
  cases ha : t.streams[k]? with
  | none => simp [ha] at hk
  | some a =>
    cases hm : i.input[k]? with
    | none => simp [hm] at hk
    | some m =>
      simp only [List.getElem?_map, ha, hm, Option.map_some, Option.some.injEq] at hk
      subst hk
      obtain ⟨c1, c2, c3, c4⟩ := hh k a z ha hz'
      have hp : (a.purge hz).buf <:+ a.buf := List.drop_suffix _ _
      refine ⟨c1, c2, ?_, ?_⟩
      · refine (push_buf (a.purge hz) m).1.trans ?_
        obtain ⟨l, hl⟩ := hp.trans c3
        exact ⟨l, by simp only [hm, ← hl]; simp⟩
      · have := (push_buf (a.purge hz) m).2
        have e : (a.purge hz).cap = z.1 := c1
        omega

theorem run_holds {o : Overflow} {sizes : List (Nat × Nat)} (is : List (Iter V)) :
    ∀ {arr : Nat → List (Msg V)} {t t' : Task V} {xs : List (Option (List (List V)))},
    (∀ i ∈ is, i.input.length = sizes.length) → Holds sizes arr t.streams → t.run o is = .ok (t', xs) →
    Holds sizes (fun k => arr k ++ arrivals k is) t'.streams ∧ xs.length = is.length := by
  induction is with
  | nil =>
    intro arr t t' xs _ hh h
    simp only [Task.run, Rs.ok.injEq, Prod.mk.injEq] at h
    obtain ⟨rfl, rfl⟩ := h
    simpa [arrivals] using hh
  | cons i is ih =>
    intro arr t t' xs hi hh h
    simp only [Task.run, Rs.bind_eq_ok, Prod.exists] at h
    obtain ⟨t1, x, h1, t2, xs', h2, h3⟩ := h
    simp only [Rs.ok.injEq, Prod.mk.injEq] at h3
    obtain ⟨rfl, rfl⟩ := h3
    have := ih (fun j hj => hi j (by simp [hj])) (iterate_holds (hi i (by simp)) hh h1) h2
    refine ⟨?_, by simp [this.2]⟩
    have e : (fun k => arr k ++ (i.input[k]?).toList ++ arrivals k is) = fun k => arr k ++ arrivals k (i :: is) := by
      funext k
      cases hk : i.input[k]? <;> simp [arrivals, hk]
    rw [← e]
    exact this.1

theorem order_new (o : Overflow) (window horizon : CuDuration) (sizes : List (Nat × Nat)) (is : List (Iter V))
    (hi : ∀ i ∈ is, i.input.length = sizes.length) (t : Task V) (outs : List (Option (List (List V))))
    (h : (Task.new window horizon sizes).run o is = .ok (t, outs)) :
    t.streams.length = sizes.length ∧ outs.length = is.length ∧
    ∀ (k : Nat) (s : Stream V) (z : Nat × Nat), t.streams[k]? = some s → sizes[k]? = some z →
      s.cap = z.1 ∧ s.out = z.2 ∧ s.buf <:+ arrivals k is ∧ s.buf.length ≤ z.1 := by
  have h0 : Holds sizes (fun _ => []) (Task.new window horizon sizes : Task V).streams := by
    refine ⟨by simp [Task.new], ?_⟩
    intro k s z hk hz
    simp only [Task.new, List.getElem?_map, hz, Option.map_some, Option.some.injEq] at hk
    subst hk
    simp
  obtain ⟨⟨h1, h2⟩, h3⟩ := run_holds is hi h0 h
  exact ⟨h1, h3, by simpa using h2⟩

end Aligner
end Verif
