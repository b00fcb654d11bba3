import Verif.Spec.ConsoleMon
import Verif.Proofs.Monitoring
import Verif.Proofs.Clock
/-! Lemmas about the console monitor. -/
namespace Verif
namespace ConsoleMon
open Clock Planner Verif.Runtime Monitoring

theorem sub_le (o : Overflow) {a b : CuDuration} (h : b.ns ≤ a.ns) :
    ∃ d, a.sub o b = some d ∧ d.ns.toNat = a.ns.toNat - b.ns.toNat := by
  have h := UInt64.le_iff_toNat_le.1 h
  have hl := a.ns.toNat_lt
  have e : ((a.ns.toNat : Int) - b.ns.toNat) = ((a.ns.toNat - b.ns.toNat : Nat) : Int) := by omega
  refine ⟨⟨UInt64.ofNat (a.ns.toNat - b.ns.toNat)⟩, ?_, ?_⟩
  · unfold CuDuration.sub
    rw [e, u64Arith_exact _ _ (by omega)]
    rfl
  · show (UInt64.ofNat _).toNat = _
    rw [UInt64.toNat_ofNat', Nat.mod_eq_of_lt (by omega)]

theorem duration_ok (o : Overflow) {m : MsgMeta} (h1 : m.processTime.start.isNone = false)
    (h2 : m.processTime.stop.isNone = false)
    (h : m.processTime.start.inner.ns ≤ m.processTime.stop.inner.ns) : duration o m = .ok (took m) := by
  obtain ⟨d, hd, e⟩ := sub_le o h
  unfold duration took
  simp [OptionCuTime.unwrap, h1, h2, hd, e]

theorem endToEnd_ok (o : Overflow) {md : List MsgMeta} (h : Timed md) :
    ∃ d v, endToEnd o md = .ok d ∧ tookAll md = some v ∧ d.ns.toNat = v := by
  cases hh : md.head? with
  | none => exact absurd (List.head?_eq_none_iff.1 hh) h.some
  | some f =>
    cases hg : md.getLast? with
    | none => exact absurd (List.getLast?_eq_none_iff.1 hg) h.some
    | some l =>
      obtain ⟨d, hd, e⟩ := sub_le o (h.whole f hh l hg)
      have h1 := (h.set f (List.mem_of_mem_head? hh)).1
      have h2 := (h.set l (List.mem_of_getLast? hg)).2
      refine ⟨d, d.ns.toNat, ?_, by simp only [tookAll, hh, hg, e], rfl⟩
      unfold endToEnd
      simp [hh, hg, OptionCuTime.unwrap, h1, h2, hd]

/-- Rows and messages, one by one. -/
theorem updateRows_spec {o : Overflow} {rows rows' : List DurStats} {md : List MsgMeta}
    (h : updateRows o rows md = .ok rows') :
    rows'.length = rows.length ∧ ∀ (i : Nat) (row : DurStats), rows[i]? = some row → ∃ row' : DurStats, rows'[i]? = some row' ∧
      ((md[i]? = none ∧ row' = row) ∨
        ∃ (m : MsgMeta) (d : Nat), md[i]? = some m ∧ duration o m = .ok d ∧ row.record d = .ok row') := by
  induction md generalizing rows rows' with
  | nil =>
    cases rows <;> (simp only [updateRows, Rs.ok.injEq] at h; subst h; exact ⟨rfl, fun i row hr => ⟨row, hr, .inl ⟨by simp, rfl⟩⟩⟩)
  | cons m md ih =>
    cases rows with
    | nil => simp [updateRows] at h
    | cons s rows =>
      simp only [updateRows, Rs.bind_eq_ok, Rs.pure_eq, Rs.ok.injEq] at h
      obtain ⟨d, hd, s', hs, r, hr, e⟩ := h
      subst e
      obtain ⟨hl, hi⟩ := ih hr
      refine ⟨by simp [hl], ?_⟩
      intro i row hrow
      cases i with
      | zero =>
        simp only [List.getElem?_cons_zero, Option.some.injEq] at hrow ⊢
        subst hrow
        exact ⟨s', rfl, .inr ⟨m, d, rfl, hd, hs⟩⟩
      | succ i => simpa using hi i row (by simpa using hrow)

theorem updateRows_ok {o : Overflow} {N : Nat} {lat : Nat → List Nat} {rows : List DurStats} {md : List MsgMeta}
    (hl : md.length ≤ rows.length)
    (hi : ∀ (i : Nat) (row : DurStats), rows[i]? = some row → Inv N (lat i) row)
    (hd : ∀ m ∈ md, ∃ d, duration o m = .ok d ∧ d < 2048 * 2 ^ N) : ∃ rows', updateRows o rows md = .ok rows' := by
  induction md generalizing rows lat with
  | nil => cases rows <;> exact ⟨_, rfl⟩
  | cons m md ih =>
    cases rows with
    | nil => simp at hl
    | cons s rows =>
      obtain ⟨d, hd1, hd2⟩ := hd m (by simp)
      obtain ⟨s', hs, _⟩ := ((hi 0 s rfl).record d).1 hd2
      obtain ⟨r, hr⟩ := ih (lat := fun i => lat (i + 1)) (by simpa using hl) (fun i row h => hi (i + 1) row (by simpa using h))
        (fun m hm => hd m (by simp [hm]))
      exact ⟨s' :: r, by simp [updateRows, hd1, hs, hr]⟩

theorem updateTexts_spec {ss ss' : List TaskStatus} {md : List MsgMeta} (h : updateTexts ss md = .ok ss') :
    ss'.length = ss.length ∧ ∀ (i : Nat) (s : TaskStatus), ss[i]? = some s → ∃ s' : TaskStatus, ss'[i]? = some s' ∧
      ((md[i]? = none ∧ s' = s) ∨
        ∃ (m : MsgMeta) (t : String), md[i]? = some m ∧ keptText m.statusTxt = .ok t ∧ s' = { s with statusTxt := t }) := by
  induction md generalizing ss ss' with
  | nil =>
    cases ss <;> (simp only [updateTexts, Rs.ok.injEq] at h; subst h; exact ⟨rfl, fun i s hr => ⟨s, hr, .inl ⟨by simp, rfl⟩⟩⟩)
  | cons m md ih =>
    cases ss with
    | nil => simp [updateTexts] at h
    | cons s ss =>
      simp only [updateTexts, Rs.bind_eq_ok, Rs.pure_eq, Rs.ok.injEq] at h
      obtain ⟨t, ht, r, hr, e⟩ := h
      subst e
      obtain ⟨hl, hi⟩ := ih hr
      refine ⟨by simp [hl], ?_⟩
      intro i s₁ hs
      cases i with
      | zero =>
        simp only [List.getElem?_cons_zero, Option.some.injEq] at hs ⊢
        subst hs
        exact ⟨_, rfl, .inr ⟨m, t, rfl, ht, rfl⟩⟩
      | succ i => simpa using hi i s₁ (by simpa using hs)

theorem keptText_ok {t : String} (h : t ≠ "") : ∃ u, keptText t = .ok u := by
  unfold keptText
  split
  · rename_i e
    exact absurd (String.ext (by simpa using e)) h
  · exact ⟨_, rfl⟩

theorem keptText_eq {t u : String} (h : keptText t = .ok u) :
    u = if t.toList.head? = some '\x00' then "" else t := by
  unfold keptText at h
  split at h
  · cases h
  · rename_i c l e
    simp only [Rs.ok.injEq] at h
    simp [← h, e]

theorem updateTexts_ok {ss : List TaskStatus} {md : List MsgMeta} (hl : md.length ≤ ss.length)
    (ht : ∀ m ∈ md, m.statusTxt ≠ "") : ∃ ss', updateTexts ss md = .ok ss' := by
  induction md generalizing ss with
  | nil => cases ss <;> exact ⟨_, rfl⟩
  | cons m md ih =>
    cases ss with
    | nil => simp at hl
    | cons s ss =>
      obtain ⟨t, h1⟩ := keptText_ok (ht m (by simp))
      obtain ⟨r, hr⟩ := ih (ss := ss) (by simpa using hl) (fun m hm => ht m (by simp [hm]))
      exact ⟨{ s with statusTxt := t } :: r, by simp [updateTexts, h1, hr]⟩

theorem Inv.reset {n : Nat} {l : List Nat} {s : DurStats} (hi : Inv n l s) : Inv n [] s.reset :=
  ⟨by simp [DurStats.reset, Hist.reset, hi.bare], by simp [DurStats.reset, Hist.reset, hi.jitter, differences],
    by simp, by simp⟩

/-- The log of the reach of the histograms. -/
abbrev N : Nat := doublings maxLatency

/-- The rows hold the figures of these latencies. -/
structure Rows (n : Nat) (lat : Nat → List Nat) (m : Mon) : Prop where
  rows : m.stats.stats.length = n
  statuses : m.statuses.length = n
  inv : ∀ (i : Nat) (row : DurStats), m.stats.stats[i]? = some row → Inv N (lat i) row

theorem new_ok (n : Nat) : ∃ m, Mon.new n = .ok m ∧ Rows n (fun _ => []) m ∧ Inv N [] m.stats.end2end ∧
    m.statuses = List.replicate n ⟨false, "", ""⟩ ∧ m.quitting = false := by
  have h : DurStats.new maxLatency = .ok ⟨⟨some (doublings maxLatency), []⟩, ⟨some (doublings maxLatency), []⟩, 0⟩ := by
    simp [DurStats.new, Live.newWithMax, Hist.newWithBounds, maxLatency]
  have hi := new_inv h
  refine ⟨⟨⟨List.replicate n ⟨⟨some (doublings maxLatency), []⟩, ⟨some (doublings maxLatency), []⟩, 0⟩, _⟩, List.replicate n ⟨false, "", ""⟩, false⟩,
    by simp only [Mon.new, TaskStats.new, h, Rs.ok_bind, Rs.pure_eq], ⟨?_, ?_, ?_⟩, hi, rfl, rfl⟩
  · simp
  · simp
  · intro i row hr
    rw [List.getElem?_replicate] at hr
    split at hr
    · cases hr
      exact hi
    · cases hr

theorem iteration_eq {o : Overflow} {m m' : Mon} {md : List MsgMeta} {r : Option Err}
    (h : m.processCopperlist o md = .ok (m', r)) :
    updateRows o m.stats.stats md = .ok m'.stats.stats ∧
    (∃ l, endToEnd o md = .ok l ∧ m.stats.end2end.record l.ns.toNat = .ok m'.stats.end2end) ∧
    updateTexts m.statuses md = .ok m'.statuses ∧ m'.quitting = m.quitting ∧
    r = if m.quitting then some "Exiting..." else none := by
  simp only [Mon.processCopperlist, TaskStats.update, Rs.bind_eq_ok, Rs.pure_eq, Rs.ok.injEq, Prod.mk.injEq] at h
  obtain ⟨t, ⟨rows, h1, l, h2, e, h3, h4⟩, ss, h5, h6, h7⟩ := h
  subst h4 h6
  exact ⟨h1, ⟨l, h2, h3⟩, h5, rfl, h7.symm⟩

/-- What one event does to the latencies. -/
def latStep (e : Event) (i : Nat) (acc : List Nat) : List Nat := latencies i [e] acc

theorem latencies_cons (i : Nat) (e : Event) (es : List Event) (acc : List Nat) :
    latencies i (e :: es) acc = latencies i es (latStep e i acc) := by
  cases e <;> rfl

theorem wholeLatencies_cons (e : Event) (es : List Event) (acc : List Nat) :
    wholeLatencies (e :: es) acc = wholeLatencies es (wholeLatencies [e] acc) := by
  cases e <;> rfl

theorem rows_step {o : Overflow} {n : Nat} {lat : Nat → List Nat} {m m' : Mon} {e : Event} {r : Reply}
    (hr : Rows n lat m) (ht : ∀ md, e = .iteration md → Timed md) (h : m.step o e = .ok (m', r)) :
    Rows n (fun i => latStep e i (lat i)) m' := by
  cases e with
  | iteration md =>
    simp only [Mon.step, Rs.bind_eq_ok, Rs.pure_eq, Rs.ok.injEq, Prod.mk.injEq] at h
    obtain ⟨⟨m₁, x⟩, h1, h2, -⟩ := h
    subst h2
    obtain ⟨hu, -, hs, -, -⟩ := iteration_eq h1
    obtain ⟨hl, hu⟩ := updateRows_spec hu
    refine ⟨hl.trans hr.rows, (updateTexts_spec hs).1.trans hr.statuses, ?_⟩
    intro i row' hrow'
    have hlt : i < m.stats.stats.length := by
      rw [← hl]
      exact (List.getElem?_eq_some_iff.1 hrow').1
    obtain ⟨row'', h1, h2⟩ := hu i _ (List.getElem?_eq_getElem hlt)
    rw [show m₁.stats.stats[i]? = some row' from hrow'] at h1
    cases h1
    have hi := hr.inv i _ (List.getElem?_eq_getElem hlt)
    rcases h2 with ⟨h2, h3⟩ | ⟨m₂, d, h2, h3, h4⟩
    · subst h3
      simpa [latStep, latencies, h2] using hi
    · have hm := List.mem_of_getElem? h2
      have := duration_ok o ((ht md rfl).set m₂ hm).1 ((ht md rfl).set m₂ hm).2 ((ht md rfl).task m₂ hm)
      rw [h3] at this
      cases this
      have hsm : took m₂ < 2048 * 2 ^ N := by
        apply Decidable.byContradiction
        intro hsm
        rw [(hi.record _).2 hsm] at h4
        cases h4
      obtain ⟨s', h5, h6⟩ := (hi.record _).1 hsm
      rw [h5] at h4
      cases h4
      simpa [latStep, latencies, h2] using h6
  | failure t p x =>
    simp only [Mon.step, Mon.processError] at h
    split at h
    · cases h
    · simp only [Rs.ok_bind, Rs.pure_eq, Rs.ok.injEq, Prod.mk.injEq] at h
      obtain ⟨h, -⟩ := h
      subst h
      exact ⟨hr.rows, by simpa using hr.statuses, hr.inv⟩
  | draw =>
    simp only [Mon.step, Rs.ok.injEq, Prod.mk.injEq] at h
    obtain ⟨h, -⟩ := h
    subst h
    exact ⟨hr.rows, by simpa [Mon.draw] using hr.statuses, hr.inv⟩
  | quit =>
    simp only [Mon.step, Rs.ok.injEq, Prod.mk.injEq] at h
    obtain ⟨h, -⟩ := h
    subst h
    exact ⟨hr.rows, hr.statuses, hr.inv⟩
  | reset =>
    simp only [Mon.step, Rs.ok.injEq, Prod.mk.injEq] at h
    obtain ⟨h, -⟩ := h
    subst h
    refine ⟨by simpa [TaskStats.reset] using hr.rows, hr.statuses, ?_⟩
    intro i row h
    simp only [TaskStats.reset, List.getElem?_map, Option.map_eq_some_iff] at h
    obtain ⟨row, h, e⟩ := h
    subst e
    exact (hr.inv i row h).reset
  | stop =>
    simp only [Mon.step, Rs.ok.injEq, Prod.mk.injEq] at h
    obtain ⟨h, -⟩ := h
    subst h
    refine ⟨by simpa [Mon.stop] using hr.rows, hr.statuses, ?_⟩
    intro i row h
    simp only [Mon.stop, List.getElem?_map, Option.map_eq_some_iff] at h
    obtain ⟨row, h, e⟩ := h
    subst e
    exact (hr.inv i row h).reset

theorem whole_step {o : Overflow} {acc : List Nat} {m m' : Mon} {e : Event} {r : Reply}
    (hi : Inv N acc m.stats.end2end) (ht : ∀ md, e = .iteration md → Timed md) (hs : e ≠ .stop)
    (h : m.step o e = .ok (m', r)) : Inv N (wholeLatencies [e] acc) m'.stats.end2end := by
  cases e with
  | iteration md =>
    simp only [Mon.step, Rs.bind_eq_ok, Rs.pure_eq, Rs.ok.injEq, Prod.mk.injEq] at h
    obtain ⟨⟨m₁, x⟩, h1, h2, -⟩ := h
    subst h2
    obtain ⟨-, ⟨l, h3, h4⟩, -, -, -⟩ := iteration_eq h1
    obtain ⟨d, v, h5, h6, h7⟩ := endToEnd_ok o (ht md rfl)
    rw [h3] at h5
    cases h5
    rw [h7] at h4
    have hsm : v < 2048 * 2 ^ N := by
      apply Decidable.byContradiction
      intro hsm
      rw [(hi.record _).2 hsm] at h4
      cases h4
    obtain ⟨s', h8, h9⟩ := (hi.record _).1 hsm
    rw [h8] at h4
    simp only [Rs.ok.injEq] at h4
    simpa [wholeLatencies, h6, ← h4] using h9
  | failure t p x =>
    simp only [Mon.step, Mon.processError] at h
    split at h
    · cases h
    · simp only [Rs.ok_bind, Rs.pure_eq, Rs.ok.injEq, Prod.mk.injEq] at h
      obtain ⟨h, -⟩ := h
      subst h
      exact hi
  | draw =>
    simp only [Mon.step, Rs.ok.injEq, Prod.mk.injEq] at h
    obtain ⟨h, -⟩ := h
    subst h
    exact hi
  | quit =>
    simp only [Mon.step, Rs.ok.injEq, Prod.mk.injEq] at h
    obtain ⟨h, -⟩ := h
    subst h
    exact hi
  | reset =>
    simp only [Mon.step, Rs.ok.injEq, Prod.mk.injEq] at h
    obtain ⟨h, -⟩ := h
    subst h
    exact hi.reset
  | stop => exact absurd rfl hs

theorem run_cons {o : Overflow} {m m' : Mon} {e : Event} {es : List Event} {rs : List Reply} :
    Mon.run o m (e :: es) = .ok (m', rs) ↔
      ∃ m₁ r rs', m.step o e = .ok (m₁, r) ∧ Mon.run o m₁ es = .ok (m', rs') ∧ rs = r :: rs' := by
  simp only [Mon.run, Rs.bind_eq_ok, Rs.pure_eq, Rs.ok.injEq, Prod.mk.injEq, Prod.exists]
  constructor
  · rintro ⟨m₁, r, h, m₂, rs', h1, h2, h3⟩
    subst h2 h3
    exact ⟨m₁, r, rs', h, h1, rfl⟩
  · rintro ⟨m₁, r, rs', h, h1, h2⟩
    subst h2
    exact ⟨m₁, r, h, m', rs', h1, rfl, rfl⟩

theorem rows_run {o : Overflow} {n : Nat} (es : List Event) {lat : Nat → List Nat} {m m' : Mon} {rs : List Reply}
    (hr : Rows n lat m) (ht : ∀ md, Event.iteration md ∈ es → Timed md) (h : m.run o es = .ok (m', rs)) :
    Rows n (fun i => latencies i es (lat i)) m' := by
  induction es generalizing m lat rs with
  | nil =>
    simp only [Mon.run, Rs.ok.injEq, Prod.mk.injEq] at h
    obtain ⟨h, -⟩ := h
    subst h
    exact hr
  | cons e es ih =>
    obtain ⟨m₁, r, rs', h1, h2, -⟩ := run_cons.1 h
    have := ih (rows_step hr (fun md hmd => ht md (by simp [hmd])) h1) (fun md hmd => ht md (by simp [hmd])) h2
    simpa only [latencies_cons] using this

theorem whole_run {o : Overflow} (es : List Event) {acc : List Nat} {m m' : Mon} {rs : List Reply}
    (hr : Inv N acc m.stats.end2end) (ht : ∀ md, Event.iteration md ∈ es → Timed md) (hs : Event.stop ∉ es)
    (h : m.run o es = .ok (m', rs)) : Inv N (wholeLatencies es acc) m'.stats.end2end := by
  induction es generalizing m acc rs with
  | nil =>
    simp only [Mon.run, Rs.ok.injEq, Prod.mk.injEq] at h
    obtain ⟨h, -⟩ := h
    subst h
    exact hr
  | cons e es ih =>
    obtain ⟨m₁, r, rs', h1, h2, -⟩ := run_cons.1 h
    have := ih (whole_step hr (fun md hmd => ht md (by simp [hmd])) (fun h => hs (by simp [h])) h1)
      (fun md hmd => ht md (by simp [hmd])) (fun h => hs (by simp [h])) h2
    simpa only [wholeLatencies_cons e es] using this

/-! ### Statuses -/

/-- The statuses of the monitor, after a history whose most recent event comes first. -/
def Track (h : List Event) (m : Mon) : Prop :=
  ∀ (i : Nat) (s : TaskStatus), m.statuses[i]? = some s →
    s.isError = (pendingError i h).isSome ∧ (∀ e, pendingError i h = some e → s.error = e) ∧
    s.statusTxt = lastStatus i h

theorem track_step {o : Overflow} {hist : List Event} {m m' : Mon} {e : Event} {r : Reply}
    (ht : Track hist m) (h : m.step o e = .ok (m', r)) : Track (e :: hist) m' := by
  cases e with
  | iteration md =>
    simp only [Mon.step, Rs.bind_eq_ok, Rs.pure_eq, Rs.ok.injEq, Prod.mk.injEq] at h
    obtain ⟨⟨m₁, x⟩, h1, h2, -⟩ := h
    subst h2
    obtain ⟨-, -, hs, -, -⟩ := iteration_eq h1
    obtain ⟨hl, hs⟩ := updateTexts_spec hs
    intro i s' hs'
    have hlt : i < m.statuses.length := by
      rw [← hl]
      exact (List.getElem?_eq_some_iff.1 hs').1
    obtain ⟨s'', h1, h2⟩ := hs i _ (List.getElem?_eq_getElem hlt)
    rw [show m₁.statuses[i]? = some s' from hs'] at h1
    cases h1
    obtain ⟨a, b, c⟩ := ht i _ (List.getElem?_eq_getElem hlt)
    rcases h2 with ⟨h2, h3⟩ | ⟨m₂, t, h2, h3, h4⟩
    · subst h3
      exact ⟨a, b, by simpa [lastStatus, h2] using c⟩
    · subst h4
      exact ⟨a, b, by simpa [lastStatus, h2] using keptText_eq h3⟩
  | failure t p x =>
    simp only [Mon.step, Mon.processError] at h
    split at h
    · cases h
    · rename_i s hs
      simp only [Rs.ok_bind, Rs.pure_eq, Rs.ok.injEq, Prod.mk.injEq] at h
      obtain ⟨h, -⟩ := h
      subst h
      intro i s' hs'
      simp only [List.getElem?_set] at hs'
      by_cases hti : t = i
      · subst hti
        obtain ⟨a, b, c⟩ := ht t s hs
        rw [if_pos rfl] at hs'
        split at hs'
        · cases hs'
          refine ⟨by simp [pendingError], by simp [pendingError], by simpa [lastStatus] using c⟩
        · cases hs'
      · rw [if_neg hti] at hs'
        obtain ⟨a, b, c⟩ := ht i s' hs'
        exact ⟨by simpa [pendingError, hti] using a, by simpa [pendingError, hti] using b,
          by simpa [lastStatus] using c⟩
  | draw =>
    simp only [Mon.step, Rs.ok.injEq, Prod.mk.injEq] at h
    obtain ⟨h, -⟩ := h
    subst h
    intro i s' hs'
    simp only [Mon.draw, List.getElem?_map, Option.map_eq_some_iff] at hs'
    obtain ⟨s, hs, e⟩ := hs'
    subst e
    obtain ⟨a, b, c⟩ := ht i s hs
    exact ⟨by simp [pendingError], by simp [pendingError], by simpa [lastStatus] using c⟩
  | quit =>
    simp only [Mon.step, Rs.ok.injEq, Prod.mk.injEq] at h
    obtain ⟨h, -⟩ := h
    subst h
    exact ht
  | reset =>
    simp only [Mon.step, Rs.ok.injEq, Prod.mk.injEq] at h
    obtain ⟨h, -⟩ := h
    subst h
    exact ht
  | stop =>
    simp only [Mon.step, Rs.ok.injEq, Prod.mk.injEq] at h
    obtain ⟨h, -⟩ := h
    subst h
    exact ht

theorem run_append {o : Overflow} {m m' : Mon} {es es' : List Event} {rs : List Reply} :
    Mon.run o m (es ++ es') = .ok (m', rs) ↔
      ∃ m₁ rs₁ rs₂, m.run o es = .ok (m₁, rs₁) ∧ Mon.run o m₁ es' = .ok (m', rs₂) ∧ rs = rs₁ ++ rs₂ := by
  induction es generalizing m rs with
  | nil =>
    simp only [List.nil_append, Mon.run, Rs.ok.injEq, Prod.mk.injEq]
    constructor
    · intro h
      exact ⟨m, [], rs, ⟨rfl, rfl⟩, h, rfl⟩
    · rintro ⟨m₁, rs₁, rs₂, ⟨h1, h2⟩, h, h3⟩
      subst h1 h2 h3
      exact h
  | cons e es ih =>
    rw [List.cons_append, run_cons]
    constructor
    · rintro ⟨m₁, r, rs', h1, h2, h3⟩
      obtain ⟨m₂, rs₁, rs₂, h4, h5, h6⟩ := ih.1 h2
      subst h3 h6
      exact ⟨m₂, r :: rs₁, rs₂, run_cons.2 ⟨m₁, r, rs₁, h1, h4, rfl⟩, h5, rfl⟩
    · rintro ⟨m₂, rs₁, rs₂, h1, h2, h3⟩
      obtain ⟨m₁, r, rs', h4, h5, h6⟩ := run_cons.1 h1
      subst h3 h6
      exact ⟨m₁, r, rs' ++ rs₂, h4, ih.2 ⟨m₂, rs', rs₂, h5, h2, rfl⟩, rfl⟩

theorem track_run {o : Overflow} (es : List Event) {hist : List Event} {m m' : Mon} {rs : List Reply}
    (ht : Track hist m) (h : m.run o es = .ok (m', rs)) : Track (es.reverse ++ hist) m' := by
  induction es generalizing m hist rs with
  | nil =>
    simp only [Mon.run, Rs.ok.injEq, Prod.mk.injEq] at h
    obtain ⟨h, -⟩ := h
    subst h
    exact ht
  | cons e es ih =>
    obtain ⟨m₁, r, rs', h1, h2, -⟩ := run_cons.1 h
    simpa using ih (track_step ht h1) h2

theorem line_eq {hist : List Event} {m : Mon} (ht : Track hist.reverse m) :
    m.statuses.map TaskStatus.line = (List.range m.statuses.length).map (shouldShow hist) := by
  apply List.ext_getElem?
  intro i
  simp only [List.getElem?_map]
  by_cases hi : i < m.statuses.length
  · rw [List.getElem?_eq_getElem hi, List.getElem?_range hi]
    obtain ⟨a, b, c⟩ := ht i _ (List.getElem?_eq_getElem hi)
    simp only [Option.map_some, Option.some.injEq, TaskStatus.line, shouldShow]
    cases hp : pendingError i hist.reverse with
    | none =>
      rw [hp] at a
      simp [a, c]
    | some e =>
      rw [hp] at a
      simp [a, b e hp]
  · rw [List.getElem?_eq_none (by omega), List.getElem?_eq_none (by simp; omega)]
    rfl

theorem quitting_step {o : Overflow} {m m' : Mon} {e : Event} {r : Reply} (h : m.step o e = .ok (m', r)) :
    m'.quitting = (m.quitting || decide (e = .quit)) ∧
    (∀ md, e = .iteration md → r = .result (if m.quitting then some "Exiting..." else none)) ∧
    (∀ t p x, e = .failure t p x → r = .decision (decide' p)) := by
  cases e with
  | iteration md =>
    simp only [Mon.step, Rs.bind_eq_ok, Rs.pure_eq, Rs.ok.injEq, Prod.mk.injEq] at h
    obtain ⟨⟨m₁, x⟩, h1, h2, h3⟩ := h
    subst h2 h3
    obtain ⟨-, -, -, h4, h5⟩ := iteration_eq h1
    exact ⟨by simp [h4], by simp [h5], by simp⟩
  | failure t p x =>
    simp only [Mon.step, Mon.processError] at h
    split at h
    · cases h
    · simp only [Rs.ok_bind, Rs.pure_eq, Rs.ok.injEq, Prod.mk.injEq] at h
      obtain ⟨h, h'⟩ := h
      subst h h'
      simp
  | draw =>
    simp only [Mon.step, Rs.ok.injEq, Prod.mk.injEq] at h
    obtain ⟨h, -⟩ := h
    subst h
    simp [Mon.draw]
  | quit =>
    simp only [Mon.step, Rs.ok.injEq, Prod.mk.injEq] at h
    obtain ⟨h, -⟩ := h
    subst h
    simp
  | reset =>
    simp only [Mon.step, Rs.ok.injEq, Prod.mk.injEq] at h
    obtain ⟨h, -⟩ := h
    subst h
    simp
  | stop =>
    simp only [Mon.step, Rs.ok.injEq, Prod.mk.injEq] at h
    obtain ⟨h, -⟩ := h
    subst h
    simp [Mon.stop]

theorem quitting_run {o : Overflow} (es : List Event) {m m' : Mon} {rs : List Reply} (h : m.run o es = .ok (m', rs)) :
    m'.quitting = (m.quitting || decide (Event.quit ∈ es)) := by
  induction es generalizing m rs with
  | nil =>
    simp only [Mon.run, Rs.ok.injEq, Prod.mk.injEq] at h
    obtain ⟨h, -⟩ := h
    subst h
    simp
  | cons e es ih =>
    obtain ⟨m₁, r, rs', h1, h2, -⟩ := run_cons.1 h
    rw [ih h2, (quitting_step h1).1]
    simp [Bool.or_assoc, eq_comm]

/-! ### No panic -/

theorem step_ok {o : Overflow} {n : Nat} {lat : Nat → List Nat} {acc : List Nat} {m : Mon} {e : Event}
    (hr : Rows n lat m) (hw : Inv N acc m.stats.end2end)
    (hi : ∀ md, e = .iteration md → Timed md ∧ md.length ≤ n ∧ (∀ x ∈ md, took x ≤ maxLatency) ∧
      (∀ v ∈ tookAll md, v ≤ maxLatency) ∧ ∀ x ∈ md, x.statusTxt ≠ "")
    (hf : ∀ t p x, e = .failure t p x → t < n) : ∃ r, m.step o e = .ok r := by
  cases e with
  | iteration md =>
    obtain ⟨ht, hl, hd, ha, hx⟩ := hi md rfl
    have hreach : ∀ v, v ≤ maxLatency → v < 2048 * 2 ^ N := fun v hv => Nat.lt_of_le_of_lt hv (lt_reach maxLatency)
    obtain ⟨rows', h1⟩ := updateRows_ok (o := o) (md := md) (by rw [hr.rows]; exact hl) hr.inv
      (fun x hm => ⟨_, duration_ok o (ht.set x hm).1 (ht.set x hm).2 (ht.task x hm), hreach _ (hd x hm)⟩)
    obtain ⟨d, v, h2, h3, h4⟩ := endToEnd_ok o ht
    obtain ⟨e', h5, -⟩ := (hw.record v).1 (hreach v (ha v (by simp [h3])))
    obtain ⟨ss, h6⟩ := updateTexts_ok (md := md) (by rw [hr.statuses]; exact hl) hx
    simp only [Mon.step, Mon.processCopperlist, TaskStats.update, h1, h2, h4, h5, h6, Rs.ok_bind, Rs.pure_eq]
    exact ⟨_, rfl⟩
  | failure t p x =>
    have : t < m.statuses.length := by rw [hr.statuses]; exact hf t p x rfl
    simp only [Mon.step, Mon.processError, List.getElem?_eq_getElem this, Rs.ok_bind, Rs.pure_eq]
    exact ⟨_, rfl⟩
  | draw => exact ⟨_, rfl⟩
  | quit => exact ⟨_, rfl⟩
  | reset => exact ⟨_, rfl⟩
  | stop => exact ⟨_, rfl⟩

/-- The statistics of whole iterations stay consistent, whatever happens. -/
theorem whole_step' {o : Overflow} {acc : List Nat} {m m' : Mon} {e : Event} {r : Reply}
    (hi : Inv N acc m.stats.end2end) (ht : ∀ md, e = .iteration md → Timed md)
    (h : m.step o e = .ok (m', r)) : ∃ acc', Inv N acc' m'.stats.end2end := by
  by_cases hs : e = .stop
  · subst hs
    simp only [Mon.step, Rs.ok.injEq, Prod.mk.injEq] at h
    obtain ⟨h, -⟩ := h
    subst h
    exact ⟨acc, hi⟩
  · exact ⟨_, whole_step hi ht hs h⟩

theorem run_ok {o : Overflow} {n : Nat} (es : List Event) {lat : Nat → List Nat} {acc : List Nat} {m : Mon}
    (hr : Rows n lat m) (hw : Inv N acc m.stats.end2end)
    (hi : ∀ md, Event.iteration md ∈ es → Timed md ∧ md.length ≤ n ∧ (∀ x ∈ md, took x ≤ maxLatency) ∧
      (∀ v ∈ tookAll md, v ≤ maxLatency) ∧ ∀ x ∈ md, x.statusTxt ≠ "")
    (hf : ∀ t p x, Event.failure t p x ∈ es → t < n) : ∃ r, m.run o es = .ok r := by
  induction es generalizing lat acc m with
  | nil => exact ⟨_, rfl⟩
  | cons e es ih =>
    obtain ⟨⟨m₁, r⟩, h1⟩ := step_ok (o := o) (e := e) hr hw (fun md h => hi md (by simp [h]))
      (fun t p x h => hf t p x (by simp [h]))
    obtain ⟨acc', hw'⟩ := whole_step' hw (fun md h => (hi md (by simp [h])).1) h1
    obtain ⟨⟨m₂, rs⟩, h2⟩ := ih (rows_step hr (fun md h => (hi md (by simp [h])).1) h1) hw'
      (fun md h => hi md (by simp [h])) (fun t p x h => hf t p x (by simp [h]))
    exact ⟨_, run_cons.2 ⟨m₁, r, rs, h1, h2, rfl⟩⟩

/-! ### Nodes -/

theorem symbol_incoming (i u : Bool) : (symbol i u).addIncoming = symbol true u := by
  cases i <;> cases u <;> rfl

theorem symbol_outgoing (i u : Bool) : (symbol i u).addOutgoing = symbol i true := by
  cases i <;> cases u <;> rfl

theorem addEdge_symbol {types : List NodeType} {fi fo : Nat → Bool} (n : Nat) (e : Edge)
    (h : types = (List.range n).map (fun v => symbol (fi v) (fo v))) :
    addEdge types e = (List.range n).map (fun v => symbol (fi v || e.dst == v) (fo v || e.src == v)) := by
  subst h
  apply List.ext_getElem?
  intro v
  simp only [addEdge, List.getElem?_modify, List.getElem?_map]
  by_cases hv : v < n
  · rw [List.getElem?_range hv]
    have d1 : (e.dst == v) = decide (e.dst = v) := by rw [Bool.eq_iff_iff]; simp
    have d2 : (e.src == v) = decide (e.src = v) := by rw [Bool.eq_iff_iff]; simp
    simp only [Option.map_some, d1, d2]
    by_cases h1 : e.dst = v <;> by_cases h2 : e.src = v <;>
      simp [h1, h2, symbol_incoming, symbol_outgoing]
  · rw [List.getElem?_eq_none (by simp; omega)]
    simp

theorem foldl_addEdge (n : Nat) (es : List Edge) {types : List NodeType} {fi fo : Nat → Bool}
    (h : types = (List.range n).map (fun v => symbol (fi v) (fo v))) :
    es.foldl addEdge types =
      (List.range n).map (fun v => symbol (fi v || es.any (fun e => e.dst == v)) (fo v || es.any (fun e => e.src == v))) := by
  induction es generalizing types fi fo with
  | nil => simp [h]
  | cons e es ih =>
    rw [List.foldl_cons, ih (addEdge_symbol n e h)]
    simp [Bool.or_assoc]

theorem dropBytes_ascii (n : Nat) (l : List Char) (h : ∀ c ∈ l, c.utf8Size = 1) (hn : n ≤ l.length) :
    dropBytes n l = .ok (l.drop n) := by
  induction l generalizing n with
  | nil =>
    have : n = 0 := by simpa using hn
    subst this
    rfl
  | cons c l ih =>
    cases n with
    | zero => rfl
    | succ n =>
      have := h c (by simp)
      simp only [dropBytes, this]
      rw [if_pos (by omega)]
      simpa using ih n (fun c hc => h c (by simp [hc])) (by simpa using hn)

theorem byteLen_ascii (l : List Char) (h : ∀ c ∈ l, c.utf8Size = 1) : byteLen l = l.length := by
  induction l with
  | nil => rfl
  | cons c l ih =>
    have := ih (fun c hc => h c (by simp [hc]))
    simp only [byteLen, List.map_cons, List.sum_cons, List.length_cons] at this ⊢
    rw [h c (by simp), this]
    omega

/-! ### Pools -/

theorem update_id (now : Nat) (p : PoolStats) (s t : Nat) : (p.update now s t).id = p.id := by
  unfold PoolStats.update
  dsimp only
  split <;> rfl

theorem look_updatePool (now : Nat) (ps : List PoolStats) (f : PoolFigures) (id : String) :
    look id (updatePool now ps f) =
      if f.1 = id then
        some (match look id ps with
          | some p => p.update now f.2.1 f.2.2.1
          | none => PoolStats.new now f.1 f.2.1 f.2.2.1 f.2.2.2)
      else look id ps := by
  unfold updatePool
  induction ps with
  | nil =>
    by_cases h : f.1 = id <;> simp [look, PoolStats.new, h]
  | cons p ps ih =>
    rw [List.findIdx?_cons]
    by_cases hp : p.id = f.1
    · simp only [hp, beq_self_eq_true, if_true]
      by_cases h : f.1 = id
      · subst h
        simp [look, hp, update_id]
      · simp [look, hp, update_id, h]
    · have hp' : (p.id == f.1) = false := by simpa using hp
      simp only [hp', Bool.false_eq_true, if_false]
      cases hf : ps.findIdx? (fun p => p.id == f.1) with
      | none =>
        rw [hf] at ih
        simp only [Option.map_none] at ih ⊢
        by_cases h : p.id = id
        · have : ¬ f.1 = id := fun h' => hp (h.trans h'.symm)
          simp [look, h, this]
        · have h' : (p.id == id) = false := by simpa using h
          simpa [look, h'] using ih
      | some i =>
        rw [hf] at ih
        simp only [Option.map_some] at ih ⊢
        by_cases h : p.id = id
        · have : ¬ f.1 = id := fun h' => hp (h.trans h'.symm)
          simp [look, h, this]
        · have h' : (p.id == id) = false := by simpa using h
          simpa [look, h'] using ih

theorem update_figures (now : Nat) (p : PoolStats) (s t : Nat) : (p.update now s t).figures = (s, t, inUse s t) := by
  unfold PoolStats.update
  dsimp only
  split <;> rfl

theorem figures_updatePool (now : Nat) (ps : List PoolStats) (f : PoolFigures) (id : String) :
    (look id (updatePool now ps f)).map PoolStats.figures =
      if f.1 = id then some (f.2.1, f.2.2.1, inUse f.2.1 f.2.2.1) else (look id ps).map PoolStats.figures := by
  rw [look_updatePool]
  split
  · cases look id ps with
    | none => rfl
    | some p => exact congrArg some (update_figures now p _ _)
  · rfl

theorem figures_updatePools (now : Nat) (fs : List PoolFigures) (ps : List PoolStats) (id : String) :
    (look id (updatePools now ps fs)).map PoolStats.figures =
      match fs.reverse.find? (fun f => f.1 == id) with
      | some f => some (f.2.1, f.2.2.1, inUse f.2.1 f.2.2.1)
      | none => (look id ps).map PoolStats.figures := by
  induction fs generalizing ps with
  | nil => rfl
  | cons f fs ih =>
    have : updatePools now ps (f :: fs) = updatePools now (updatePool now ps f) fs := rfl
    rw [this, ih, List.reverse_cons, List.find?_append]
    cases fs.reverse.find? (fun f => f.1 == id) with
    | some g => rfl
    | none =>
      simp only [Option.none_or, figures_updatePool]
      by_cases h : f.1 = id
      · simp [h]
      · have h' : (f.1 == id) = false := by simpa using h
        simp [h, h']

/-! ### The pane -/

theorem step_suffix {d : DebugLog} {l : List String} (h : d.log <:+ l) (e : PaneEvent) :
    (d.step e).log <:+ l ++ messages [e] := by
  have key : ∀ s : String, s ≠ "" → d.log ++ [s] <:+ l ++ [s] := by
    intro s _
    obtain ⟨t, ht⟩ := h
    exact ⟨t, by simp [← ht]⟩
  cases e with
  | stderr s =>
    by_cases hs : s = ""
    · simpa [DebugLog.step, DebugLog.push, messages, hs] using h
    · simpa [DebugLog.step, DebugLog.push, messages, hs] using (List.drop_suffix _ _).trans (key s hs)
  | line s =>
    by_cases hs : s = ""
    · simpa [DebugLog.step, DebugLog.receive, messages, hs] using h
    · simp only [DebugLog.step, DebugLog.receive, if_neg hs]
      have hm : messages [.line s] = [s] := by simp [messages, hs]
      rw [hm]
      split
      · exact (List.drop_suffix _ _).trans (key s hs)
      · exact key s hs
  | resize n => simpa [DebugLog.step, messages] using h

theorem messages_append (a b : List PaneEvent) : messages (a ++ b) = messages a ++ messages b := by
  simp [messages]

theorem run_suffix (es : List PaneEvent) {d : DebugLog} {l : List String} (h : d.log <:+ l) :
    (es.foldl DebugLog.step d).log <:+ l ++ messages es := by
  induction es generalizing d l with
  | nil => simpa [messages] using h
  | cons e es ih =>
    rw [List.foldl_cons, show messages (e :: es) = messages [e] ++ messages es from messages_append [e] es,
      ← List.append_assoc]
    exact ih (step_suffix h e)

theorem run_exact (es : List PaneEvent) {d : DebugLog} {l : List String} (rows : Nat) (hm : d.maxRows = rows)
    (h : d.log = l.drop (l.length - rows)) (hr : ∀ n, PaneEvent.resize n ∉ es) :
    (es.foldl DebugLog.step d).log = (l ++ messages es).drop ((l ++ messages es).length - rows) := by
  induction es generalizing d l with
  | nil => simpa [messages] using h
  | cons e es ih =>
    rw [List.foldl_cons, show messages (e :: es) = messages [e] ++ messages es from messages_append [e] es,
      ← List.append_assoc]
    have hlen : d.log.length = min l.length rows := by
      rw [h, List.length_drop]
      omega
    have key : ∀ s : String, (d.log ++ [s]).drop ((d.log ++ [s]).length - rows) =
        (l ++ [s]).drop ((l ++ [s]).length - rows) := by
      intro s
      rw [h, show l.drop (l.length - rows) ++ [s] = (l ++ [s]).drop (l.length - rows) by
        rw [List.drop_append_of_le_length (by omega)], List.drop_drop]
      congr 1
      simp only [List.length_drop, List.length_append, List.length_singleton]
      omega
    refine ih ?_ ?_ (fun n hn => hr n (by simp [hn]))
    · cases e with
      | stderr s => simp only [DebugLog.step, DebugLog.push]; split <;> exact hm
      | line s => simp only [DebugLog.step, DebugLog.receive]; split <;> exact hm
      | resize n => exact absurd (by simp) (hr n)
    · cases e with
      | stderr s =>
        by_cases hs : s = ""
        · simpa [DebugLog.step, DebugLog.push, messages, hs] using h
        · simp only [DebugLog.step, DebugLog.push, if_neg hs, hm]
          rw [show messages [.stderr s] = [s] by simp [messages, hs]]
          exact key s
      | line s =>
        by_cases hs : s = ""
        · simpa [DebugLog.step, DebugLog.receive, messages, hs] using h
        · simp only [DebugLog.step, DebugLog.receive, if_neg hs, hm]
          rw [show messages [.line s] = [s] by simp [messages, hs], ← key s]
          simp only [List.length_append, List.length_singleton]
          split
          · congr 1
            omega
          · rw [show d.log.length + 1 - rows = 0 by omega]
            rfl
      | resize n => exact absurd (by simp) (hr n)

theorem statuses_length {o : Overflow} {m m' : Mon} {e : Event} {r : Reply} (h : m.step o e = .ok (m', r)) :
    m'.statuses.length = m.statuses.length := by
  cases e with
  | iteration md =>
    simp only [Mon.step, Rs.bind_eq_ok, Rs.pure_eq, Rs.ok.injEq, Prod.mk.injEq] at h
    obtain ⟨⟨m₁, x⟩, h1, h2, -⟩ := h
    subst h2
    exact (updateTexts_spec (iteration_eq h1).2.2.1).1
  | failure t p x =>
    simp only [Mon.step, Mon.processError] at h
    split at h
    · cases h
    · simp only [Rs.ok_bind, Rs.pure_eq, Rs.ok.injEq, Prod.mk.injEq] at h
      rw [← h.1]
      simp
  | draw =>
    simp only [Mon.step, Rs.ok.injEq, Prod.mk.injEq] at h
    rw [← h.1]
    simp [Mon.draw]
  | quit =>
    simp only [Mon.step, Rs.ok.injEq, Prod.mk.injEq] at h
    rw [← h.1]
  | reset =>
    simp only [Mon.step, Rs.ok.injEq, Prod.mk.injEq] at h
    rw [← h.1]
  | stop =>
    simp only [Mon.step, Rs.ok.injEq, Prod.mk.injEq] at h
    rw [← h.1]
    rfl

end ConsoleMon
end Verif
