import Verif.Props.ConsoleTables
/-! C70, C127: what the console shows of a run of the application. -/
namespace Verif
namespace ConsoleMon
open Clock Planner Verif.Runtime Monitoring

theorem latencies_iterations (v : Nat) (mds : List (List MsgMeta)) (acc : List Nat) :
    latencies v (mds.map Event.iteration) acc = acc ++ mds.flatMap (fun md => (md[v]?.map took).toList) := by
  induction mds generalizing acc with
  | nil => simp [latencies]
  | cons md mds ih => simp only [List.map_cons, latencies, ih, List.flatMap_cons, List.append_assoc]

theorem filter_one {M : Type} {l : List (Nat × M)} (hn : (l.map Prod.fst).Nodup) {v : Nat} {m : M} (h : (v, m) ∈ l) :
    l.filter (fun x => x.1 = v) = [(v, m)] := by
  induction l with
  | nil => cases h
  | cons x l ih =>
    rw [List.map_cons, List.nodup_cons] at hn
    rcases List.mem_cons.1 h with rfl | h
    · rw [List.filter_cons_of_pos (by simp)]
      congr 1
      rw [List.filter_eq_nil_iff]
      intro y hy
      simp only [decide_eq_true_eq]
      intro he
      exact hn.1 (List.mem_map.2 ⟨y, hy, he⟩)
    · have hx : ¬ x.1 = v := fun he => hn.1 (he ▸ List.mem_map_of_mem (f := Prod.fst) h)
      rw [List.filter_cons_of_neg (by simpa using hx)]
      exact ih hn.2 h

theorem selfInverse_nodup {l : List Nat} (h : SelfInverse l) : l.Nodup := by
  rw [List.nodup_iff_getElem?_ne_getElem?]
  intro i j hij hj he
  have hjl : l[j]? = some l[j] := List.getElem?_eq_getElem hj
  have h1 := h j _ hjl
  have h2 := h i _ (he.trans hjl)
  rw [h1] at h2
  simp only [Option.some.injEq] at h2
  omega

/-- The times that task `v` took, in the order of the iterations. -/
def timesOf {P : Type} (v : Nat) (t : List (Ev P)) : List Nat :=
  ((lefts t).filter (fun x => x.1 = v)).map (fun x => took x.2.md)

/-- In a run of any number of iterations without failures, the monitor is shown one list of metadata per iteration,
and the times at place `v` of them are those that task `v` took, when the order of the tasks in the configuration is
the order of execution, or one which is its own inverse. -/
theorem C70_run_partial {σ P : Type} (g : Graph) (hg : g.WF) (app : App σ P)
    (hp : computePlan g = .ok (some app.plan)) (hinv : SelfInverse (callOrder app.plan))
    (hlog : app.env.log.isSome = true) (n : Nat) (rt rt' : Rt σ P)
    (hi : Idle app.plan.length rt.mgr) (h : runLoop app n rt = .ok (rt', none)) :
    ∃ t, rt'.w.trace = rt.w.trace ++ t ∧
      ((∀ ev ∈ t, ev.stops = false) → (shownMetadata t).length = n ∧
        ∀ v ∈ callOrder app.plan, latencies v ((shownMetadata t).map Event.iteration) [] = timesOf v t ∧
          (timesOf v t).length = n) := by
  induction n generalizing rt with
  | zero =>
    simp only [runLoop, Rs.ok.injEq, Prod.mk.injEq, and_true] at h
    subst h
    exact ⟨[], by simp, fun _ => ⟨rfl, fun v _ => ⟨rfl, rfl⟩⟩⟩
  | succ n ih =>
    rw [runLoop] at h
    obtain ⟨q, hq⟩ : ∃ q, runOneIteration app rt = q := ⟨_, rfl⟩
    rw [hq] at h
    match q, hq, h with
    | .panic, _, h => cases h
    | .ok (rt₁, some e), _, h => simp at h
    | .ok (rt₁, none), hq, h =>
      obtain ⟨hi₁, -, -⟩ := iteration_pool app rt hi hq
      obtain ⟨t₂, e₂, h₂⟩ := ih rt₁ hi₁ h
      obtain ⟨t₁, e₁, h₁⟩ := C24_accessors_partial g hg app hp hinv hlog rt rt₁ hi hq
      obtain ⟨t₁', e₁', h₁'⟩ := C11_iteration_logged g hg app hp hlog rt rt₁ hi hq
      have : t₁' = t₁ := List.append_cancel_left (e₁'.symm.trans e₁)
      subst this
      refine ⟨t₁' ++ t₂, by rw [e₂, e₁, List.append_assoc], fun hs => ?_⟩
      have hs₁ : ∀ ev ∈ t₁', ev.stops = false := fun ev hev => hs ev (by simp [hev])
      obtain ⟨cl, md, -, hmd, hl⟩ := h₁ hs₁
      obtain ⟨-, -, ho⟩ := h₁' hs₁
      obtain ⟨hlen, hv⟩ := h₂ (fun ev hev => hs ev (by simp [hev]))
      have hsm : shownMetadata (t₁' ++ t₂) = md :: shownMetadata t₂ := by
        have : shownMetadata (t₁' ++ t₂) = shownMetadata t₁' ++ shownMetadata t₂ := List.filterMap_append ..
        rw [this, hmd]; rfl
      rw [hsm]
      refine ⟨by rw [List.length_cons, hlen], fun v hvc => ?_⟩
      have hmem : v ∈ (lefts t₁').map Prod.fst := by rw [ho]; exact hvc
      obtain ⟨⟨v', m⟩, hm, rfl⟩ := List.mem_map.1 hmem
      have hn : ((lefts t₁').map Prod.fst).Nodup := by rw [ho]; exact selfInverse_nodup hinv
      have ht : timesOf v' (t₁' ++ t₂) = took m.md :: timesOf v' t₂ := by
        unfold timesOf
        rw [lefts_append, List.filter_append, filter_one hn hm]
        rfl
      have hm' := (hl v' m hm).2
      have hv' := hv v' hvc
      rw [ht, ← hv'.1]
      refine ⟨?_, by rw [List.length_cons, hv'.1, hv'.2]⟩
      rw [latencies_iterations, latencies_iterations, List.flatMap_cons, hm']
      rfl

theorem set_of_toOption {o : OptionCuTime} {t : CuTime} (h : o.toOption = some t) : o.isNone = false ∧ o.inner = t := by
  unfold OptionCuTime.toOption at h
  unfold OptionCuTime.isNone
  split at h
  · cases h
  · rename_i hn
    simp only [Option.some.injEq] at h
    exact ⟨by simp [hn], h⟩

/-- The metadata shown in an iteration without failures are timed, when the clock does not go back and the task that is
executed first is declared before the one that is executed last. -/
theorem iteration_shows_timed {σ P : Type} (g : Graph) (hg : g.WF) (app : App σ P)
    (hp : computePlan g = .ok (some app.plan)) (hne : app.plan ≠ [])
    (hfl : ∀ f ∈ (callOrder app.plan).head?, ∀ l ∈ (callOrder app.plan).getLast?, f ≤ l)
    {T : σ → Nat} (hc : MonotoneClock app.env T) (hk : KeepsStart app.env) (rt rt' : Rt σ P)
    (hi : Idle app.plan.length rt.mgr) (h : runOneIteration app rt = .ok (rt', none)) :
    ∃ t, rt'.w.trace = rt.w.trace ++ t ∧
      ((∀ ev ∈ t, ev.stops = false) → ∀ md ∈ shownMetadata t, Timed md) := by
  have hw := wired_of_plan hg hp
  obtain ⟨t, e, ht⟩ := iteration_timed hc hk rfl rt h
  obtain ⟨-, -, t', e', h2⟩ := iteration_pool app rt hi h
  have : t' = t := List.append_cancel_left (e'.symm.trans e)
  subst this
  refine ⟨t', e, fun hs md hmd => ?_⟩
  rcases h2 with ⟨-, -, -, h0, -⟩ | ⟨-, -, msgs, hl, ⟨md', hcm, hsh⟩, -, h6⟩
  · rw [h0] at hmd; cases hmd
  rw [hsh, List.mem_singleton] at hmd
  subst hmd
  have hms := (h6 hw rfl).2 hs
  rw [← hms] at ht
  obtain ⟨hlen, hget⟩ := collectMetadata_get hcm
  have hpos : 0 < app.plan.length := List.length_pos_iff.2 hne
  have hcl : (callOrder app.plan).length = app.plan.length := by simp [callOrder]
  have each : ∀ (k : Nat) (x : MsgMeta), md[k]? = some x → ∃ (v : Nat) (m : Msg P), (callOrder app.plan)[k]? = some v ∧ msgs[v]? = some m ∧ x = m.md := by
    intro k x hx
    obtain ⟨hk', -⟩ := List.getElem?_eq_some_iff.1 hx
    have hv : (callOrder app.plan)[k]? = some ((callOrder app.plan)[k]'(by omega)) := List.getElem?_eq_getElem _
    obtain ⟨h1, h2⟩ := hget _ _ hv
    rw [hx, List.getElem?_eq_getElem h2] at h1
    simp only [Option.map_some, Option.some.injEq] at h1
    exact ⟨_, _, hv, List.getElem?_eq_getElem h2, h1⟩
  have own : ∀ x ∈ md, ∃ s e : CuTime, x.processTime.start.toOption = some s ∧ x.processTime.stop.toOption = some e ∧
      s.ns.toNat ≤ e.ns.toNat := by
    intro x hx
    obtain ⟨k, hk', rfl⟩ := List.getElem_of_mem hx
    obtain ⟨v, m, -, hm, hxm⟩ := each k _ (List.getElem?_eq_getElem hk')
    obtain ⟨s, e, a, b, -, c⟩ := ht.pair hm hm (Nat.le_refl _)
    rw [hxm]
    exact ⟨s, e, a, b, c⟩
  refine ⟨fun h0 => ?_, fun x hx => ?_, fun x hx => ?_, fun f hf l hl' => ?_⟩
  · rw [h0] at hlen; simp at hlen; omega
  · obtain ⟨s, e, a, b, -⟩ := own x hx
    exact ⟨(set_of_toOption a).1, (set_of_toOption b).1⟩
  · obtain ⟨s, e, a, b, c⟩ := own x hx
    rw [(set_of_toOption a).2, (set_of_toOption b).2]
    exact UInt64.le_iff_toNat_le.2 c
  · rw [List.head?_eq_getElem?] at hf
    rw [List.getLast?_eq_getElem?, hlen] at hl'
    obtain ⟨v, m, hv, hm, rfl⟩ := each _ _ hf
    obtain ⟨v', m', hv', hm', rfl⟩ := each _ _ hl'
    have hle := hfl v (by rw [List.head?_eq_getElem?]; exact hv) v' (by rw [List.getLast?_eq_getElem?, hcl]; exact hv')
    obtain ⟨s, e, a, b, -, c⟩ := ht.pair hm hm' hle
    rw [(set_of_toOption a).2, (set_of_toOption b).2]
    exact UInt64.le_iff_toNat_le.2 c

/-- So they are in a run of any number of iterations. -/
theorem run_shows_timed {σ P : Type} (g : Graph) (hg : g.WF) (app : App σ P)
    (hp : computePlan g = .ok (some app.plan)) (hne : app.plan ≠ [])
    (hfl : ∀ f ∈ (callOrder app.plan).head?, ∀ l ∈ (callOrder app.plan).getLast?, f ≤ l)
    {T : σ → Nat} (hc : MonotoneClock app.env T) (hk : KeepsStart app.env) (n : Nat) (rt rt' : Rt σ P)
    (hi : Idle app.plan.length rt.mgr) (h : runLoop app n rt = .ok (rt', none)) :
    ∃ t, rt'.w.trace = rt.w.trace ++ t ∧
      ((∀ ev ∈ t, ev.stops = false) → ∀ md ∈ shownMetadata t, Timed md) := by
  induction n generalizing rt with
  | zero =>
    simp only [runLoop, Rs.ok.injEq, Prod.mk.injEq, and_true] at h
    subst h
    exact ⟨[], by simp, fun _ md hmd => by cases hmd⟩
  | succ n ih =>
    rw [runLoop] at h
    obtain ⟨q, hq⟩ : ∃ q, runOneIteration app rt = q := ⟨_, rfl⟩
    rw [hq] at h
    match q, hq, h with
    | .panic, _, h => cases h
    | .ok (rt₁, some e), _, h => simp at h
    | .ok (rt₁, none), hq, h =>
      obtain ⟨hi₁, -, -⟩ := iteration_pool app rt hi hq
      obtain ⟨t₂, e₂, h₂⟩ := ih rt₁ hi₁ h
      obtain ⟨t₁, e₁, h₁⟩ := iteration_shows_timed g hg app hp hne hfl hc hk rt rt₁ hi hq
      refine ⟨t₁ ++ t₂, by rw [e₂, e₁, List.append_assoc], fun hs md hmd => ?_⟩
      rw [shownMetadata_append, List.mem_append] at hmd
      rcases hmd with hmd | hmd
      · exact h₁ (fun ev hev => hs ev (by simp [hev])) md hmd
      · exact h₂ (fun ev hev => hs ev (by simp [hev])) md hmd

/-- The table of latencies of such a run, with a clock that does not go back and the task that is executed first
declared before the one executed last: the row which bears the name of a task shows the figures of the times that this
task took. -/
theorem C127_run_partial {σ P : Type} (g : Graph) (hg : g.WF) (app : App σ P)
    (hp : computePlan g = .ok (some app.plan)) (hinv : SelfInverse (callOrder app.plan))
    (hlog : app.env.log.isSome = true) (n : Nat) (rt rt' : Rt σ P)
    (hi : Idle app.plan.length rt.mgr) (h : runLoop app n rt = .ok (rt', none)) (hne : app.plan ≠ [])
    (hfl : ∀ f ∈ (callOrder app.plan).head?, ∀ l ∈ (callOrder app.plan).getLast?, f ≤ l)
    {T : σ → Nat} (hc : MonotoneClock app.env T) (hk : KeepsStart app.env)
    {ids : List (List Char)} {m₀ : Mon} (hm : Mon.new ids.length = .ok m₀) (o : Overflow) :
    ∃ t, rt'.w.trace = rt.w.trace ++ t ∧
      ((∀ ev ∈ t, ev.stops = false) →
        ∀ m rs, m₀.run o ((shownMetadata t).map Event.iteration) = .ok (m, rs) →
          ∃ rows, latencyTable ids m.stats = .ok rows ∧
            ∀ v ∈ callOrder app.plan, ∀ id, ids[v]? = some id → ∃ cells, rows[v]? = some cells ∧
              (timesOf v t).length = n ∧ ShowsRow id (timesOf v t) cells) := by
  obtain ⟨t, e, ht⟩ := C70_run_partial g hg app hp hinv hlog n rt rt' hi h
  obtain ⟨t', e', ht'⟩ := run_shows_timed g hg app hp hne hfl hc hk n rt rt' hi h
  have : t' = t := List.append_cancel_left (e'.symm.trans e)
  subst this
  refine ⟨t', e, fun hs m rs hr => ?_⟩
  have htm := ht' hs
  obtain ⟨-, hv⟩ := ht hs
  obtain ⟨rows, last, h1, h2, h3, -⟩ := C127_rows_partial hm o _ (fun md hmd => by
    obtain ⟨md', hmd', he⟩ := List.mem_map.1 hmd
    cases he
    exact htm md hmd') hr
  refine ⟨_, h1, fun v hvc id hid => ?_⟩
  obtain ⟨hlt, -⟩ := List.getElem?_eq_some_iff.1 hid
  have hc : rows[v]? = some (rows[v]'(by omega)) := List.getElem?_eq_getElem _
  refine ⟨_, by rw [List.getElem?_append_left (by omega)]; exact hc, (hv v hvc).2, ?_⟩
  have := h3 v id _ hid hc
  rwa [(hv v hvc).1] at this

/-- Two iterations of the demo application. -/
def demoRun : Rt Nat Nat :=
  match runLoop (demoApp (fun _ _ => false) (fun _ _ => .ignore) none) 2 demoStart with
  | .ok (rt, _) => rt
  | .panic => demoStart

example : demoGraph.WF ∧ computePlan demoGraph = .ok (some demoPlan) ∧ SelfInverse (callOrder demoPlan) ∧
    Idle 3 demoStart.mgr ∧ (demoApp (fun _ _ => false) (fun _ _ => .ignore) none).env.log.isSome = true ∧
    runLoop (demoApp (fun _ _ => false) (fun _ _ => .ignore) none) 2 demoStart = .ok (demoRun, none) ∧
    (∀ ev ∈ demoRun.w.trace, ev.stops = false) ∧ (∀ md ∈ shownMetadata demoRun.w.trace, Timed md) ∧
    (∀ f ∈ (callOrder demoPlan).head?, ∀ l ∈ (callOrder demoPlan).getLast?, f ≤ l) ∧ timesOf 1 demoRun.w.trace = [1, 1] := by
  have ht : ∀ md ∈ shownMetadata demoRun.w.trace, md ≠ [] ∧
      (∀ m ∈ md, m.processTime.start.isNone = false ∧ m.processTime.stop.isNone = false) ∧
      (∀ m ∈ md, m.processTime.start.inner.ns ≤ m.processTime.stop.inner.ns) ∧
      ∀ f ∈ md.head?, ∀ l ∈ md.getLast?, f.processTime.start.inner.ns ≤ l.processTime.stop.inner.ns := by
    decide +kernel
  refine ⟨by decide, by decide +kernel, ?_, ⟨rfl, rfl, by decide, by decide, by decide⟩, rfl, rfl, by decide +kernel,
    fun md hmd => ⟨(ht md hmd).1, (ht md hmd).2.1, (ht md hmd).2.2.1, (ht md hmd).2.2.2⟩, by decide, by decide +kernel⟩
  intro k t h
  have hk : k < 3 := (List.getElem?_eq_some_iff.1 h).1
  match k, hk with
  | 0, _ | 1, _ | 2, _ => simp [callOrder, demoPlan] at h; subst h; rfl

end ConsoleMon
end Verif
