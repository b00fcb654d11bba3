import Verif.Proofs.FreshList
import Verif.Props.RuntimePool
/-! C71: a task that writes nothing sends nothing. -/
namespace Verif
namespace Runtime
open Clock CopperList Planner
variable {σ P : Type}

/-- In an undisturbed iteration, the message logged for a task which leaves its output alone is what its
place in the first copper list held before. -/
theorem untouched {g : Graph} (hg : g.WF) {app : App σ P} (hp : computePlan g = .ok (some app.plan))
    (hsim : app.env.sim = none) (hlog : app.env.log.isSome = true) {k : Nat} {step : Step}
    (hk : app.plan[k]? = some step) (hq : Quiet app.env step)
    {rt rt' : Rt σ P} (hi : Idle app.plan.length rt.mgr) (h : runOneIteration app rt = .ok (rt', none))
    (hs : ∀ ev ∈ rt'.w.trace, ev.stops = false) :
    ∃ t cl c m m', rt'.w.trace = rt.w.trace ++ t ∧ loggedLists t = [cl] ∧ rt.mgr.data[0]? = some c ∧
      c.msgs[k]? = some m ∧ cl.msgs[k]? = some m' ∧ m'.payload = m.payload ∧ m'.md.tov = m.md.tov ∧
      m'.md.statusTxt = m.md.statusTxt := by
  obtain ⟨c, c', w1, v, msgs, t, h1, h2, h3, h4, h5, h6, h7, h8, h9⟩ := iteration_parts hi h hs
  rw [if_pos hlog] at h9
  obtain ⟨m, m', h10, h11, h12⟩ :=
    planLoop_untouched (wired_of_plan hg hp) hsim hk hq app.plan 0 _ _ _ _ (by omega) rfl h3
  exact ⟨t, _, c, m, m', h8, h9, h1, h10, h11, h12⟩

/-- A task that writes nothing sends its previous message again: for any two successive undisturbed
iterations (the tasks may behave differently in the second one), the payload, the time of validity and
the status logged for a task which leaves its output alone in the second are those of the first. -/
theorem C71_repeats_violated (g : Graph) (hg : g.WF) (app app' : App σ P)
    (hp : computePlan g = .ok (some app.plan)) (hp' : app'.plan = app.plan) (hsim : app'.env.sim = none)
    (hlog : app.env.log.isSome = true) (hlog' : app'.env.log.isSome = true) (k : Nat) (step : Step)
    (hk : app.plan[k]? = some step) (hq : Quiet app'.env step)
    (rt rt₁ rt₂ : Rt σ P) (hi : Idle app.plan.length rt.mgr) (h₁ : runOneIteration app rt = .ok (rt₁, none))
    (h₂ : runOneIteration app' rt₁ = .ok (rt₂, none)) (hs : ∀ ev ∈ rt₂.w.trace, ev.stops = false) :
    ∃ t₁ t₂ cl₁ cl₂ m₁ m₂, rt₁.w.trace = rt.w.trace ++ t₁ ∧ rt₂.w.trace = rt₁.w.trace ++ t₂ ∧
      loggedLists t₁ = [cl₁] ∧ loggedLists t₂ = [cl₂] ∧ cl₂.id = cl₁.id + 1 ∧
      cl₁.msgs[k]? = some m₁ ∧ cl₂.msgs[k]? = some m₂ ∧
      m₂.payload = m₁.payload ∧ m₂.md.tov = m₁.md.tov ∧ m₂.md.statusTxt = m₁.md.statusTxt := by
  have hs₁ : ∀ ev ∈ rt₁.w.trace, ev.stops = false := by
    obtain ⟨_, _, t, ht, _⟩ := iteration_pool app rt hi h₁
    have hi₁ := (iteration_pool app rt hi h₁).1
    obtain ⟨_, _, t', ht', _⟩ := iteration_pool app' rt₁ hi₁ h₂
    exact fun ev hev => hs ev (by rw [ht']; simp [hev])
  obtain ⟨c, c', w1, v, msgs, t, h1, h2, h3, h4, h5, h6, h7, h8, h9⟩ := iteration_parts hi h₁ hs₁
  rw [if_pos hlog] at h9
  rw [← hp'] at hp hk h6
  have hw := wired_of_plan hg hp
  obtain ⟨d, d', w1', v', msgs', t', k1, k2, k3, k4, k5, k6, k7, k8, k9⟩ := iteration_parts h6 h₂ hs
  rw [if_pos hlog'] at k9
  rw [h4] at k1
  cases k1
  obtain ⟨m, m', h10, h11, h12⟩ := planLoop_untouched hw hsim hk hq app'.plan 0 _ _ _ _ (by omega) rfl k3
  rw [h5] at h10
  exact ⟨t, t', _, _, m, m', h8, k8, h9, k9, by rw [h7], h10, h11, h12⟩

/-- The demo application, whose source wrote once and then leaves its message alone. -/
def quietApp : App Nat Nat :=
  let a := demoApp (fun _ _ => false) (fun _ _ => .ignore) none
  { a with env := { a.env with source := fun _ out s => (s, out, none) } }

example : Quiet quietApp.env ⟨0, .source, [], some (0, "a")⟩ := fun _ _ _ => ⟨rfl, rfl⟩

/-- The consumer processes the same payload twice. -/
example : ∃ rt₁ rt₂, runOneIteration (demoApp (fun _ _ => false) (fun _ _ => .ignore) none) demoStart = .ok (rt₁, none) ∧
    runOneIteration quietApp rt₁ = .ok (rt₂, none) ∧ (∀ ev ∈ rt₂.w.trace, ev.stops = false) ∧
    (loggedLists rt₂.w.trace).map (fun cl => cl.msgs.map Msg.payload) =
      [[some 6, some 1006, none], [some 6, some 1006, none]] := by
  refine ⟨_, _, rfl, rfl, ?_, ?_⟩ <;> decide +kernel

/-- In the first iteration of a new runtime, a task that writes nothing sends no payload and no time,
provided its payload has a layout without unused values. -/
theorem C71_first_partial (g : Graph) (hg : g.WF) (app : App σ P) (hp : computePlan g = .ok (some app.plan))
    (hsim : app.env.sim = none) (hlog : app.env.log.isSome = true) (k : Nat) (step : Step)
    (hk : app.plan[k]? = some step) (hq : Quiet app.env step)
    (N : Nat) (hN : 0 < N) (ls : List (Layout P)) (hl : ls.length = app.plan.length) (l : Layout P)
    (hls : ls[k]? = some l) (st : σ) (rt' : Rt σ P)
    (h : runOneIteration app ⟨⟨st, []⟩, zeroLists N ls⟩ = .ok (rt', none))
    (hs : ∀ ev ∈ rt'.w.trace, ev.stops = false) :
    ∃ cl m, loggedLists rt'.w.trace = [cl] ∧ cl.msgs[k]? = some m ∧ m.payload = l.zero ∧ m.md.tov = .none ∧
      (l = .tagged → m.payload = none) := by
  have hi : Idle app.plan.length (zeroLists N ls) := by
    refine ⟨rfl, rfl, by simpa [zeroLists, Manager.new, Manager.cap] using hN, ?_, ?_⟩
    · intro c hc
      rw [(List.mem_replicate.1 hc).2]
    · intro c hc
      rw [(List.mem_replicate.1 hc).2]
      simpa using hl
  obtain ⟨t, cl, c, m, m', h1, h2, h3, h4, h5, h6, h7, h8⟩ := untouched hg hp hsim hlog hk hq hi h hs
  have hc : c = ⟨0, .free, ls.map zeroMsg⟩ := by
    have : (zeroLists N ls).data[0]? = some ⟨0, .free, ls.map zeroMsg⟩ := by
      simp [zeroLists, Manager.new, hN]
    rw [this] at h3
    exact (Option.some.inj h3).symm
  subst hc
  simp only [List.getElem?_map, hls, Option.map_some, Option.some.injEq] at h4
  subst h4
  refine ⟨cl, m', by simpa [h1] using h2, h5, h6, h7, ?_⟩
  intro hl
  rw [h6, hl]
  rfl

/-- An application without monitor nor failures whose source writes nothing, for any payload. -/
def silentApp (P : Type) : App Nat P where
  tasks := 2
  plan := [⟨0, .source, [], some (0, "a")⟩, ⟨1, .sink, [(0, "a")], some (1, "()")⟩]
  overflow := .checked
  env :=
    { now := fun s => (s + 1, ⟨UInt64.ofNat (min s 18446744073709551614)⟩)
      life := fun _ _ s => (s, none)
      source := fun _ out s => (s, out, none)
      regular := fun _ _ out s => (s, out, none)
      sink := fun _ _ s => (s, none)
      onError := fun _ _ _ s => (s, .ignore)
      monCL := fun _ s => (s, none)
      monStart := fun s => (s, none)
      monStop := fun s => (s, none)
      log := some (fun s _ => .ok s)
      sim := none }

/-- Otherwise the sink gets a payload no task ever wrote: a pin is told to switch off. -/
theorem C71_first_violated : ∃ rt', computePlan ⟨2, [⟨0, 1, "a"⟩]⟩ = .ok (some (silentApp Bool).plan) ∧
    runOneIteration (silentApp Bool) ⟨⟨5, []⟩, zeroLists 2 [gpioLayout, .tagged]⟩ = .ok (rt', none) ∧
    (rt'.w.trace.filterMap Ev.reads).map (fun r => (r.1, r.2.map Msg.payload)) = [(0, []), (1, [some false])] := by
  refine ⟨_, by decide +kernel, rfl, ?_⟩
  decide +kernel

example : Quiet (silentApp Bool).env ⟨0, .source, [], some (0, "a")⟩ := fun _ _ _ => ⟨rfl, rfl⟩

example : ∃ rt', runOneIteration (silentApp Nat) ⟨⟨5, []⟩, zeroLists 2 [.tagged, .tagged]⟩ = .ok (rt', none) ∧
    (rt'.w.trace.filterMap Ev.reads).map (fun r => (r.1, r.2.map Msg.payload)) = [(0, []), (1, [none])] := by
  refine ⟨_, rfl, ?_⟩
  decide +kernel

/-- A message no task ever wrote has a status, of 24 NULs, and times, of zero, where one that
`CuMsg::new` makes has neither. -/
theorem C71_unwritten_violated (l : Layout P) :
    (zeroMsg l).md.statusTxt ≠ "" ∧ (zeroMsg l).md.processTime.start.isNone = false ∧
    (zeroMsg l).md.processTime.stop.isNone = false ∧
    (Msg.new (none : Option P)).md.statusTxt = "" ∧ (Msg.new (none : Option P)).md.processTime.start.isNone = true ∧
    (Msg.new (none : Option P)).md.processTime.stop.isNone = true := by
  refine ⟨?_, ?_, ?_, rfl, ?_, ?_⟩ <;> simp only [zeroMsg, Msg.new, MsgMeta.default] <;> decide

end Runtime
end Verif
