import Verif.Proofs.RuntimeIter
/-! What the trace shapes imply. -/
namespace Verif
namespace Runtime
open Planner CopperList Clock
variable {σ P : Type}

theorem visits_append (sim : Bool) (a b : List (Ev P)) :
    visits sim (a ++ b) = visits sim a ++ visits sim b := by simp [visits]

/-! ### Order of the steps -/

theorem Core.visits {sim : Bool} {ph : Phase} {tid : Nat} {ins : List (Msg P)} {c : List (Ev P)}
    {f : Flow} {b : Bool} (h : Core sim ph tid ins c f b) :
    Runtime.visits sim c = [(ph, tid)] := by
  cases h with
  | real hs h => subst hs; cases h <;> simp [Runtime.visits, Ev.visit]
  | bySim hs => subst hs; simp [Runtime.visits, Ev.visit]
  | errored hs => subst hs; simp [Runtime.visits, Ev.visit]
  | byRuntime hs h => subst hs; cases h <;> simp [Runtime.visits, Ev.visit]

theorem Core.stops {sim : Bool} {ph : Phase} {tid : Nat} {ins : List (Msg P)} {c : List (Ev P)}
    {f : Flow} {b : Bool} (h : Core sim ph tid ins c f b) :
    (∀ ev ∈ c, ev.stops = false) ↔ f = .next := by
  cases h with
  | real hs h =>
    cases h with
    | ok => simp [Ev.stops]
    | err e d => cases d <;> simp [Ev.stops, flowOf]
  | bySim hs => simp [Ev.stops]
  | errored hs e d => cases d <;> simp [Ev.stops, flowOf]
  | byRuntime hs h =>
    cases h with
    | ok => simp [Ev.stops]
    | err e d => cases d <;> simp [Ev.stops, flowOf]

theorem ProcChunk.visits {sim : Bool} {tid : Nat} {ins : List (Msg P)} {out : Msg P}
    {c : List (Ev P)} {f : Flow} (h : ProcChunk sim tid ins out c f) :
    Runtime.visits sim c = [(.process, tid)] := by
  cases h with
  | next h _ => rw [visits_append, h.visits]; simp [Runtime.visits, Ev.visit]
  | stop h _ => exact h.visits

theorem ProcChunk.stops {sim : Bool} {tid : Nat} {ins : List (Msg P)} {out : Msg P}
    {c : List (Ev P)} {f : Flow} (h : ProcChunk sim tid ins out c f) :
    (∀ ev ∈ c, ev.stops = false) ↔ f = .next := by
  cases h with
  | next h _ =>
    simp only [iff_true]
    intro ev hev
    rcases List.mem_append.1 hev with h1 | h1
    · exact h.stops.2 rfl ev h1
    · simp only [List.mem_singleton] at h1; subst h1; rfl
  | stop h hf => exact h.stops

theorem LifeTrace.visits {sim : Bool} {ph : Phase} {ts : List Nat} {c : List (Ev P)} {f : Flow}
    (h : LifeTrace sim ph ts c f) :
    Runtime.visits sim c <+: ts.map (ph, ·) ∧ (f = .next → Runtime.visits sim c = ts.map (ph, ·)) := by
  induction h with
  | nil => simp [Runtime.visits]
  | cons h hs ih =>
    rw [visits_append, h.visits]
    simp only [List.map_cons, List.singleton_append]
    exact ⟨(List.prefix_cons_inj _).2 ih.1, fun hf => by rw [ih.2 hf]⟩
  | stop h hf =>
    rw [h.visits]
    refine ⟨?_, fun h => absurd h hf⟩
    simp

theorem LifeTrace.stops {sim : Bool} {ph : Phase} {ts : List Nat} {c : List (Ev P)} {f : Flow}
    (h : LifeTrace sim ph ts c f) : (∀ ev ∈ c, ev.stops = false) ↔ f = .next := by
  induction h with
  | nil => simp
  | cons h hs ih =>
    simp only [List.mem_append]
    rw [← ih]
    constructor
    · intro h1 ev hev; exact h1 ev (.inr hev)
    · intro h1 ev hev
      rcases hev with hev | hev
      · exact h.stops.2 rfl ev hev
      · exact h1 ev hev
  | stop h hf => exact h.stops

theorem PlanTrace.visits {sim : Bool} {steps : List Step} {msgs msgs' : List (Msg P)}
    {c : List (Ev P)} {f : Flow} (h : PlanTrace sim steps msgs c msgs' f) :
    Runtime.visits sim c <+: steps.map (fun s => (.process, s.nodeId)) ∧
      (f = .next → Runtime.visits sim c = steps.map (fun s => (.process, s.nodeId))) := by
  induction h with
  | nil => simp [Runtime.visits]
  | cons _ _ _ h hs ih =>
    rw [visits_append, h.visits]
    simp only [List.map_cons, List.singleton_append]
    exact ⟨(List.prefix_cons_inj _).2 ih.1, fun hf => by rw [ih.2 hf]⟩
  | stop _ _ _ h hf =>
    rw [h.visits]
    refine ⟨?_, fun h => absurd h hf⟩
    simp

theorem PlanTrace.stops {sim : Bool} {steps : List Step} {msgs msgs' : List (Msg P)}
    {c : List (Ev P)} {f : Flow} (h : PlanTrace sim steps msgs c msgs' f) :
    (∀ ev ∈ c, ev.stops = false) ↔ f = .next := by
  induction h with
  | nil => simp
  | cons _ _ _ h hs ih =>
    simp only [List.mem_append]
    rw [← ih]
    constructor
    · intro h1 ev hev; exact h1 ev (.inr hev)
    · intro h1 ev hev
      rcases hev with hev | hev
      · exact h.stops.2 rfl ev hev
      · exact h1 ev hev
  | stop _ _ _ h hf => exact h.stops

theorem visits_logged (sim : Bool) (l : List (Ev P)) (h : ∀ ev ∈ l, ev.isLogged = true) :
    Runtime.visits sim l = [] := by
  unfold Runtime.visits
  rw [List.filterMap_eq_nil_iff]
  intro ev hev
  have := h ev hev
  cases ev <;> simp [Ev.isLogged] at this <;> rfl

theorem FinishTrace.visits {sim : Bool} {c : List (Ev P)} {r : Option Err} (h : FinishTrace c r) :
    Runtime.visits sim c = [] := by
  cases h with
  | err => simp [Runtime.visits, Ev.visit]
  | ok md h =>
    show Runtime.visits sim ([_] ++ _) = []
    rw [visits_append, visits_logged sim _ h]; simp [Runtime.visits, Ev.visit]

theorem FinishTrace.stops {c : List (Ev P)} {r : Option Err} (h : FinishTrace c r) :
    (∀ ev ∈ c, ev.stops = false) ↔ r = none := by
  cases h with
  | err => simp [Ev.stops]
  | ok md h =>
    simp only [List.mem_cons, iff_true]
    intro ev hev
    rcases hev with rfl | hev
    · rfl
    · have := h ev hev
      cases ev <;> simp [Ev.isLogged] at this <;> rfl

theorem FinishTrace.ofTask {c : List (Ev P)} {r : Option Err} (h : FinishTrace c r) :
    ∀ ev ∈ c, ev.ofTask = false := by
  cases h with
  | err => simp [Ev.ofTask]
  | ok md h =>
    simp only [List.mem_cons]
    intro ev hev
    rcases hev with rfl | hev
    · rfl
    · have := h ev hev
      cases ev <;> simp [Ev.isLogged] at this <;> rfl

theorem IterTrace.order {sim : Bool} {tasks : Nat} {plan : List Step} {t : List (Ev P)}
    {r : Option Err} (h : IterTrace sim tasks plan t r) :
    Runtime.visits sim t <+: schedule tasks plan ∧
      ((∀ ev ∈ t, ev.stops = false) → Runtime.visits sim t = schedule tasks plan ∧ r = none) := by
  have hcr : ∀ id, Runtime.visits sim [(Ev.created id : Ev P)] = [] := by
    intro id; simp [Runtime.visits, Ev.visit]
  unfold schedule everyTask
  cases h with
  | pre h hf =>
    refine ⟨?_, fun hs => absurd (h.stops.1 hs) hf⟩
    rw [List.append_assoc]
    exact h.visits.1.trans (List.prefix_append _ _)
  | shutdown h hp =>
    refine ⟨?_, fun hs => ?_⟩
    · simp only [visits_append, hcr, List.append_nil, h.visits.2 rfl]
      rw [List.append_assoc, List.prefix_append_right_inj]
      exact hp.visits.1.trans (List.prefix_append _ _)
    · have := hp.stops.1 (fun ev hev => hs ev (by simp [hev]))
      simp at this
  | abort h hp hf =>
    refine ⟨?_, fun hs => ?_⟩
    · simp only [visits_append, hcr, List.append_nil, h.visits.2 rfl, hf.visits]
      rw [List.append_assoc, List.prefix_append_right_inj]
      exact hp.visits.1.trans (List.prefix_append _ _)
    · have := hp.stops.1 (fun ev hev => hs ev (by simp [hev]))
      simp at this
  | monitor h hp hf =>
    refine ⟨?_, fun hs => ?_⟩
    · simp only [visits_append, hcr, List.append_nil, h.visits.2 rfl, hf.visits, hp.visits.2 rfl]
      exact List.prefix_append _ _
    · have := hf.stops.1 (fun ev hev => hs ev (by simp [hev]))
      simp at this
  | full h hp hf h4 =>
    refine ⟨?_, fun hs => ?_⟩
    · simp only [visits_append, hcr, List.append_nil, h.visits.2 rfl, hf.visits, hp.visits.2 rfl]
      rw [List.prefix_append_right_inj]
      exact h4.visits.1
    · have h5 := h4.stops.1 (fun ev hev => hs ev (by simp [hev]))
      simp only [visits_append, hcr, List.append_nil, h.visits.2 rfl, hf.visits, hp.visits.2 rfl,
        h4.visits.2 h5]
      subst h5
      exact ⟨trivial, rfl⟩

/-! ### Throughout -/

theorem throughout_nil {p : Ev P → List (Ev P) → Prop} : Throughout p [] := by
  intro ev rest h
  have := h.length_le
  simp at this

theorem throughout_cons {p : Ev P → List (Ev P) → Prop} {ev : Ev P} {t : List (Ev P)} :
    Throughout p (ev :: t) ↔ p ev t ∧ Throughout p t := by
  constructor
  · intro h
    exact ⟨h ev t (List.suffix_refl _), fun e r hr => h e r (hr.trans (List.suffix_cons _ _))⟩
  · rintro ⟨h1, h2⟩ e r hr
    rcases List.suffix_cons_iff.1 hr with h | h
    · cases h; exact h1
    · exact h2 e r h

/-- What may follow a step with a given outcome. -/
def TailOk (r : Option Err) : Flow → List (Ev P) → Prop
  | .next, tail => Throughout (decisionOk r) tail
  | .abort, tail => (∀ ev ∈ tail, ev.ofTask = false) ∧
      (r = none ∨ ∃ md e, r = some e ∧ Ev.monitored md (some e) ∈ tail)
  | .shutdown e, tail => tail = [] ∧ r = some e

theorem throughout_noTask (r : Option Err) (t : List (Ev P)) (h : ∀ ev ∈ t, ev.ofTask = false) :
    Throughout (decisionOk r) t := by
  induction t with
  | nil => exact throughout_nil
  | cons ev t ih =>
    refine throughout_cons.2 ⟨?_, ih (fun e he => h e (by simp [he]))⟩
    have := h ev (by simp)
    cases ev <;> simp [Ev.ofTask] at this <;> trivial

theorem TailOk.throughout {r : Option Err} {f : Flow} {tail : List (Ev P)} (h : TailOk r f tail) :
    Throughout (decisionOk r) tail := by
  cases f with
  | next => exact h
  | abort => exact throughout_noTask r tail h.1
  | shutdown e => rw [h.1]; exact throughout_nil

/-- The event `decided` itself. -/
theorem TailOk.decided {r : Option Err} {ph : Phase} {tid : Nat} {e : Err} {d : Decision}
    {tail : List (Ev P)} (h : TailOk r (flowOf e d) tail)
    (hp : d = .ignore → ph = .process → ∃ out rest', tail = .left tid out :: rest' ∧ out.payload = none) :
    decisionOk r (.decided ph tid e d) tail := by
  cases d with
  | ignore => exact fun hph => hp rfl hph
  | abort => exact h
  | shutdown => exact h

theorem Core.obeyed {sim : Bool} {ph : Phase} {tid : Nat} {ins : List (Msg P)} {c : List (Ev P)}
    {f : Flow} {b : Bool} (h : Core sim ph tid ins c f b) {r : Option Err} {tail : List (Ev P)}
    (ht : TailOk r f tail)
    (hp : b = true → f = .next → ph = .process →
      ∃ out rest', tail = .left tid out :: rest' ∧ out.payload = none) :
    Throughout (decisionOk r) (c ++ tail) := by
  have key : ∀ e d, f = flowOf e d → b = true →
      Throughout (decisionOk r) (.decided ph tid e d :: tail) := by
    intro e d hf hb
    subst hf
    refine throughout_cons.2 ⟨?_, ht.throughout⟩
    refine TailOk.decided ht (fun hd hph => hp hb ?_ hph)
    subst hd; rfl
  cases h with
  | real hs h =>
    cases h with
    | ok => exact throughout_cons.2 ⟨trivial, ht.throughout⟩
    | err e d => exact throughout_cons.2 ⟨trivial, key e d rfl rfl⟩
  | bySim hs => exact throughout_cons.2 ⟨trivial, ht.throughout⟩
  | errored hs e d => exact throughout_cons.2 ⟨trivial, key e d rfl rfl⟩
  | byRuntime hs h =>
    refine throughout_cons.2 ⟨trivial, ?_⟩
    cases h with
    | ok => exact throughout_cons.2 ⟨trivial, ht.throughout⟩
    | err e d => exact throughout_cons.2 ⟨trivial, key e d rfl rfl⟩

theorem ProcChunk.obeyed {sim : Bool} {tid : Nat} {ins : List (Msg P)} {out : Msg P}
    {c : List (Ev P)} {f : Flow} (h : ProcChunk sim tid ins out c f) {r : Option Err}
    {tail : List (Ev P)} (ht : TailOk r f tail) : Throughout (decisionOk r) (c ++ tail) := by
  cases h with
  | next h hp =>
    rw [List.append_assoc]
    refine h.obeyed (throughout_cons.2 ⟨trivial, ht⟩) ?_
    intro hb _ _
    exact ⟨out, tail, rfl, hp hb⟩
  | stop h hf => exact h.obeyed ht (fun _ h1 _ => absurd h1 hf)

theorem LifeTrace.obeyed {sim : Bool} {ph : Phase} (hph : ph ≠ .process) {ts : List Nat}
    {c : List (Ev P)} {f : Flow} (h : LifeTrace sim ph ts c f) {r : Option Err} {tail : List (Ev P)}
    (ht : TailOk r f tail) : Throughout (decisionOk r) (c ++ tail) := by
  induction h with
  | nil => exact ht
  | cons h hs ih =>
    rw [List.append_assoc]
    exact h.obeyed (f := .next) (ih ht) (fun _ _ h => absurd h hph)
  | stop h hf => exact h.obeyed ht (fun _ _ h => absurd h hph)

theorem PlanTrace.obeyed {sim : Bool} {steps : List Step} {msgs msgs' : List (Msg P)}
    {c : List (Ev P)} {f : Flow} (h : PlanTrace sim steps msgs c msgs' f) {r : Option Err}
    {tail : List (Ev P)} (ht : TailOk r f tail) : Throughout (decisionOk r) (c ++ tail) := by
  induction h with
  | nil => exact ht
  | cons _ _ _ h hs ih =>
    rw [List.append_assoc]
    exact h.obeyed (f := .next) (ih ht)
  | stop _ _ _ h hf => exact h.obeyed ht

theorem tailOk_errOf (f : Flow) : TailOk (P := P) (errOf f) f [] := by
  cases f with
  | next => exact throughout_nil
  | abort => exact ⟨by simp, .inl rfl⟩
  | shutdown e => exact ⟨rfl, rfl⟩

theorem IterTrace.obeyed {sim : Bool} {tasks : Nat} {plan : List Step} {t : List (Ev P)}
    {r : Option Err} (h : IterTrace sim tasks plan t r) : Throughout (decisionOk r) t := by
  cases h with
  | pre h hf =>
    have := h.obeyed (by simp) (tailOk_errOf _)
    simpa using this
  | shutdown h hp =>
    rw [List.append_assoc]
    refine h.obeyed (by simp) (throughout_cons.2 ⟨trivial, ?_⟩)
    have := hp.obeyed (tail := []) (tailOk_errOf _)
    rw [List.append_nil] at this
    exact this
  | abort h hp hf =>
    rw [List.append_assoc, List.append_assoc]
    refine h.obeyed (by simp) (throughout_cons.2 ⟨trivial, ?_⟩)
    refine hp.obeyed ⟨hf.ofTask, ?_⟩
    cases hf with
    | err md e => exact .inr ⟨md, e, rfl, by simp⟩
    | ok => exact .inl rfl
  | monitor h hp hf =>
    rw [List.append_assoc, List.append_assoc]
    refine h.obeyed (by simp) (throughout_cons.2 ⟨trivial, ?_⟩)
    exact hp.obeyed (throughout_noTask _ _ hf.ofTask)
  | full h hp hf h4 =>
    rw [List.append_assoc, List.append_assoc, List.append_assoc]
    refine h.obeyed (by simp) (throughout_cons.2 ⟨trivial, ?_⟩)
    refine hp.obeyed ?_
    have h5 := h4.obeyed (by simp) (tailOk_errOf _)
    rw [List.append_nil] at h5
    have : ∀ c : List (Ev P), (∀ ev ∈ c, ev.ofTask = false) → ∀ t, Throughout (decisionOk (errOf ‹Flow›)) t →
        Throughout (decisionOk (errOf ‹Flow›)) (c ++ t) := by
      intro c hc t ht
      induction c with
      | nil => exact ht
      | cons ev c ih =>
        refine throughout_cons.2 ⟨?_, ih (fun e he => hc e (by simp [he]))⟩
        have := hc ev (by simp)
        cases ev <;> simp [Ev.ofTask] at this <;> trivial
    exact this _ hf.ofTask _ h5

/-! ### Failures and simulation answers -/

theorem reported_append {a b : List (Ev P)} (ha : Throughout failureReported a)
    (hb : Throughout failureReported b) : Throughout failureReported (a ++ b) := by
  induction a with
  | nil => exact hb
  | cons ev a ih =>
    obtain ⟨h1, h2⟩ := throughout_cons.1 ha
    refine throughout_cons.2 ⟨?_, ih h2⟩
    cases ev with
    | called ph tid ins r =>
      cases r with
      | none => trivial
      | some e =>
        obtain ⟨d, rest', h⟩ := h1
        exact ⟨d, rest' ++ b, by rw [h]; rfl⟩
    | asked ph tid ins o =>
      cases o with
      | errored e =>
        obtain ⟨d, rest', h⟩ := h1
        exact ⟨d, rest' ++ b, by rw [h]; rfl⟩
      | _ => trivial
    | _ => trivial

/-- Everything that is preserved by concatenation, for simulation. -/
structure SimOk (sim : Bool) (t : List (Ev P)) : Prop where
  rep : Throughout failureReported t
  real : sim = true → realCalls t = delegated t
  noSim : sim = false → ∀ ev ∈ t, ∀ ph tid ins o, ev ≠ .asked ph tid ins o
  cause : (∃ ev ∈ t, ev.stops = true) → ∃ ev ∈ t, ev.failed = true

theorem SimOk.append {sim : Bool} {a b : List (Ev P)} (ha : SimOk sim a) (hb : SimOk sim b) :
    SimOk sim (a ++ b) := by
  refine ⟨reported_append ha.rep hb.rep, ?_, ?_, ?_⟩
  · intro hs
    have h1 := ha.real hs
    have h2 := hb.real hs
    unfold realCalls delegated at *
    rw [List.filterMap_append, List.filterMap_append, h1, h2]
  · intro hs ev hev
    rcases List.mem_append.1 hev with h | h
    · exact ha.noSim hs ev h
    · exact hb.noSim hs ev h
  · rintro ⟨ev, hev, hs⟩
    rcases List.mem_append.1 hev with h | h
    · obtain ⟨ev', h1, h2⟩ := ha.cause ⟨ev, h, hs⟩
      exact ⟨ev', List.mem_append_left _ h1, h2⟩
    · obtain ⟨ev', h1, h2⟩ := hb.cause ⟨ev, h, hs⟩
      exact ⟨ev', List.mem_append_right _ h1, h2⟩

theorem SimOk.nil {sim : Bool} : SimOk sim ([] : List (Ev P)) :=
  ⟨throughout_nil, fun _ => rfl, by simp, by simp⟩

theorem SimOk.other {sim : Bool} {t : List (Ev P)} (h : ∀ ev ∈ t, ev.ofTask = false) :
    SimOk sim t := by
  induction t with
  | nil => exact .nil
  | cons ev t ih =>
    have h1 := ih (fun e he => h e (by simp [he]))
    have h2 := h ev (by simp)
    have : SimOk sim [ev] := by
      cases ev with
      | monitored md r | monStarted r | monStopped r =>
        cases r <;> exact ⟨throughout_cons.2 ⟨trivial, throughout_nil⟩, fun _ => rfl, by simp,
          by simp [Ev.stops, Ev.failed]⟩
      | created id | logged id =>
        exact ⟨throughout_cons.2 ⟨trivial, throughout_nil⟩, fun _ => rfl, by simp, by simp [Ev.stops]⟩
      | _ => simp [Ev.ofTask] at h2
    exact this.append h1

theorem Core.simOk {sim : Bool} {ph : Phase} {tid : Nat} {ins : List (Msg P)} {c : List (Ev P)}
    {f : Flow} {b : Bool} (h : Core sim ph tid ins c f b) : SimOk sim c := by
  have hr : ∀ {c : List (Ev P)} {f : Flow} {b : Bool}, RealChunk ph tid ins c f b →
      Throughout failureReported c := by
    intro c f b h
    cases h with
    | ok => exact throughout_cons.2 ⟨trivial, throughout_nil⟩
    | err e d => exact throughout_cons.2 ⟨⟨d, _, rfl⟩, throughout_cons.2 ⟨trivial, throughout_nil⟩⟩
  cases h with
  | real hs h =>
    subst hs
    refine ⟨hr h, by simp, ?_, ?_⟩
    · intro _ ev hev
      cases h <;> simp at hev <;> rcases hev with rfl | rfl <;> simp
    · cases h <;> simp [Ev.stops, Ev.failed]
  | bySim hs =>
    subst hs
    exact ⟨throughout_cons.2 ⟨trivial, throughout_nil⟩, fun _ => rfl, by simp, by simp [Ev.stops]⟩
  | errored hs e d =>
    subst hs
    exact ⟨throughout_cons.2 ⟨⟨d, _, rfl⟩, throughout_cons.2 ⟨trivial, throughout_nil⟩⟩,
      fun _ => rfl, by simp, by simp [Ev.failed]⟩
  | byRuntime hs h =>
    subst hs
    refine ⟨throughout_cons.2 ⟨trivial, hr h⟩, ?_, by simp, ?_⟩
    · intro _
      cases h <;> rfl
    · cases h <;> simp [Ev.stops, Ev.failed]

theorem ProcChunk.simOk {sim : Bool} {tid : Nat} {ins : List (Msg P)} {out : Msg P}
    {c : List (Ev P)} {f : Flow} (h : ProcChunk sim tid ins out c f) : SimOk sim c := by
  cases h with
  | next h hp =>
    exact h.simOk.append ⟨throughout_cons.2 ⟨trivial, throughout_nil⟩, fun _ => rfl, by simp,
      by simp [Ev.stops]⟩
  | stop h hf => exact h.simOk

theorem LifeTrace.simOk {sim : Bool} {ph : Phase} {ts : List Nat}
    {c : List (Ev P)} {f : Flow} (h : LifeTrace sim ph ts c f) : SimOk sim c := by
  induction h with
  | nil => exact .nil
  | cons h hs ih => exact h.simOk.append ih
  | stop h hf => exact h.simOk

theorem PlanTrace.simOk {sim : Bool} {steps : List Step} {msgs msgs' : List (Msg P)}
    {c : List (Ev P)} {f : Flow} (h : PlanTrace sim steps msgs c msgs' f) : SimOk sim c := by
  induction h with
  | nil => exact .nil
  | cons _ _ _ h hs ih => exact h.simOk.append ih
  | stop _ _ _ h hf => exact h.simOk

theorem IterTrace.simOk {sim : Bool} {tasks : Nat} {plan : List Step} {t : List (Ev P)}
    {r : Option Err} (h : IterTrace sim tasks plan t r) : SimOk sim t := by
  have hcr : ∀ id, SimOk sim [(Ev.created id : Ev P)] := fun id => .other (by simp [Ev.ofTask])
  cases h with
  | pre h hf => exact h.simOk
  | shutdown h hp => exact (h.simOk.append (hcr _)).append hp.simOk
  | abort h hp hf => exact ((h.simOk.append (hcr _)).append hp.simOk).append (.other hf.ofTask)
  | monitor h hp hf => exact ((h.simOk.append (hcr _)).append hp.simOk).append (.other hf.ofTask)
  | full h hp hf h4 =>
    exact (((h.simOk.append (hcr _)).append hp.simOk).append (.other hf.ofTask)).append h4.simOk

end Runtime
end Verif
