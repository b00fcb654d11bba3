import Verif.Spec.Simulated
import Verif.Proofs.Dataflow
/-! Lemmas: the steps of a simulated application do what its machines do. -/
namespace Verif
namespace Dataflow
open Clock CopperList Planner Verif.Runtime
variable {σ S P Q : Type}

theorem pointwise_at {α β : Type} {R : α → β → Prop} {a : List α} {b : List β} (h : Pointwise R a b) :
    ∀ (i : Nat) (ha : i < a.length) (hb : i < b.length), R a[i] b[i] := by
  induction h with
  | nil => intro i ha; simp at ha
  | cons h _ ih =>
    intro i ha hb
    cases i with
    | zero => exact h
    | succ i => exact ih i (by simpa using ha) (by simpa using hb)

theorem pointwise_of_at {α β : Type} {R : α → β → Prop} {a : List α} {b : List β} (hl : a.length = b.length)
    (h : ∀ (i : Nat) (ha : i < a.length) (hb : i < b.length), R a[i] b[i]) : Pointwise R a b := by
  induction a generalizing b with
  | nil =>
    cases b with
    | nil => exact .nil
    | cons _ _ => simp at hl
  | cons x a ih =>
    cases b with
    | nil => simp at hl
    | cons y b =>
      exact .cons (h 0 (by simp) (by simp)) (ih (by simpa using hl) fun i ha hb =>
        h (i + 1) (by simpa using ha) (by simpa using hb))

theorem runsAs_call {env : Env σ P} {view : σ → Nat → S} {m : Tasks S Q} {read : Msg P → Option Q} {step : Step}
    (h : RunsAs read env view m step.taskType step.nodeId) {ins : List (Msg P)} (hsrc : step.taskType = .source → ins = [])
    (o : Msg P) (s : σ) :
    view (callProcess env step ins o s).1 = update (view s) step.nodeId
      (m.next step.nodeId (view s step.nodeId) (ins.map read)).1 ∧
    (step.taskType ≠ .sink → sentAs read (callProcess env step ins o s) =
      (m.next step.nodeId (view s step.nodeId) (ins.map read)).2) := by
  unfold callProcess
  cases ht : step.taskType with
  | source =>
    rw [ht] at h
    rw [hsrc ht]
    exact ⟨(h _ _).1, fun _ => (h _ _).2⟩
  | regular =>
    rw [ht] at h
    exact ⟨(h _ _ _).1, fun _ => (h _ _ _).2⟩
  | sink =>
    rw [ht] at h
    exact ⟨h _ _, fun h => absurd rfl h⟩

theorem exec_view {env : Env σ P} {view : σ → Nat → S} {m : Tasks S Q} {read : Msg P → Option Q}
    (hi : Calm env view) (ht : IgnoresTimes read) {step : Step} {ins : List (Msg P)}
    (hr : RunsAs read env view m step.taskType step.nodeId) (hsrc : step.taskType = .source → ins = [])
    (out : Msg P) (w : World σ P) :
    ∃ w' out', execProcess env step ins out true w = (w', out', .next) ∧
      view w'.st = update (view w.st) step.nodeId
        (m.next step.nodeId (view w.st step.nodeId) (ins.map read)).1 ∧
      (step.taskType ≠ .sink →
        read out' = (m.next step.nodeId (view w.st step.nodeId) (ins.map read)).2) := by
  simp only [execProcess, if_true]
  have h0 := runsAs_call hr hsrc (out.setStart (env.now w.st).2) (env.now w.st).1
  rw [hi.now] at h0
  generalize callProcess env step ins (out.setStart (env.now w.st).2) (env.now w.st).1 = r at h0 ⊢
  obtain ⟨s, o, e⟩ := r
  obtain ⟨h1, h2⟩ := h0
  simp only at h1
  cases e with
  | none =>
    simp only [World.emit]
    refine ⟨_, _, rfl, ?_, fun h => ?_⟩
    · simp only [hi.now, h1]
    · rw [← h2 h, ht.stop]; rfl
  | some e =>
    obtain ⟨d1, d2⟩ := hi.ignores step.nodeId e (env.now s).1
    simp only [react, World.emit, d1]
    refine ⟨_, _, rfl, ?_, fun h => ?_⟩
    · simp only [d2, hi.now, h1]
    · rw [← h2 h]; exact ht.stop o.clearPayload _

/-- The step is the callback's: the runtime notes its times. -/
theorem skip_view {env : Env σ P} {view : σ → Nat → S} {read : Msg P → Option Q} (ht : IgnoresTimes read)
    (hnow : ∀ s, view (env.now s).1 = view s) (step : Step)
    (ins : List (Msg P)) (out : Msg P) (w : World σ P) :
    ∃ w' out', execProcess env step ins out false w = (w', out', .next) ∧ view w'.st = view w.st ∧
      read out' = read out := by
  simp only [execProcess]
  refine ⟨_, _, rfl, ?_, (ht.stop _ _).trans (ht.start _ _)⟩
  simp [World.emit, hnow]

theorem Simulates.behaves {env : Env σ P} {sim : Sim σ P} {plan : List Step} {view : σ → Nat → S} {m : Tasks S Q} {read : Msg P → Option Q}
    (hi : Simulates read env sim plan view m) (ht : IgnoresTimes read) : Behaves read plan env view m where
  life ph t w hph := by
    obtain ⟨h1, h2⟩ := hi.life ph t w.st hph
    unfold lifeStep
    rw [hi.runs]
    simp only
    rcases h2 with h2 | ⟨h2, h3⟩
    · rw [h2]
      exact ⟨_, rfl, h1⟩
    · rw [h2]
      simp only [lifeCall, World.emit, (h3 _).1]
      exact ⟨_, rfl, (h3 _).2.trans h1⟩
  step step hs ins out w hsrc := by
    have hp := hi.process step hs ins out w.st hsrc
    unfold processStep
    rw [hi.runs]
    simp only at hp ⊢
    generalize sim.process step.nodeId ins out w.st = r at hp ⊢
    obtain ⟨s, o, a⟩ := r
    rcases hp with ⟨h1, h2, h3⟩ | ⟨h1, h2, h3⟩
    · cases a with
      | executeByRuntime => exact absurd rfl h1
      | executedBySim =>
        obtain ⟨w', o', e1, e2, e3⟩ := skip_view ht hi.calm.now step ins o (w.emit s (.asked .process step.nodeId ins .executedBySim))
        exact ⟨w', o', e1, e2.trans h2, fun hn => e3.trans (h3 hn)⟩
      | errored e =>
        obtain ⟨d1, d2⟩ := hi.calm.ignores step.nodeId e s
        simp only [react, World.emit, d1]
        obtain ⟨w', o', e1, e2, e3⟩ := skip_view ht hi.calm.now step ins o.clearPayload
          ⟨(env.onError .process step.nodeId e s).1, w.trace ++ [.asked .process step.nodeId ins (.errored e)] ++
            [.decided .process step.nodeId e .ignore]⟩
        exact ⟨w', o', e1, e2.trans (d2.trans h2), fun hn => e3.trans (h3 hn)⟩
    · simp only at h1
      subst h1
      obtain ⟨w', o', e1, e2, e3⟩ := exec_view hi.calm ht h3 hsrc o (w.emit s (.asked .process step.nodeId ins .executeByRuntime))
      simp only [World.emit] at e2 e3
      simp only at h2
      rw [h2] at e2 e3
      exact ⟨w', o', e1, e2, e3⟩
  monCL := hi.calm.monCL
  log := hi.calm.log

theorem Drives.behaves {env : Env σ P} {plan : List Step} {view : σ → Nat → S} {m : Tasks S Q}
    {read : Msg P → Option Q} (hi : Drives read env plan view m) (ht : IgnoresTimes read) :
    Behaves read plan env view m where
  life ph t w hph := by
    obtain ⟨h1, h2⟩ := hi.life ph t w.st hph
    exact ⟨w.emit (env.life ph t w.st).1 (.called ph t [] none), by simp only [lifeStep, hi.runs, lifeCall, h1], h2⟩
  step step hs ins out w hsrc := by
    unfold processStep
    rw [hi.runs]
    exact exec_view hi.calm ht (hi.process step hs) hsrc out w
  monCL := hi.calm.monCL
  log := hi.calm.log

/-- Solutions in which the same is sent by the tasks that only send, and the other senders are the same machines. -/
theorem solution_inner {g : Graph} (hg : g.WF) (ha : g.Acyclic) {m m' : Tasks S P} {x x' : Nat → Nat → S}
    {y y' : Nat → Nat → Option P} (hs : Solution g m x y) (hs' : Solution g m' x' y')
    (hm : ∀ t, Inner g t → m'.init t = m.init t ∧ m'.next t = m.next t) {n : Nat}
    (hsrc : ∀ i < n, ∀ t, Sensor g t → y i t = y' i t) :
    ∀ i ≤ n, (∀ t, Inner g t → x i t = x' i t) ∧ (i < n → ∀ e ∈ g.edges, y i e.src = y' i e.src) := by
  obtain ⟨rank, hr⟩ := ha
  have lt : ∀ t, Inner g t → t < g.nodes := by
    rintro t ⟨⟨e, he, rfl⟩, -⟩
    exact (hg e he).2
  have hin : ∀ i t, (∀ e ∈ g.edges, e.dst = t → y i e.src = y' i e.src) →
      (g.edges.filter (fun e => e.dst == t)).map (fun e => y i e.src) =
        (g.edges.filter (fun e => e.dst == t)).map (fun e => y' i e.src) := by
    intro i t h
    apply List.map_congr_left
    intro e he
    obtain ⟨he, hd⟩ := List.mem_filter.1 he
    exact h e he (by simpa using hd)
  have sends : ∀ i < n, (∀ t, Inner g t → x i t = x' i t) →
      ∀ k, ∀ e ∈ g.edges, rank e.src < k → y i e.src = y' i e.src := by
    intro i hi hx k
    induction k with
    | zero => intro e _ h; omega
    | succ k ih =>
      intro e he hk
      by_cases hd : ∃ e' ∈ g.edges, e'.dst = e.src
      · have hI : Inner g e.src := ⟨hd, e, he, rfl⟩
        have e1 := hs.turn i e.src (lt _ hI)
        have e2 := hs'.turn i e.src (lt _ hI)
        rw [(hm _ hI).2] at e2
        rw [hx _ hI, hin i e.src (fun e' he' hd' => ih e' he' (by have := hr e' he'; rw [hd'] at this; omega)),
          ← e2] at e1
        exact congrArg Prod.snd e1
      · exact hsrc i hi e.src ⟨fun e' he' h => hd ⟨e', he', h⟩, e, he, rfl⟩
  intro i
  induction i with
  | zero =>
    intro _
    have h0 : ∀ t, Inner g t → x 0 t = x' 0 t := fun t ht => by
      rw [hs.init t (lt t ht), hs'.init t (lt t ht), (hm t ht).1]
    exact ⟨h0, fun h e he => sends 0 h h0 _ e he (Nat.lt_succ_self _)⟩
  | succ i ih =>
    intro hi
    obtain ⟨hx, hy⟩ := ih (by omega)
    have h1 : ∀ t, Inner g t → x (i + 1) t = x' (i + 1) t := by
      intro t ht
      have e1 := hs.turn i t (lt t ht)
      have e2 := hs'.turn i t (lt t ht)
      rw [(hm t ht).2] at e2
      rw [hx t ht, hin i t (fun e he _ => hy (by omega) e he), ← e2] at e1
      exact congrArg Prod.fst e1
    exact ⟨h1, fun h e he => sends (i + 1) h h1 _ e he (Nat.lt_succ_self _)⟩

end Dataflow
end Verif
