import Verif.Spec.Runtime
import Verif.Proofs.EndOfProcessing
/-! The shape of the traces produced by the generated code. -/
namespace Verif
namespace Runtime
open Planner CopperList Clock
variable {σ P : Type}

/-- How a decision steers the code. -/
def flowOf (e : Err) : Decision → Flow
  | .abort => .abort
  | .ignore => .next
  | .shutdown => .shutdown e

/-- Call of the real method. -/
inductive RealChunk (ph : Phase) (tid : Nat) (ins : List (Msg P)) :
    List (Ev P) → Flow → Bool → Prop
  | ok : RealChunk ph tid ins [.called ph tid ins none] .next false
  | err (e : Err) (d : Decision) :
      RealChunk ph tid ins [.called ph tid ins (some e), .decided ph tid e d] (flowOf e d) true

/-- A step, without the final `left` event. -/
inductive Core (sim : Bool) (ph : Phase) (tid : Nat) (ins : List (Msg P)) :
    List (Ev P) → Flow → Bool → Prop
  | real {c : List (Ev P)} {f : Flow} {b : Bool} (hs : sim = false) (h : RealChunk ph tid ins c f b) :
      Core sim ph tid ins c f b
  | bySim (hs : sim = true) : Core sim ph tid ins [.asked ph tid ins .executedBySim] .next false
  | errored (hs : sim = true) (e : Err) (d : Decision) :
      Core sim ph tid ins [.asked ph tid ins (.errored e), .decided ph tid e d] (flowOf e d) true
  | byRuntime {c : List (Ev P)} {f : Flow} {b : Bool} (hs : sim = true) (h : RealChunk ph tid ins c f b) :
      Core sim ph tid ins (.asked ph tid ins .executeByRuntime :: c) f b

/-- A process step. -/
inductive ProcChunk (sim : Bool) (tid : Nat) (ins : List (Msg P)) (out : Msg P) :
    List (Ev P) → Flow → Prop
  | next {c : List (Ev P)} {b : Bool} (h : Core sim .process tid ins c .next b)
      (hp : b = true → out.payload = none) :
      ProcChunk sim tid ins out (c ++ [.left tid out]) .next
  | stop {c : List (Ev P)} {f : Flow} {b : Bool} (h : Core sim .process tid ins c f b) (hf : f ≠ .next) :
      ProcChunk sim tid ins out c f

inductive LifeTrace (sim : Bool) (ph : Phase) : List Nat → List (Ev P) → Flow → Prop
  | nil : LifeTrace sim ph [] [] .next
  | cons {t : Nat} {ts : List Nat} {c cs : List (Ev P)} {f : Flow} {b : Bool}
      (h : Core sim ph t [] c .next b) (hs : LifeTrace sim ph ts cs f) :
      LifeTrace sim ph (t :: ts) (c ++ cs) f
  | stop {t : Nat} {ts : List Nat} {c : List (Ev P)} {f : Flow} {b : Bool}
      (h : Core sim ph t [] c f b) (hf : f ≠ .next) : LifeTrace sim ph (t :: ts) c f

inductive PlanTrace (sim : Bool) :
    List Step → List (Msg P) → List (Ev P) → List (Msg P) → Flow → Prop
  | nil (msgs : List (Msg P)) : PlanTrace sim [] msgs [] msgs .next
  | cons {step : Step} {steps : List Step} {msgs msgs' : List (Msg P)} {ins : List (Msg P)}
      {out : Msg P} {o : Nat} {ty : String} {c cs : List (Ev P)} {f : Flow}
      (ho : step.output = some (o, ty)) (hl : o < msgs.length)
      (hi : mapRs (fun i => Rs.ofOption msgs[i.1]?) step.inputs = .ok ins)
      (h : ProcChunk sim step.nodeId ins out c .next)
      (hs : PlanTrace sim steps (msgs.set o out) cs msgs' f) :
      PlanTrace sim (step :: steps) msgs (c ++ cs) msgs' f
  | stop {step : Step} {steps : List Step} {msgs : List (Msg P)} {ins : List (Msg P)}
      {out : Msg P} {o : Nat} {ty : String} {c : List (Ev P)} {f : Flow}
      (ho : step.output = some (o, ty)) (hl : o < msgs.length)
      (hi : mapRs (fun i => Rs.ofOption msgs[i.1]?) step.inputs = .ok ins)
      (h : ProcChunk sim step.nodeId ins out c f) (hf : f ≠ .next) :
      PlanTrace sim (step :: steps) msgs c (msgs.set o out) f

theorem react_eq (env : Env σ P) (ph : Phase) (tid : Nat) (e : Err) (w : World σ P) :
    ∃ d, (react env ph tid e w).1.trace = w.trace ++ [.decided ph tid e d] ∧
      (react env ph tid e w).2 = flowOf e d := by
  refine ⟨(env.onError ph tid e w.st).2, rfl, ?_⟩
  unfold react flowOf
  rfl

theorem lifeCall_real (env : Env σ P) (ph : Phase) (tid : Nat) (w : World σ P) :
    ∃ c b, (lifeCall env ph tid w).1.trace = w.trace ++ c ∧
      RealChunk ph tid [] c (lifeCall env ph tid w).2 b := by
  unfold lifeCall
  cases h : (env.life ph tid w.st).2 with
  | none =>
    refine ⟨[.called ph tid [] none], false, ?_, ?_⟩
    · simp [h, World.emit]
    · simp only [h]; exact RealChunk.ok
  | some e =>
    obtain ⟨d, h1, h2⟩ := react_eq env ph tid e
      (w.emit (env.life ph tid w.st).1 (.called ph tid [] (some e)))
    refine ⟨[.called ph tid [] (some e), .decided ph tid e d], true, ?_, ?_⟩
    · simp only [h]; rw [h1]; simp [World.emit]
    · simp only [h]; rw [h2]; exact RealChunk.err e d

theorem lifeStep_core (env : Env σ P) (ph : Phase) (tid : Nat) (w : World σ P) :
    ∃ c b, (lifeStep env ph tid w).1.trace = w.trace ++ c ∧
      Core env.sim.isSome ph tid [] c (lifeStep env ph tid w).2 b := by
  unfold lifeStep
  cases hs : env.sim with
  | none =>
    obtain ⟨c, b, h1, h2⟩ := lifeCall_real env ph tid w
    exact ⟨c, b, h1, .real rfl h2⟩
  | some sim =>
    simp only [Option.isSome_some]
    cases h : (sim.life ph tid w.st).2 with
    | executedBySim =>
      exact ⟨_, _, by simp [World.emit], .bySim rfl⟩
    | errored e =>
      obtain ⟨d, h1, h2⟩ := react_eq env ph tid e
        (w.emit (sim.life ph tid w.st).1 (.asked ph tid [] (.errored e)))
      refine ⟨[.asked ph tid [] (.errored e), .decided ph tid e d], true, ?_, ?_⟩
      · simp only; rw [h1]; simp [World.emit]
      · simp only; rw [h2]; exact .errored rfl e d
    | executeByRuntime =>
      obtain ⟨c, b, h1, h2⟩ := lifeCall_real env ph tid
        (w.emit (sim.life ph tid w.st).1 (.asked ph tid [] .executeByRuntime))
      exact ⟨_, b, by simp only; rw [h1]; simp [World.emit], .byRuntime rfl h2⟩

theorem lifeAll_trace (env : Env σ P) (ph : Phase) (ts : List Nat) (w : World σ P) :
    ∃ c, (lifeAll env ph ts w).1.trace = w.trace ++ c ∧
      LifeTrace env.sim.isSome ph ts c (lifeAll env ph ts w).2 := by
  induction ts generalizing w with
  | nil => exact ⟨[], by simp [lifeAll], .nil⟩
  | cons t ts ih =>
    obtain ⟨c, b, h1, h2⟩ := lifeStep_core env ph t w
    unfold lifeAll
    generalize lifeStep env ph t w = r at h1 h2
    obtain ⟨w1, f⟩ := r
    cases f with
    | next =>
      obtain ⟨cs, h3, h4⟩ := ih w1
      refine ⟨c ++ cs, ?_, .cons h2 h4⟩
      simp only; rw [h3, h1]; simp
    | abort => exact ⟨c, h1, .stop h2 (by simp)⟩
    | shutdown e => exact ⟨c, h1, .stop h2 (by simp)⟩

theorem execProcess_real (env : Env σ P) (step : Step) (ins : List (Msg P)) (out : Msg P)
    (w : World σ P) :
    ∃ c f b, RealChunk .process step.nodeId ins c f b ∧
      (execProcess env step ins out true w).2.2 = f ∧
      (execProcess env step ins out true w).1.trace = w.trace ++ c ++
        (if f = .next then [.left step.nodeId (execProcess env step ins out true w).2.1] else []) ∧
      (f = .next → b = true → (execProcess env step ins out true w).2.1.payload = none) := by
  unfold execProcess
  simp only [if_true]
  generalize callProcess env step ins _ _ = r
  obtain ⟨s1, out1, r⟩ := r
  cases r with
  | none =>
    refine ⟨_, _, _, .ok, rfl, ?_, ?_⟩
    · simp [World.emit]
    · simp
  | some e =>
    simp only
    generalize hw : World.mk _ _ = w1
    obtain ⟨d, h1, h2⟩ := react_eq env .process step.nodeId e w1
    generalize react env .process step.nodeId e w1 = q at h1 h2
    obtain ⟨w2, f⟩ := q
    simp only at h1 h2
    refine ⟨_, _, _, .err e d, ?_⟩
    cases d <;> simp only [flowOf] at h2 ⊢ <;> subst h2 <;>
      simp [World.emit, h1, ← hw, Msg.clearPayload]

theorem execProcess_skip (env : Env σ P) (step : Step) (ins : List (Msg P)) (out : Msg P)
    (w : World σ P) :
    (execProcess env step ins out false w).2.2 = .next ∧
      (execProcess env step ins out false w).1.trace = w.trace ++
        [.left step.nodeId (execProcess env step ins out false w).2.1] ∧
      (execProcess env step ins out false w).2.1.payload = out.payload := by
  unfold execProcess
  simp [World.emit, Msg.setStop, Msg.setStart]

theorem procChunk_of {sim : Bool} {tid : Nat} {ins : List (Msg P)} {out : Msg P}
    {c : List (Ev P)} {f : Flow} {b : Bool} (h : Core sim .process tid ins c f b)
    (hp : f = .next → b = true → out.payload = none) :
    ProcChunk sim tid ins out (c ++ if f = .next then [.left tid out] else []) f := by
  by_cases hf : f = .next
  · subst hf; simp only [if_true]; exact .next h (hp rfl)
  · simp only [if_neg hf, List.append_nil]; exact .stop h hf

theorem processStep_chunk (env : Env σ P) (step : Step) (ins : List (Msg P)) (out : Msg P)
    (w : World σ P) :
    ∃ c, (processStep env step ins out w).1.trace = w.trace ++ c ∧
      ProcChunk env.sim.isSome step.nodeId ins (processStep env step ins out w).2.1 c
        (processStep env step ins out w).2.2 := by
  unfold processStep
  cases hs : env.sim with
  | none =>
    obtain ⟨c, f, b, h1, h2, h3, h4⟩ := execProcess_real env step ins out w
    simp only [Option.isSome_none]
    rw [h2]
    exact ⟨_, by rw [h3, List.append_assoc], procChunk_of (.real rfl h1) h4⟩
  | some sim =>
    simp only [Option.isSome_some]
    generalize sim.process step.nodeId ins out w.st = r
    obtain ⟨s1, out1, ovr⟩ := r
    simp only
    cases ovr with
    | executedBySim =>
      simp only
      generalize hw : World.emit w s1 _ = w1
      obtain ⟨h1, h2, h3⟩ := execProcess_skip env step ins out1 w1
      rw [h1]
      exact ⟨_, by rw [h2, ← hw]; simp [World.emit], .next (.bySim rfl) (by simp)⟩
    | errored e =>
      simp only
      generalize hw : World.emit w s1 _ = w1
      obtain ⟨d, h1, h2⟩ := react_eq env .process step.nodeId e w1
      generalize react env .process step.nodeId e w1 = q at h1 h2
      obtain ⟨w2, f⟩ := q
      simp only at h1 h2
      cases d with
      | ignore =>
        simp only [flowOf] at h2
        subst h2
        obtain ⟨h3, h4, h5⟩ := execProcess_skip env step ins out1.clearPayload w2
        simp only
        rw [h3]
        exact ⟨_, by rw [h4, h1, ← hw]; simp [World.emit],
          .next (.errored rfl e .ignore) (fun _ => by rw [h5]; rfl)⟩
      | abort =>
        simp only [flowOf] at h2
        subst h2
        exact ⟨_, by simp only; rw [h1, ← hw]; simp [World.emit],
          .stop (.errored rfl e .abort) (by simp [flowOf])⟩
      | shutdown =>
        simp only [flowOf] at h2
        subst h2
        exact ⟨_, by simp only; rw [h1, ← hw]; simp [World.emit],
          .stop (.errored rfl e .shutdown) (by simp [flowOf])⟩
    | executeByRuntime =>
      simp only
      generalize hw : World.emit w s1 _ = w1
      obtain ⟨c, f, b, h1, h2, h3, h4⟩ := execProcess_real env step ins out1 w1
      rw [h2]
      exact ⟨_, by rw [h3, ← hw]; simp [World.emit], procChunk_of (.byRuntime rfl h1) h4⟩

theorem planLoop_trace (env : Env σ P) (steps : List Step) (w : World σ P) (msgs : List (Msg P))
    {w' : World σ P} {msgs' : List (Msg P)} {f : Flow}
    (h : planLoop env steps w msgs = .ok (w', msgs', f)) :
    ∃ c, w'.trace = w.trace ++ c ∧ PlanTrace env.sim.isSome steps msgs c msgs' f := by
  induction steps generalizing w msgs with
  | nil =>
    simp only [planLoop, Rs.ok.injEq, Prod.mk.injEq] at h
    obtain ⟨rfl, rfl, rfl⟩ := h
    exact ⟨[], by simp, .nil _⟩
  | cons step steps ih =>
    unfold planLoop at h
    cases ho : step.output with
    | none => rw [ho] at h; cases h
    | some x =>
      obtain ⟨o, ty⟩ := x
      rw [ho] at h
      simp only at h
      cases hi : mapRs (fun i => Rs.ofOption msgs[i.1]?) step.inputs with
      | panic => rw [hi] at h; cases h
      | ok ins =>
        rw [hi] at h
        cases hm : msgs[o]? with
        | none => rw [hm] at h; cases h
        | some out =>
          rw [hm] at h
          have hl : o < msgs.length := by
            by_cases hl : o < msgs.length
            · exact hl
            · rw [List.getElem?_eq_none (by omega)] at hm; cases hm
          obtain ⟨c, h1, h2⟩ := processStep_chunk env step ins out w
          simp only at h
          generalize processStep env step ins out w = r at h h1 h2
          obtain ⟨w1, out1, f1⟩ := r
          cases f1 with
          | next =>
            obtain ⟨cs, h3, h4⟩ := ih w1 _ h
            refine ⟨c ++ cs, ?_, .cons ho hl hi h2 h4⟩
            rw [h3, h1]; simp
          | abort =>
            simp only [Rs.ok.injEq, Prod.mk.injEq] at h
            obtain ⟨rfl, rfl, rfl⟩ := h
            exact ⟨c, h1, .stop ho hl hi h2 (by simp)⟩
          | shutdown e =>
            simp only [Rs.ok.injEq, Prod.mk.injEq] at h
            obtain ⟨rfl, rfl, rfl⟩ := h
            exact ⟨c, h1, .stop ho hl hi h2 (by simp)⟩

end Runtime
end Verif
