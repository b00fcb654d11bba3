import Verif.Spec.Replay
import Verif.Proofs.RuntimePool
import Verif.Proofs.RuntimeMemory
import Verif.Proofs.RuntimeRun
/-! A replay does what the recorded run did (C58). -/
namespace Verif
namespace Runtime
open Clock CopperList Planner
variable {σ σ' P τ : Type}

@[simp] theorem content_setStart (m : Msg P) (t : CuTime) : (m.setStart t).content = m.content := rfl
@[simp] theorem content_setStop (m : Msg P) (t : CuTime) : (m.setStop t).content = m.content := rfl

/-- The content left by a process step: a failed task's payload is cleared. -/
def settle (r : Content P × Bool) : Content P := if r.2 then { r.1 with payload := none } else r.1

/-- What the recording and the replay have in common. -/
structure Fair (plan : List Step) (code : TaskCode P τ) (mem : σ → Nat → τ) (env : Env σ P) : Prop where
  plays : Plays plan code mem env
  sim : ∀ s, env.sim = some s → LeavesRegular plan mem s

section one
variable {plan : List Step} {code : TaskCode P τ} {mem : σ → Nat → τ} {env : Env σ P}

theorem react_mem (h : Fair plan code mem env) (ph : Phase) (t : Nat) (e : Err) (w : World σ P) :
    mem (react env ph t e w).1.st = mem w.st := h.plays.onError ph t e w.st

theorem lifeCall_mem (h : Fair plan code mem env) (ph : Phase) (t : Nat) (w : World σ P) :
    mem (lifeCall env ph t w).1.st = mem (env.life ph t w.st).1 := by
  unfold lifeCall
  cases hr : (env.life ph t w.st).2 with
  | none => simp only [hr]; rfl
  | some e => simp only [hr]; rw [react_mem h]; rfl

theorem lifeStep_mem (h : Fair plan code mem env) (ph : Phase) (t : Nat) (w : World σ P)  :
    (IsRegular plan t →
      mem (lifeStep env ph t w).1.st = setAt (mem w.st) t (code.life ph t (mem w.st t))) ∧
    (¬ IsRegular plan t → mem (lifeStep env ph t w).1.st = mem w.st) := by
  unfold lifeStep
  cases hs : env.sim with
  | none =>
    simp only [lifeCall_mem h]
    exact ⟨h.plays.life ph t w.st, h.plays.lifeOther ph t w.st⟩
  | some sim =>
    obtain ⟨h1, h2⟩ := (h.sim sim hs).life ph t w.st
    simp only
    constructor
    · intro hr
      rw [h2 hr]
      simp only
      rw [lifeCall_mem h]
      have := h.plays.life ph t (sim.life ph t w.st).1 hr
      rw [h1] at this
      exact this
    · intro hr
      cases (sim.life ph t w.st).2 with
      | errored e => simp only; rw [react_mem h]; exact h1
      | executedBySim => exact h1
      | executeByRuntime =>
        simp only
        rw [lifeCall_mem h]
        have := h.plays.lifeOther ph t (sim.life ph t w.st).1 hr
        rw [h1] at this
        exact this

/-- The memories after a whole round of lifecycle calls. -/
noncomputable def lifeMem (plan : List Step) (code : TaskCode P τ) (ph : Phase) : List Nat → (Nat → τ) → Nat → τ
  | [], m => m
  | t :: ts, m =>
    open Classical in
    lifeMem plan code ph ts (if IsRegular plan t then setAt m t (code.life ph t (m t)) else m)

theorem lifeAll_mem (h : Fair plan code mem env) (ph : Phase) (ts : List Nat) (w : World σ P)
    (hf : (lifeAll env ph ts w).2 = .next) :
    mem (lifeAll env ph ts w).1.st = lifeMem plan code ph ts (mem w.st) := by
  induction ts generalizing w with
  | nil => rfl
  | cons t ts ih =>
    have hm := lifeStep_mem h ph t w
    unfold lifeAll at hf ⊢
    unfold lifeMem
    generalize lifeStep env ph t w = r at hf hm ⊢
    obtain ⟨w1, f⟩ := r
    cases f with
    | next =>
      simp only at hf hm ⊢
      rw [ih w1 hf]
      congr 1
      by_cases hr : IsRegular plan t
      · rw [if_pos hr, hm.1 hr]
      · rw [if_neg hr, hm.2 hr]
    | abort => simp at hf
    | shutdown e => simp at hf

theorem lifeMem_congr (plan : List Step) (code : TaskCode P τ) (ph : Phase) (ts : List Nat)
    (m m' : Nat → τ) (h : ∀ t, IsRegular plan t → m t = m' t) :
    ∀ t, IsRegular plan t → lifeMem plan code ph ts m t = lifeMem plan code ph ts m' t := by
  induction ts generalizing m m' with
  | nil => exact h
  | cons t ts ih =>
    unfold lifeMem
    apply ih
    intro u hu
    by_cases hr : IsRegular plan t
    · rw [if_pos hr, if_pos hr]
      unfold setAt
      split
      · rw [h t hr]
      · exact h u hu
    · rw [if_neg hr, if_neg hr]; exact h u hu

/-- The runtime's part of a process step: memory. -/
theorem execProcess_other (h : Fair plan code mem env) (step : Step) (hk : step.taskType ≠ .regular)
    (ins : List (Msg P)) (out : Msg P) (doit : Bool) (w : World σ P) :
    mem (execProcess env step ins out doit w).1.st = mem w.st := by
  have hc : ∀ o s, mem (callProcess env step ins o s).1 = mem s := by
    intro o s
    unfold callProcess
    cases ht : step.taskType with
    | source => exact h.plays.source _ _ _
    | sink => exact h.plays.sink _ _ _
    | regular => exact absurd ht hk
  unfold execProcess
  cases doit with
  | false => simp [World.emit, h.plays.now]
  | true =>
    simp only [if_true]
    have h1 := hc (out.setStart (env.now w.st).2) (env.now w.st).1
    generalize callProcess env step ins (out.setStart (env.now w.st).2) (env.now w.st).1 = r at h1
    obtain ⟨s, o, e⟩ := r
    simp only [h.plays.now] at h1
    cases e with
    | none => simp [World.emit, h.plays.now, h1]
    | some e =>
      simp only
      generalize hw : ({ st := _, trace := _ } : World σ P) = w1
      have hw1 : mem w1.st = mem w.st := by rw [← hw]; simp [World.emit, h.plays.now, h1]
      have h2 := react_mem h .process step.nodeId e w1
      generalize react env .process step.nodeId e w1 = q at h2
      obtain ⟨v, f⟩ := q
      cases f <;> simp only [World.emit] at h2 ⊢ <;> rw [h2, hw1]

theorem execProcess_regular (h : Fair plan code mem env) (step : Step)
    (hk : step.taskType = .regular) (ins : List (Msg P)) (out : Msg P) (w : World σ P)
    (hf : (execProcess env step ins out true w).2.2 = .next) :
    let r := code.process step.nodeId (ins.map Msg.content) out.content (mem w.st step.nodeId)
    mem (execProcess env step ins out true w).1.st = setAt (mem w.st) step.nodeId r.1 ∧
      (execProcess env step ins out true w).2.1.content = settle r.2 := by
  unfold execProcess at hf ⊢
  simp only [if_true, callProcess, hk] at hf ⊢
  obtain ⟨h1, h2, h3⟩ := h.plays.regular step.nodeId ins (out.setStart (env.now w.st).2) (env.now w.st).1
  simp only [h.plays.now, content_setStart] at h1 h2 h3
  generalize env.regular step.nodeId ins (out.setStart (env.now w.st).2) (env.now w.st).1 = r at h1 h2 h3 hf ⊢
  obtain ⟨s, o, e⟩ := r
  generalize code.process step.nodeId (ins.map Msg.content) out.content (mem w.st step.nodeId) = c at h1 h2 h3 ⊢
  obtain ⟨m, c, b⟩ := c
  simp only at h1 h2 h3
  subst h2 h3
  cases e with
  | none => simp [World.emit, h.plays.now, h1, settle]
  | some e =>
    simp only at hf ⊢
    generalize hw : ({ st := _, trace := _ } : World σ P) = w1 at hf ⊢
    have hw1 : mem w1.st = setAt (mem w.st) step.nodeId m := by
      rw [← hw]; simp [World.emit, h.plays.now, h1]
    have h2 := react_mem h .process step.nodeId e w1
    generalize react env .process step.nodeId e w1 = q at h2 hf ⊢
    obtain ⟨v, f⟩ := q
    cases f with
    | next =>
      simp only [World.emit] at h2 ⊢
      exact ⟨by rw [h2, hw1], rfl⟩
    | abort => simp at hf
    | shutdown e => simp at hf

theorem processStep_other (h : Fair plan code mem env) (step : Step) (hk : step.taskType ≠ .regular)
    (ins : List (Msg P)) (out : Msg P) (w : World σ P) :
    mem (processStep env step ins out w).1.st = mem w.st := by
  unfold processStep
  cases hs : env.sim with
  | none => exact execProcess_other h step hk ins out true w
  | some sim =>
    obtain ⟨h1, -⟩ := (h.sim sim hs).process step.nodeId ins out w.st
    simp only
    cases (sim.process step.nodeId ins out w.st).2.2 with
    | errored e =>
      simp only
      have h2 := react_mem h .process step.nodeId e
        (w.emit (sim.process step.nodeId ins out w.st).1 (.asked .process step.nodeId ins (.errored e)))
      generalize react env .process step.nodeId e _ = q at h2 ⊢
      obtain ⟨v, f⟩ := q
      have h3 : mem v.st = mem w.st := h2.trans h1
      cases f with
      | next => simp only; rw [execProcess_other h step hk]; exact h3
      | abort => exact h3
      | shutdown e => exact h3
    | executedBySim => simp only; rw [execProcess_other h step hk]; exact h1
    | executeByRuntime => simp only; rw [execProcess_other h step hk]; exact h1

theorem processStep_regular (h : Fair plan code mem env) (step : Step) (hm : step ∈ plan)
    (hk : step.taskType = .regular) (ins : List (Msg P)) (out : Msg P) (w : World σ P)
    (hf : (processStep env step ins out w).2.2 = .next) :
    let r := code.process step.nodeId (ins.map Msg.content) out.content (mem w.st step.nodeId)
    mem (processStep env step ins out w).1.st = setAt (mem w.st) step.nodeId r.1 ∧
      (processStep env step ins out w).2.1.content = settle r.2 := by
  unfold processStep at hf ⊢
  cases hs : env.sim with
  | none => rw [hs] at hf; exact execProcess_regular h step hk ins out w hf
  | some sim =>
    rw [hs] at hf
    obtain ⟨h1, h2⟩ := (h.sim sim hs).process step.nodeId ins out w.st
    have h3 := h2 ⟨step, hm, rfl, hk⟩
    simp only [h3] at hf ⊢
    have := execProcess_regular h step hk ins out _ hf
    simp only [World.emit, h1] at this ⊢
    exact this

end one

theorem mem_of_drop {α : Type} {l : List α} {k : Nat} {a : α} {as : List α} (h : a :: as = l.drop k) :
    k < l.length ∧ l[k]? = some a ∧ as = l.drop (k + 1) := by
  have hk1 : k < l.length := by
    by_cases hk1 : k < l.length
    · exact hk1
    · rw [List.drop_eq_nil_iff.2 (by omega)] at h; cases h
  rw [List.drop_eq_getElem_cons hk1] at h
  simp only [List.cons.injEq] at h
  exact ⟨hk1, by rw [List.getElem?_eq_getElem hk1, h.1], h.2⟩

/-- One step of `planLoop` that goes on. -/
theorem planLoop_cons {env : Env σ P} {plan : List Step} (hw : Wired plan) {k : Nat} {step : Step}
    (hst : plan[k]? = some step) {steps : List Step} {w v : World σ P} {msgs out : List (Msg P)}
    (h : planLoop env (step :: steps) w msgs = .ok (v, out, .next)) :
    ∃ ins o, mapRs (fun i => Rs.ofOption msgs[i.1]?) step.inputs = .ok ins ∧ msgs[k]? = some o ∧
      (processStep env step ins o w).2.2 = .next ∧
      planLoop env steps (processStep env step ins o w).1
        (msgs.set k (processStep env step ins o w).2.1) = .ok (v, out, .next) := by
  obtain ⟨ty, ho⟩ := hw.own k _ hst
  unfold planLoop at h
  rw [ho] at h
  simp only at h
  cases hi : mapRs (fun i => Rs.ofOption msgs[i.1]?) step.inputs with
  | panic => rw [hi] at h; cases h
  | ok ins =>
    rw [hi] at h
    cases hm : msgs[k]? with
    | none => rw [hm] at h; cases h
    | some o =>
      rw [hm] at h
      simp only at h
      refine ⟨ins, o, rfl, rfl, ?_⟩
      generalize processStep env step ins o w = r at h ⊢
      obtain ⟨w1, o1, f⟩ := r
      cases f with
      | next => exact ⟨rfl, h⟩
      | abort => simp at h
      | shutdown e => simp at h

/-- Later steps do not write to the slots of earlier ones. -/
theorem planLoop_keeps {env : Env σ P} {plan : List Step} (hw : Wired plan) (steps : List Step) :
    ∀ (k : Nat) (w v : World σ P) (msgs out : List (Msg P)), steps = plan.drop k →
      planLoop env steps w msgs = .ok (v, out, .next) → out.length = msgs.length ∧
      ∀ j, j < k → out[j]? = msgs[j]? := by
  induction steps with
  | nil =>
    intro k w v msgs out _ h
    simp only [planLoop, Rs.ok.injEq, Prod.mk.injEq] at h
    obtain ⟨_, rfl, _⟩ := h
    exact ⟨rfl, fun _ _ => rfl⟩
  | cons step steps ih =>
    intro k w v msgs out hst h
    obtain ⟨_, hk, hst'⟩ := mem_of_drop hst
    obtain ⟨ins, o, _, _, _, h4⟩ := planLoop_cons hw hk h
    obtain ⟨h5, h6⟩ := ih (k + 1) _ _ _ _ hst' h4
    refine ⟨by simpa using h5, fun j hj => ?_⟩
    rw [h6 j (by omega), List.getElem?_set_ne (by omega)]

/-- Same contents in the slots of sources and regular tasks. -/
def Agree (plan : List Step) (a b : List (Msg P)) : Prop :=
  ∀ (k : Nat) (s : Step), plan[k]? = some s → s.taskType ≠ .sink →
    a[k]?.map Msg.content = b[k]?.map Msg.content

theorem inputs_agree {a b : List (Msg P)} {inputs : List (Nat × String)} {ins ins' : List (Msg P)}
    (ha : mapRs (fun i => Rs.ofOption a[i.1]?) inputs = .ok ins)
    (hb : mapRs (fun i => Rs.ofOption b[i.1]?) inputs = .ok ins')
    (h : ∀ i ∈ inputs, a[i.1]?.map Msg.content = b[i.1]?.map Msg.content) :
    ins.map Msg.content = ins'.map Msg.content := by
  induction inputs generalizing ins ins' with
  | nil =>
    simp only [mapRs, Rs.ok.injEq] at ha hb
    subst ha hb; rfl
  | cons i inputs ih =>
    unfold mapRs at ha hb
    have hi := h i (by simp)
    cases h1 : a[i.1]? with
    | none => rw [h1] at ha; cases ha
    | some x =>
      cases h2 : b[i.1]? with
      | none => rw [h2] at hb; cases hb
      | some y =>
        rw [h1] at ha hi
        rw [h2] at hb hi
        simp only [Rs.ofOption] at ha hb
        cases h3 : mapRs (fun i => Rs.ofOption a[i.1]?) inputs with
        | panic => simp only [Rs.ofOption] at h3; rw [h3] at ha; cases ha
        | ok xs =>
          cases h4 : mapRs (fun i => Rs.ofOption b[i.1]?) inputs with
          | panic => simp only [Rs.ofOption] at h4; rw [h4] at hb; cases hb
          | ok ys =>
            have := ih h3 h4 (fun i hi => h i (by simp [hi]))
            simp only [Rs.ofOption] at h3 h4
            rw [h3] at ha
            rw [h4] at hb
            simp only [Rs.ok.injEq] at ha hb
            subst ha hb
            simp only [Option.map_some, Option.some.injEq] at hi
            simp [hi, this]

theorem kindOf_eq {plan : List Step} (hn : (plan.map Step.nodeId).Nodup) {s : Step} (hs : s ∈ plan) :
    kindOf plan s.nodeId = s.taskType := by
  unfold kindOf
  cases hf : plan.find? (fun x => x.nodeId == s.nodeId) with
  | none =>
    have := List.find?_eq_none.1 hf s hs
    simp at this
  | some x =>
    have h1 := List.mem_of_find?_eq_some hf
    have h2 := List.find?_some hf
    simp only [beq_iff_eq] at h2
    obtain ⟨i, hi, rfl⟩ := List.getElem_of_mem h1
    obtain ⟨j, hj, rfl⟩ := List.getElem_of_mem hs
    have : i = j := (List.getElem?_inj (by simpa using hi) hn).1 (by simp [hi, hj, h2])
    subst this; rfl

theorem isRegular_iff {plan : List Step} (hn : (plan.map Step.nodeId).Nodup) {s : Step} (hs : s ∈ plan) :
    IsRegular plan s.nodeId ↔ s.taskType = .regular := by
  rw [← kindOf_eq hn hs]
  constructor
  · rintro ⟨x, hx, h1, h2⟩
    rw [← h1, kindOf_eq hn hx, h2]
  · intro h
    exact ⟨s, hs, rfl, by rw [← kindOf_eq hn hs, h]⟩

theorem kindOf_regular {plan : List Step} (hn : (plan.map Step.nodeId).Nodup) {t : Nat}
    (h : IsRegular plan t) : kindOf plan t = .regular := by
  obtain ⟨s, hs, rfl, h2⟩ := h
  rw [kindOf_eq hn hs, h2]

theorem resim_leaves {plan : List Step} (hn : (plan.map Step.nodeId).Nodup) (mem : σ → Nat → τ)
    (so : Nat → List (Msg P) → Msg P → Msg P) (msgs : List (Msg P)) :
    LeavesRegular plan mem (resimCallback (σ := σ) plan so msgs) := by
  constructor
  · intro ph t s
    exact ⟨rfl, fun h => by simp [resimCallback, kindOf_regular hn h]⟩
  · intro t ins out s
    constructor
    · unfold resimCallback; simp only; split <;> rfl
    · intro h; simp [resimCallback, kindOf_regular hn h]

theorem default_leaves {plan : List Step} (hn : (plan.map Step.nodeId).Nodup) (mem : σ → Nat → τ) :
    LeavesRegular plan mem (defaultCallback (σ := σ) (P := P) plan) := by
  constructor
  · intro ph t s
    exact ⟨rfl, fun h => by simp [defaultCallback, kindOf_regular hn h]⟩
  · intro t ins out s
    exact ⟨rfl, fun h => by simp [defaultCallback, kindOf_regular hn h]⟩

theorem Plays.withSim {plan : List Step} {code : TaskCode P τ} {mem : σ → Nat → τ} {app : App σ P}
    (h : Plays plan code mem app.env) {sim : Sim σ P} (hs : LeavesRegular plan mem sim) :
    Fair plan code mem (app.withSim sim).env := by
  refine ⟨⟨h.life, h.regular, h.lifeOther, h.now, h.source, h.sink, h.onError, h.monCL, h.monStart,
    h.log⟩, ?_⟩
  intro s he
  simp only [App.withSim, Option.some.injEq] at he
  subst he; exact hs

/-- The replayed source leaves what was recorded. -/
theorem source_replayed {plan : List Step} (hn : (plan.map Step.nodeId).Nodup) {app : App σ P}
    {so : Nat → List (Msg P) → Msg P → Msg P} {rec : List (Msg P)} {k : Nat} {step : Step}
    (hs : step ∈ plan) (hk : step.taskType = .source) (hacc : accessorIndex plan step.nodeId = some k)
    {m : Msg P} (hm : rec[k]? = some m) (ins : List (Msg P)) (out : Msg P) (w : World σ P) :
    (processStep (app.withSim (resimCallback plan so rec)).env step ins out w).2.1.content =
      m.content := by
  have h1 : kindOf plan step.nodeId = .source := by rw [kindOf_eq hn hs, hk]
  simp only [processStep, App.withSim, resimCallback, h1, hacc, Option.bind_some, hm,
    Option.getD_some]
  rfl

/-- The process steps of a recorded iteration and of its replay. -/
theorem planLoop_sync {plan : List Step} (hw : Wired plan)
    (hns : ∀ (k : Nat) (s : Step), plan[k]? = some s → ∀ i ∈ s.inputs, ∀ p : Step, plan[i.1]? = some p →
      p.taskType ≠ .sink)
    (hacc : SourcesReadable plan)
    {code : TaskCode P τ} {mem : σ → Nat → τ} {env : Env σ P} (he : Fair plan code mem env)
    {mem' : σ' → Nat → τ} {app' : App σ' P} (he' : Plays plan code mem' app'.env)
    {so : Nat → List (Msg P) → Msg P → Msg P} {out : List (Msg P)} (steps : List Step) :
    ∀ (k : Nat) (msgs msgs' out' : List (Msg P)) (w v : World σ P) (w' v' : World σ' P),
      steps = plan.drop k → msgs.length = plan.length → msgs'.length = plan.length →
      Agree plan msgs msgs' → (∀ t, IsRegular plan t → mem w.st t = mem' w'.st t) →
      planLoop env steps w msgs = .ok (v, out, .next) →
      planLoop (app'.withSim (resimCallback plan so out)).env steps w' msgs' = .ok (v', out', .next) →
      Agree plan out out' ∧ ∀ t, IsRegular plan t → mem v.st t = mem' v'.st t := by
  induction steps with
  | nil =>
    intro k msgs msgs' out' w v w' v' _ _ _ hag hm h h'
    simp only [planLoop, Rs.ok.injEq, Prod.mk.injEq] at h h'
    obtain ⟨rfl, rfl, _⟩ := h
    obtain ⟨rfl, rfl, _⟩ := h'
    exact ⟨hag, hm⟩
  | cons step steps ih =>
    intro k msgs msgs' out' w v w' v' hst hl hl' hag hm h h'
    obtain ⟨hk1, hk, hst'⟩ := mem_of_drop hst
    have hmem : step ∈ plan := List.mem_of_getElem? hk
    obtain ⟨ins, o, h1, h2, h3, h4⟩ := planLoop_cons hw hk h
    obtain ⟨ins', o', h1', h2', h3', h4'⟩ := planLoop_cons hw hk h'
    have hF := he'.withSim (resim_leaves hw.nodup mem' so out)
    have hins : ins.map Msg.content = ins'.map Msg.content := by
      apply inputs_agree h1 h1'
      intro i hi
      have hlt := hw.back k _ hk i hi
      have hp : plan[i.1]? = some plan[i.1] := List.getElem?_eq_getElem (by omega)
      exact hag i.1 _ hp (hns k _ hk i hi _ hp)
    have hkeep := (planLoop_keeps hw steps (k + 1) _ _ _ _ hst' h4).2 k (by omega)
    rw [List.getElem?_set_self (by omega)] at hkeep
    have key : (step.taskType ≠ .sink → (processStep env step ins o w).2.1.content =
        (processStep (app'.withSim (resimCallback plan so out)).env step ins' o' w').2.1.content) ∧
        ∀ t, IsRegular plan t → mem (processStep env step ins o w).1.st t =
          mem' (processStep (app'.withSim (resimCallback plan so out)).env step ins' o' w').1.st t := by
      by_cases hr : step.taskType = .regular
      · obtain ⟨a1, a2⟩ := processStep_regular he step hmem hr ins o w h3
        obtain ⟨b1, b2⟩ := processStep_regular hF step hmem hr ins' o' w' h3'
        have ho : o.content = o'.content := by
          have := hag k _ hk (by rw [hr]; simp)
          rw [h2, h2'] at this
          simpa using this
        have hmt := hm step.nodeId ⟨step, hmem, rfl, hr⟩
        rw [← hins, ← ho, ← hmt] at b1 b2
        refine ⟨fun _ => by rw [a2, b2], fun t ht => ?_⟩
        rw [a1, b1]
        unfold setAt
        split
        · rfl
        · exact hm t ht
      · rw [processStep_other he step hr, processStep_other hF step hr]
        refine ⟨fun hs => ?_, hm⟩
        have hsrc : step.taskType = .source := by
          cases h : step.taskType with
          | source => rfl
          | regular => exact absurd h hr
          | sink => exact absurd h hs
        rw [source_replayed hw.nodup hmem hsrc (hacc k _ hk hsrc) hkeep]
    refine ih (k + 1) _ _ out' _ v _ v' hst' (by simpa using hl) (by simpa using hl') ?_ key.2 h4 h4'
    intro j s hj hs
    by_cases hjk : k = j
    · subst hjk
      rw [hk] at hj
      cases hj
      rw [List.getElem?_set_self (by omega), List.getElem?_set_self (by omega)]
      simp [key.1 hs]
    · rw [List.getElem?_set_ne hjk, List.getElem?_set_ne hjk]
      exact hag j s hj hs

theorem idle_create_msgs {k : Nat} {m : Manager (List (Msg P))} (h : Idle k m) {o : Overflow}
    {m1 : Manager (List (Msg P))} {slot : Nat} (hc : m.create o = .ok (m1, some slot)) :
    slot = 0 ∧ ∃ c, m.data[0]? = some c ∧ m1.data[0]? = some { c with id := m.currentClId } := by
  have hl : 0 < m.data.length := h.cap_pos
  unfold Manager.create at hc
  split at hc
  · cases hc
  · rw [h.ring] at hc
    split at hc
    · cases hc
    · rename_i c hcd
      split at hc
      · cases hc
      · simp only [Rs.ok.injEq, Prod.mk.injEq, Option.some.injEq] at hc
        obtain ⟨rfl, rfl⟩ := hc
        exact ⟨rfl, c, hcd, by simp [hl]⟩

theorem busy_finish_msgs {k : Nat} {id : UInt32} {msgs : List (Msg P)} {m : Manager (List (Msg P))}
    (h : Busy k id msgs m) {plan : List Step} {code : TaskCode P τ} {mem : σ → Nat → τ}
    {env : Env σ P} (he : Plays plan code mem env) {w w' : World σ P} {m' : Manager (List (Msg P))}
    (hf : endOfProcessing (tracedLog env.log) w m id = .ok (w', m')) :
    m'.data.map CL.msgs = m.data.map CL.msgs ∧ mem w'.st = mem w.st := by
  have hact : m.LiveActive := by
    intro c hc; rw [h.live] at hc; simp only [List.mem_singleton] at hc; subst hc; exact .inl rfl
  have htw : (m.live.map (mark id)).takeWhile isDone = [⟨id, .doneProcessing, msgs⟩] := by
    rw [h.live]; simp [mark]; rfl
  rcases endOfProcessing_eq (tracedLog env.log) w h.inv h.dead hact id with
    ⟨_, h2⟩ | ⟨w1, m1, h1, h2, _, _, _, _, _, _, h9⟩
  · rw [h2] at hf; cases hf
  · rw [h2] at hf
    simp only [Rs.ok.injEq, Prod.mk.injEq] at hf
    obtain ⟨rfl, rfl⟩ := hf
    refine ⟨h9, ?_⟩
    rw [htw] at h1
    cases hl : env.log with
    | none =>
      rw [hl] at h1
      simp only [logAll, tracedLog, Option.map_none, Rs.ok.injEq] at h1
      rw [h1]
    | some f =>
      rw [hl] at h1
      simp only [logAll, tracedLog, Option.map_some] at h1
      cases hfs : f w.st ⟨id, .beingSerialized, msgs⟩ with
      | panic => rw [hfs] at h1; cases h1
      | ok s' =>
        rw [hfs] at h1
        simp only [Rs.ok.injEq] at h1
        subst h1
        exact he.log f hl _ _ _ hfs

theorem finish_mem {app : App σ P} {plan : List Step} {code : TaskCode P τ} {mem : σ → Nat → τ}
    (he : Plays plan code mem app.env) {k : Nat} {id : UInt32} {msgs : List (Msg P)} {rt rt' : Rt σ P}
    (h : Busy k id msgs rt.mgr) (hf : finishList app id msgs rt = .ok (rt', none)) :
    rt'.mgr.data.map CL.msgs = rt.mgr.data.map CL.msgs ∧ mem rt'.w.st = mem rt.w.st := by
  unfold finishList at hf
  split at hf
  · cases hf
  · rename_i md hmd
    simp only at hf
    split at hf
    · simp at hf
    · split at hf
      · cases hf
      · rename_i w' m' heop
        simp only [Rs.ok.injEq, Prod.mk.injEq, and_true] at hf
        subst hf
        obtain ⟨h1, h2⟩ := busy_finish_msgs h he heop
        exact ⟨h1, h2.trans (he.monCL md _)⟩

/-- An undisturbed iteration, taken apart. -/
theorem iteration_full {app : App σ P} {code : TaskCode P τ} {mem : σ → Nat → τ}
    (he : Fair app.plan code mem app.env) {k : Nat} {rt rt' : Rt σ P} (hi : Idle k rt.mgr)
    (h : runOneIteration app rt = .ok (rt', none)) (hq : ∀ ev ∈ rt'.w.trace, ev.stops = false) :
    ∃ (c c' : CL (List (Msg P))) (w1 v : World σ P) (msgs : List (Msg P)) (t : List (Ev P)),
      rt.mgr.data[0]? = some c ∧ c.msgs.length = k ∧
      mem w1.st = lifeMem app.plan code .preprocess (List.range app.tasks) (mem rt.w.st) ∧
      planLoop app.env app.plan w1 c.msgs = .ok (v, msgs, .next) ∧
      mem rt'.w.st = lifeMem app.plan code .postprocess (List.range app.tasks) (mem v.st) ∧
      rt'.mgr.data[0]? = some c' ∧ c'.msgs = msgs ∧
      Idle k rt'.mgr ∧ rt'.mgr.currentClId = rt.mgr.currentClId + 1 ∧
      rt'.w.trace = rt.w.trace ++ t ∧
      loggedLists t = (if app.env.log.isSome then
        [⟨rt.mgr.currentClId, .beingSerialized, msgs⟩] else []) ∧
      ∃ md d, collectMetadata app.plan msgs = .ok md ∧ endToEnd app.overflow md = .ok d := by
  obtain ⟨hidle, _, t, ht, hpool⟩ := iteration_pool app rt hi h
  have hqt : ∀ ev ∈ t, ev.stops = false := fun ev hev => hq ev (by rw [ht]; simp [hev])
  rcases hpool with ⟨_, _, _, _, ev, hev, hst⟩ | ⟨hnid, hcre, _⟩
  · rw [hqt ev hev] at hst; cases hst
  obtain ⟨c, hc1, hc2⟩ := lifeAll_trace app.env .preprocess (List.range app.tasks) rt.w
  have hm1 := lifeAll_mem he .preprocess (List.range app.tasks) rt.w
  unfold runOneIteration at h
  generalize lifeAll app.env .preprocess (List.range app.tasks) rt.w = q at h hc1 hc2 hm1
  obtain ⟨w1, f⟩ := q
  cases f with
  | abort =>
    simp only [Rs.ok.injEq, Prod.mk.injEq, and_true] at h
    subst h
    simp only at hc1
    rw [hc1] at ht
    have := List.append_cancel_left ht
    subst this
    have := hc2.stops.1 hqt
    simp at this
  | shutdown e => simp at h
  | next =>
    simp only at h hc1 hm1
    have hm1 := hm1 trivial
    split at h
    · cases h
    · cases h
    · rename_i m1 slot hcr
      obtain ⟨rfl, c0, hc0, hd0⟩ := idle_create_msgs hi hcr
      have hid : rt.mgr.currentClId ≠ 0xFFFFFFFF ∨ app.overflow = .wrapping := by
        apply Classical.byContradiction
        intro hid
        have hid' : rt.mgr.currentClId = 0xFFFFFFFF ∧ app.overflow = .checked := by
          refine ⟨Classical.byContradiction (fun h => hid (.inl h)), ?_⟩
          cases ho : app.overflow with
          | checked => rfl
          | wrapping => exact absurd (.inr ho) hid
        unfold Manager.create at hcr
        split at hcr
        · cases hcr
        · rw [hi.ring, hc0] at hcr
          simp [hid'] at hcr
      obtain ⟨m1', cl, hcr', hcl, hclid, hcll, hwr⟩ := idle_create hi hid
      rw [hcr] at hcr'
      simp only [Rs.ok.injEq, Prod.mk.injEq, and_true] at hcr'
      subst hcr'
      rw [hd0] at hcl
      simp only [Option.some.injEq] at hcl
      subst hcl
      rw [hd0] at h
      simp only at h hcll
      split at h
      · cases h
      · rename_i w2 msgs flow hpl
        obtain ⟨c2, hp1, hp2⟩ := planLoop_trace _ _ _ _ hpl
        have hml : msgs.length = k := by rw [hp2.length, hcll]
        obtain ⟨hb, _, _⟩ := hwr msgs hml
        have hext : ∀ rt1 : Rt σ P, (∃ x, rt1.w.trace = w2.trace ++ x) →
            (∃ x, rt'.w.trace = rt1.w.trace ++ x) → flow = .next := by
          rintro rt1 ⟨x, hx⟩ ⟨y, hy⟩
          apply hp2.stops.1
          intro ev hev
          apply hq
          rw [hy, hx, hp1]
          simp [hev]
        cases flow with
        | shutdown e => simp at h
        | abort =>
          simp only at h
          obtain ⟨c3, hf1, _⟩ := finishList_trace _ _ _ _ h
          have := hext rt' ⟨c3, hf1⟩ ⟨[], by simp⟩
          cases this
        | next =>
          simp only at h
          split at h
          · cases h
          · rename_i md hmd
            split at h
            · cases h
            · rename_i d hd
              split at h
              · cases h
              · simp at h
              · rename_i rt1 hfin
                obtain ⟨hpo1, hpo2, hpo3, c3, hf1, hf2, hf3, _, hf4⟩ := finish_pool app hb hfin
                obtain ⟨hfm1, hfm2⟩ := finish_mem he.plays hb hfin
                obtain ⟨c4, hl1, hl2⟩ :=
                  lifeAll_trace app.env .postprocess (List.range app.tasks) rt1.w
                have hm4 := lifeAll_mem he .postprocess (List.range app.tasks) rt1.w
                generalize lifeAll app.env .postprocess (List.range app.tasks) rt1.w = q at h hl1 hl2 hm4
                obtain ⟨w4, f⟩ := q
                have hrt : rt' = { rt1 with w := w4 } := by
                  cases f with
                  | shutdown e => simp at h
                  | abort => simp at h; exact h.symm
                  | next => simp at h; exact h.symm
                subst hrt
                simp only at hl1 hl2 hm4 hq ht
                have hf : f = .next := hl2.stops.1 (fun ev hev => hq ev (by rw [hl1]; simp [hev]))
                have hml0 : (rt1.mgr.data[0]?).map CL.msgs = some msgs := by
                  rw [← List.getElem?_map, hfm1, List.getElem?_map]
                  simp [Manager.write, List.getElem?_modify, hd0]
                obtain ⟨c', hc'1, hc'2⟩ := Option.map_eq_some_iff.1 hml0
                have hlog : t = c ++ ([.created rt.mgr.currentClId] ++ (c2 ++ (c3 ++ c4))) := by
                  apply List.append_cancel_left (as := rt.w.trace)
                  rw [← ht, hl1, hf1]
                  simp only
                  rw [hp1]
                  simp [World.emit, hc1]
                have hqc := quiet_of_task hc2.ofTask
                have hqc2 := quiet_of_task hp2.ofTask
                have hqc4 := quiet_of_task hl2.ofTask
                refine ⟨c0, c', _, w2, msgs, t, hc0, hcll, ?_, hpl, ?_, hc'1, hc'2, hidle, hnid, ht, ?_, md, d, hmd, hd⟩
                · exact hm1
                · rw [hm4 hf, hfm2]
                · rw [hlog]
                  simp only [loggedLists_append, hqc.1, hqc2.1, hqc4.1, hf4]
                  simp [loggedLists]

/-- The two applications are in the same condition. -/
def Synced (plan : List Step) (mem : σ → Nat → τ) (mem' : σ' → Nat → τ) (rt : Rt σ P) (rt' : Rt σ' P) :
    Prop :=
  SamePool plan rt.mgr rt'.mgr ∧ ∀ t, IsRegular plan t → mem rt.w.st t = mem' rt'.w.st t

/-- No step reads the slot of a sink. -/
def SinksUnread (plan : List Step) : Prop :=
  ∀ (k : Nat) (s : Step), plan[k]? = some s → ∀ i ∈ s.inputs, ∀ p : Step, plan[i.1]? = some p →
    p.taskType ≠ .sink

/-- One recorded iteration and its replay. -/
theorem one_sync {app : App σ P} {r : Replayer σ' P} (hw : Wired app.plan) (hns : SinksUnread app.plan)
    (hacc : SourcesReadable app.plan) (hplan : r.app.plan = app.plan) (htasks : r.app.tasks = app.tasks)
    {code : TaskCode P τ} {mem : σ → Nat → τ} (he : Fair app.plan code mem app.env)
    {mem' : σ' → Nat → τ} (he' : Plays app.plan code mem' r.app.env)
    (hclock : ∀ msgs s, mem' (r.setClock msgs s) = mem' s)
    (hlog : app.env.log.isSome = true) (hlog' : r.app.env.log.isSome = true)
    {rt rt1 : Rt σ P} {rt' rt1' : Rt σ' P} (hs : Synced app.plan mem mem' rt rt')
    (h : runOneIteration app rt = .ok (rt1, none)) (hq : ∀ ev ∈ rt1.w.trace, ev.stops = false) :
    ∃ t cl, rt1.w.trace = rt.w.trace ++ t ∧ loggedLists t = [cl] ∧
      (∃ md d, collectMetadata app.plan cl.msgs = .ok md ∧ endToEnd app.overflow md = .ok d) ∧
      (replayOne r cl rt' = .ok (rt1', none) → (∀ ev ∈ rt1'.w.trace, ev.stops = false) →
        Synced app.plan mem mem' rt1 rt1' ∧ ∃ t' cl', rt1'.w.trace = rt'.w.trace ++ t' ∧
          loggedLists t' = [cl'] ∧ SameList app.plan cl cl') := by
  obtain ⟨⟨hi, hi', hid, hc⟩, hm⟩ := hs
  obtain ⟨c, c', w1, v, msgs, t, h1, h2, h3, h4, h5, h6, h7, h8, h9, h10, h11, h12⟩ := iteration_full he hi h hq
  rw [if_pos hlog] at h11
  refine ⟨t, _, h10, h11, h12, ?_⟩
  intro hr hq'
  unfold replayOne at hr
  have hsame : (r.app.withSim (resimCallback r.app.plan r.sinkOut msgs)).plan = app.plan := hplan
  have hF : Fair (r.app.withSim (resimCallback r.app.plan r.sinkOut msgs)).plan code mem'
      (r.app.withSim (resimCallback r.app.plan r.sinkOut msgs)).env := by
    rw [hsame, hplan]
    exact he'.withSim (resim_leaves hw.nodup mem' _ _)
  obtain ⟨d, d', w1', v', msgs', t', k1, k2, k3, k4, k5, k6, k7, k8, k9, k10, k11, -⟩ :=
    iteration_full hF (k := app.plan.length)
      (rt := { rt' with w := { rt'.w with st := r.setClock msgs rt'.w.st } }) hi' hr hq'
  have hl2 : (r.app.withSim (resimCallback r.app.plan r.sinkOut msgs)).env.log.isSome = true := hlog'
  rw [if_pos hl2] at k11
  rw [hsame] at k3 k4 k5
  have htk : (r.app.withSim (resimCallback r.app.plan r.sinkOut msgs)).tasks = app.tasks := htasks
  rw [htk] at k3 k5
  have hm1 : ∀ t, IsRegular app.plan t → mem w1.st t = mem' w1'.st t := by
    intro t ht
    rw [h3, k3]
    apply lifeMem_congr _ _ _ _ _ _ _ t ht
    intro u hu
    rw [hclock]
    exact hm u hu
  rw [hplan] at k4
  obtain ⟨a1, a2⟩ := planLoop_sync hw hns hacc he he' app.plan 0 c.msgs d.msgs msgs' w1 v w1' v'
    (by simp) h2 k2 (hc c d h1 k1) hm1 h4 k4
  have hlen := (planLoop_keeps hw app.plan 0 _ _ _ _ (by simp) h4).1
  have hlen' := (planLoop_keeps hw app.plan 0 _ _ _ _ (by simp) k4).1
  refine ⟨⟨⟨h8, k8, by rw [h9, k9, hid], ?_⟩, ?_⟩, t', _, k10, k11, ?_⟩
  · intro x x' hx hx'
    rw [h6] at hx
    rw [k6] at hx'
    cases hx
    cases hx'
    rw [h7, k7]
    exact a1
  · intro t ht
    rw [h5, k5]
    exact lifeMem_congr _ _ _ _ _ _ a2 t ht
  · exact ⟨hid, by simp only; rw [hlen, hlen', h2, k2], a1⟩

theorem replayOne_trace (r : Replayer σ P) (cl : CL (List (Msg P))) (rt : Rt σ P) {rt' : Rt σ P}
    {e : Option Err} (h : replayOne r cl rt = .ok (rt', e)) : ∃ t, rt'.w.trace = rt.w.trace ++ t := by
  obtain ⟨t, h1, _⟩ := iteration_trace _ _ h
  exact ⟨t, h1⟩

theorem replayLoop_trace (r : Replayer σ P) (cls : List (CL (List (Msg P)))) (rt : Rt σ P) {rt' : Rt σ P}
    (h : replayLoop r cls rt = .ok rt') : ∃ t, rt'.w.trace = rt.w.trace ++ t := by
  induction cls generalizing rt with
  | nil =>
    simp only [replayLoop, Rs.ok.injEq] at h
    subst h; exact ⟨[], by simp⟩
  | cons cl cls ih =>
    unfold replayLoop at h
    split at h
    · rename_i rt1 h1
      obtain ⟨t, ht⟩ := replayOne_trace r cl rt h1
      obtain ⟨t', ht'⟩ := ih rt1 h
      exact ⟨t ++ t', by rw [ht', ht]; simp⟩
    · cases h

/-- The loops. -/
theorem loop_sync {app : App σ P} {r : Replayer σ' P} (hw : Wired app.plan) (hns : SinksUnread app.plan)
    (hacc : SourcesReadable app.plan) (hplan : r.app.plan = app.plan) (htasks : r.app.tasks = app.tasks)
    {code : TaskCode P τ} {mem : σ → Nat → τ} (he : Fair app.plan code mem app.env)
    {mem' : σ' → Nat → τ} (he' : Plays app.plan code mem' r.app.env)
    (hclock : ∀ msgs s, mem' (r.setClock msgs s) = mem' s)
    (hlog : app.env.log.isSome = true) (hlog' : r.app.env.log.isSome = true) (n : Nat) :
    ∀ (rt rt1 : Rt σ P) (rt' rt1' : Rt σ' P) (t : List (Ev P)), Synced app.plan mem mem' rt rt' →
      runLoop app n rt = .ok (rt1, none) → (∀ ev ∈ rt1.w.trace, ev.stops = false) →
      rt1.w.trace = rt.w.trace ++ t →
      replayLoop r (loggedLists t) rt' = .ok rt1' → (∀ ev ∈ rt1'.w.trace, ev.stops = false) →
      Synced app.plan mem mem' rt1 rt1' ∧ (loggedLists t).length = n ∧
        ∃ t', rt1'.w.trace = rt'.w.trace ++ t' ∧
          Pointwise (SameList app.plan) (loggedLists t) (loggedLists t') := by
  induction n with
  | zero =>
    intro rt rt1 rt' rt1' t hs h hq ht h' hq'
    simp only [runLoop, Rs.ok.injEq, Prod.mk.injEq, and_true] at h
    subst h
    have : t = [] := by simpa using ht
    subst this
    simp only [loggedLists, List.filterMap_nil, replayLoop, Rs.ok.injEq] at h'
    subst h'
    exact ⟨hs, rfl, [], by simp, .nil⟩
  | succ n ih =>
    intro rt rt1 rt' rt1' t hs h hq ht h' hq'
    unfold runLoop at h
    cases h1 : runOneIteration app rt with
    | panic => rw [h1] at h; cases h
    | ok x =>
      obtain ⟨rta, e⟩ := x
      rw [h1] at h
      cases e with
      | some e => simp at h
      | none =>
        simp only at h
        obtain ⟨its, hits, _⟩ := runLoop_trace app n rta h
        have hqa : ∀ ev ∈ rta.w.trace, ev.stops = false := fun ev hev => hq ev (by rw [hits]; simp [hev])
        obtain ⟨ta, hta, _⟩ := iteration_trace app rt h1
        have htt : t = ta ++ its.flatten := by
          apply List.append_cancel_left (as := rt.w.trace)
          rw [← ht, hits, hta]; simp
        have hlt : loggedLists t = loggedLists ta ++ loggedLists its.flatten := by
          rw [htt, loggedLists_append]
        obtain ⟨ta', cl, hta', hcl, -⟩ := one_sync (rt1' := rt') hw hns hacc hplan htasks he he' hclock
          hlog hlog' hs h1 hqa
        have : ta' = ta := by
          apply List.append_cancel_left (as := rt.w.trace)
          rw [← hta', hta]
        subst this
        rw [hlt, hcl] at h'
        simp only [List.singleton_append] at h'
        unfold replayLoop at h'
        split at h'
        · rename_i rtb hb
          obtain ⟨tb, htb⟩ := replayLoop_trace r _ rtb h'
          have hqb : ∀ ev ∈ rtb.w.trace, ev.stops = false :=
            fun ev hev => hq' ev (by rw [htb]; simp [hev])
          obtain ⟨ta2, cl2, hta2, hcl2, -, hone⟩ := one_sync (rt1' := rtb) hw hns hacc hplan htasks he he'
            hclock hlog hlog' hs h1 hqa
          have : ta2 = ta' := by
            apply List.append_cancel_left (as := rt.w.trace)
            rw [← hta', hta2]
          subst this
          rw [hcl] at hcl2
          simp only [List.cons.injEq, and_true] at hcl2
          subst hcl2
          obtain ⟨hs2, t2, cl', ht2, hcl', hsame⟩ := hone hb hqb
          obtain ⟨hs3, hn, t3, ht3, hp⟩ := ih rta rt1 rtb rt1' _ hs2 h hq hits h' hq'
          refine ⟨hs3, by rw [hlt, hcl]; simp [hn], t2 ++ t3, by rw [ht3, ht2]; simp, ?_⟩
          rw [hlt, hcl, loggedLists_append, hcl']
          exact .cons hsame hp
        · cases h'

/-- `start_all_tasks` on both sides. -/
theorem start_sync {plan : List Step} {code : TaskCode P τ} {mem : σ → Nat → τ} {app : App σ P}
    (he : Fair plan code mem app.env) {rt rt1 : Rt σ P} (h : startAll app rt = (rt1, none))
    (hq : ∀ ev ∈ rt1.w.trace, ev.stops = false) :
    rt1.mgr = rt.mgr ∧
      mem rt1.w.st = lifeMem plan code .start (List.range app.tasks) (mem rt.w.st) := by
  obtain ⟨c, hc1, hc2⟩ := lifeAll_trace app.env .start (List.range app.tasks) rt.w
  have hm := lifeAll_mem he .start (List.range app.tasks) rt.w
  unfold startAll at h
  generalize lifeAll app.env .start (List.range app.tasks) rt.w = q at h hc1 hc2 hm
  obtain ⟨w, f⟩ := q
  cases f with
  | abort =>
    simp only [Prod.mk.injEq, and_true] at h
    subst h
    have := hc2.stops.1 (fun ev hev => hq ev (by simp only at hc1 ⊢; rw [hc1]; simp [hev]))
    cases this
  | shutdown e => simp at h
  | next =>
    simp only [Prod.mk.injEq] at h
    obtain ⟨rfl, _⟩ := h
    refine ⟨rfl, ?_⟩
    rw [← hm rfl]
    exact he.plays.monStart w.st

theorem start_quiet (app : App σ P) {rt rt1 : Rt σ P} {e : Option Err} (h : startAll app rt = (rt1, e))
    (hf : rt.w.trace = []) : loggedLists rt1.w.trace = [] := by
  obtain ⟨c, hc1, hc2⟩ := lifeAll_trace app.env .start (List.range app.tasks) rt.w
  have hqc := quiet_of_task hc2.ofTask
  unfold startAll at h
  generalize lifeAll app.env .start (List.range app.tasks) rt.w = q at h hc1
  obtain ⟨w, f⟩ := q
  simp only [hf, List.nil_append] at hc1
  cases f <;> simp only [Prod.mk.injEq] at h <;> obtain ⟨rfl, _⟩ := h
  · simp only [World.emit, loggedLists_append, hc1, hqc.1]; rfl
  · simp only [hc1, hqc.1]
  · simp only [hc1, hqc.1]

theorem sinksUnread_of_plan {g : Graph} (hg : g.WF) {plan : List Step}
    (h : computePlan g = .ok (some plan)) : SinksUnread plan := by
  intro k s hk i hi p hp
  obtain ⟨p', hp', _, e, he, hes, _⟩ := (C16_inputs_perm_partial g hg plan h k s hk).2 i hi
  rw [hp] at hp'
  cases hp'
  rcases computePlan_cases hg with ⟨_, h'⟩ | ⟨_, plan', h', hok, _⟩
  · rw [h'] at h; cases h
  · rw [h'] at h
    simp only [Rs.ok.injEq, Option.some.injEq] at h
    subst h
    rw [(hok.get hp).2.2.2.1]
    unfold taskType
    have : (g.outgoing p.nodeId).length ≠ 0 := by
      intro h0
      have := outgoing_eq_nil_iff.1 (List.eq_nil_of_length_eq_zero h0) e he
      exact this hes
    split
    · simp
    · simp

section tolerant
variable {env : Env σ P}

theorem react_tolerant (h : Tolerant env) (ph : Phase) (t : Nat) (e : Err) (w : World σ P) :
    (react env ph t e w).2 = .next := by
  unfold react; simp [h.onError]

theorem lifeStep_tolerant (h : Tolerant env) (ph : Phase) (t : Nat) (w : World σ P) :
    (lifeStep env ph t w).2 = .next := by
  have hc : ∀ w : World σ P, (lifeCall env ph t w).2 = .next := by
    intro w
    unfold lifeCall
    simp only
    split
    · rfl
    · exact react_tolerant h _ _ _ _
  unfold lifeStep
  split
  · exact hc w
  · simp only
    split
    · exact react_tolerant h _ _ _ _
    · rfl
    · exact hc _

theorem lifeAll_tolerant (h : Tolerant env) (ph : Phase) (ts : List Nat) (w : World σ P) :
    (lifeAll env ph ts w).2 = .next := by
  induction ts generalizing w with
  | nil => rfl
  | cons t ts ih =>
    have hs := lifeStep_tolerant h ph t w
    unfold lifeAll
    generalize lifeStep env ph t w = r at hs
    obtain ⟨w1, f⟩ := r
    simp only at hs
    subst hs
    exact ih w1

theorem execProcess_tolerant (h : Tolerant env) (step : Step) (ins : List (Msg P)) (out : Msg P)
    (doit : Bool) (w : World σ P) : (execProcess env step ins out doit w).2.2 = .next := by
  unfold execProcess
  simp only
  split
  · rfl
  · rename_i e _
    have hr : ∀ w1, (react env .process step.nodeId e w1).2 = .next :=
      fun w1 => react_tolerant h _ _ _ _
    split
    · rfl
    · rename_i hne hx
      exact absurd ((congrArg Prod.snd hx).symm.trans (hr _)) hne

theorem processStep_tolerant (h : Tolerant env) (step : Step) (ins : List (Msg P)) (out : Msg P)
    (w : World σ P) : (processStep env step ins out w).2.2 = .next := by
  unfold processStep
  split
  · exact execProcess_tolerant h _ _ _ _ _
  · simp only
    split
    · rename_i e _
      have hr : ∀ w1, (react env .process step.nodeId e w1).2 = .next :=
        fun w1 => react_tolerant h _ _ _ _
      split
      · exact execProcess_tolerant h _ _ _ _ _
      · rename_i hne hx
        exact absurd ((congrArg Prod.snd hx).symm.trans (hr _)) hne
    · exact execProcess_tolerant h _ _ _ _ _
    · exact execProcess_tolerant h _ _ _ _ _

theorem planLoop_tolerant (h : Tolerant env) (steps : List Step) (w : World σ P) (msgs : List (Msg P))
    {v : World σ P} {out : List (Msg P)} {f : Flow} (hp : planLoop env steps w msgs = .ok (v, out, f)) :
    f = .next := by
  induction steps generalizing w msgs with
  | nil =>
    simp only [planLoop, Rs.ok.injEq, Prod.mk.injEq] at hp
    exact hp.2.2.symm
  | cons step steps ih =>
    unfold planLoop at hp
    split at hp
    · cases hp
    · split at hp
      · rename_i ins o _ _
        have := processStep_tolerant h step ins o w
        generalize processStep env step ins o w = r at hp this
        obtain ⟨w1, o1, f1⟩ := r
        simp only at this
        subst this
        exact ih _ _ hp
      · cases hp

theorem iteration_tolerant {app : App σ P} (h : Tolerant app.env) {rt rt' : Rt σ P} {r : Option Err}
    (hi : runOneIteration app rt = .ok (rt', r)) (hq : ∀ ev ∈ rt.w.trace, ev.stops = false) :
    r = none ∧ ∀ ev ∈ rt'.w.trace, ev.stops = false := by
  have hfin : ∀ (id : UInt32) (msgs : List (Msg P)) (rt rt' : Rt σ P) (r : Option Err),
      finishList app id msgs rt = .ok (rt', r) → (∀ ev ∈ rt.w.trace, ev.stops = false) →
      r = none ∧ ∀ ev ∈ rt'.w.trace, ev.stops = false := by
    intro id msgs rt rt' r hf hq
    unfold finishList at hf
    split at hf
    · cases hf
    · rename_i md hmd
      simp only [h.monCL] at hf
      split at hf
      · cases hf
      · rename_i w m heop
        simp only [Rs.ok.injEq, Prod.mk.injEq] at hf
        obtain ⟨rfl, rfl⟩ := hf
        refine ⟨rfl, ?_⟩
        obtain ⟨c, hc1, hc2⟩ := endOfProcessing_trace _ _ _ _ heop
        intro ev hev
        simp only at hev
        rw [hc1] at hev
        simp only [World.emit, List.mem_append, List.mem_singleton] at hev
        rcases hev with (hev | rfl) | hev
        · exact hq ev hev
        · rfl
        · have := hc2 ev hev
          cases ev <;> simp_all [Ev.isLogged, Ev.stops]
  obtain ⟨c, hc1, hc2⟩ := lifeAll_trace app.env .preprocess (List.range app.tasks) rt.w
  have hf1 := lifeAll_tolerant h .preprocess (List.range app.tasks) rt.w
  unfold runOneIteration at hi
  generalize lifeAll app.env .preprocess (List.range app.tasks) rt.w = q at hi hc1 hc2 hf1
  obtain ⟨w1, f⟩ := q
  simp only at hf1
  subst hf1
  simp only at hi hc1 hc2
  have hq1 : ∀ ev ∈ w1.trace, ev.stops = false := by
    intro ev hev
    rw [hc1] at hev
    rcases List.mem_append.1 hev with hev | hev
    · exact hq ev hev
    · exact hc2.stops.2 rfl ev hev
  split at hi
  · cases hi
  · cases hi
  · split at hi
    · cases hi
    · split at hi
      · cases hi
      · rename_i w2 msgs flow hpl
        obtain ⟨c2, hp1, hp2⟩ := planLoop_trace _ _ _ _ hpl
        have := planLoop_tolerant h _ _ _ hpl
        subst this
        have hq2 : ∀ ev ∈ w2.trace, ev.stops = false := by
          intro ev hev
          rw [hp1] at hev
          simp only [World.emit, List.mem_append, List.mem_singleton] at hev
          rcases hev with (hev | rfl) | hev
          · exact hq1 ev hev
          · rfl
          · exact hp2.stops.2 rfl ev hev
        simp only at hi
        split at hi
        · cases hi
        · split at hi
          · cases hi
          · split at hi
            · cases hi
            · rename_i rt1 e hfn
              have := (hfin _ _ _ _ _ hfn hq2).1
              cases this
            · rename_i rt1 hfn
              obtain ⟨-, hq3⟩ := hfin _ _ _ _ _ hfn hq2
              obtain ⟨c4, hl1, hl2⟩ := lifeAll_trace app.env .postprocess (List.range app.tasks) rt1.w
              have hf4 := lifeAll_tolerant h .postprocess (List.range app.tasks) rt1.w
              generalize lifeAll app.env .postprocess (List.range app.tasks) rt1.w = q at hi hl1 hl2 hf4
              obtain ⟨w4, f⟩ := q
              simp only at hf4
              subst hf4
              simp only [Rs.ok.injEq, Prod.mk.injEq] at hi
              obtain ⟨rfl, rfl⟩ := hi
              refine ⟨rfl, ?_⟩
              intro ev hev
              simp only at hev hl1 hl2
              rw [hl1] at hev
              rcases List.mem_append.1 hev with hev | hev
              · exact hq3 ev hev
              · exact hl2.stops.2 rfl ev hev

end tolerant

/-! ### runs that end -/

theorem core_shutdown {sim : Bool} {ph : Phase} {t : Nat} {ins : List (Msg P)} {c : List (Ev P)} {e : Err} {b : Bool}
    {f : Flow} (h : Core sim ph t ins c f b) (hf : f = .shutdown e) : ∃ u, Ev.decided ph u e .shutdown ∈ c := by
  have key : ∀ (e' : Err) (d : Decision), flowOf e' d = .shutdown e → e' = e ∧ d = .shutdown := by
    intro e' d h
    cases d <;> simp only [flowOf, reduceCtorEq, Flow.shutdown.injEq] at h
    exact ⟨h, rfl⟩
  have real : ∀ {c : List (Ev P)} {f : Flow} {b : Bool}, RealChunk ph t ins c f b → f = .shutdown e →
      ∃ u, Ev.decided ph u e .shutdown ∈ c := by
    intro c f b h hf
    cases h with
    | ok => cases hf
    | err e' d =>
      obtain ⟨rfl, rfl⟩ := key _ _ hf
      exact ⟨t, by simp⟩
  cases h with
  | real _ h => exact real h hf
  | bySim _ => cases hf
  | errored _ e' d =>
    obtain ⟨rfl, rfl⟩ := key _ _ hf
    exact ⟨t, by simp⟩
  | byRuntime _ h =>
    obtain ⟨u, hu⟩ := real h hf
    exact ⟨u, List.mem_cons_of_mem _ hu⟩

theorem life_shutdown {sim : Bool} {ph : Phase} {ts : List Nat} {c : List (Ev P)} {f : Flow} {e : Err}
    (h : LifeTrace sim ph ts c f) (hf : f = .shutdown e) : ∃ u, Ev.decided ph u e .shutdown ∈ c := by
  induction h with
  | nil => cases hf
  | cons _ _ ih =>
    obtain ⟨u, hu⟩ := ih hf
    exact ⟨u, List.mem_append_right _ hu⟩
  | stop h _ => exact core_shutdown h hf

/-- An iteration that ends with an error has not logged its list, unless the monitor decided so after it was. -/
theorem iteration_unlogged {sim : Bool} {tasks : Nat} {plan : List Step} {t : List (Ev P)} {r : Option Err}
    (h : IterTrace sim tasks plan t r) {e : Err} (hr : r = some e)
    (hpost : ∀ u, Ev.decided .postprocess u e .shutdown ∉ t) : loggedLists t = [] := by
  cases h with
  | pre h _ => exact (quiet_of_task h.ofTask).1
  | shutdown h h2 =>
    simp only [loggedLists_append, (quiet_of_task h.ofTask).1, (quiet_of_task h2.ofTask).1]
    rfl
  | abort h h2 hf =>
    cases hf with
    | ok => cases hr
    | err md e' =>
      simp only [loggedLists_append, (quiet_of_task h.ofTask).1, (quiet_of_task h2.ofTask).1]
      rfl
  | monitor h h2 hf =>
    cases hf with
    | err md e' =>
      simp only [loggedLists_append, (quiet_of_task h.ofTask).1, (quiet_of_task h2.ofTask).1]
      rfl
  | full h h2 hf h4 =>
    exfalso
    rename_i f
    cases f with
    | next => cases hr
    | abort => cases hr
    | shutdown e' =>
      injection hr with hr
      subst hr
      obtain ⟨u, hu⟩ := life_shutdown h4 rfl
      exact hpost u (List.mem_append_right _ hu)

theorem runLoop_last (app : App σ P) (n : Nat) (rt : Rt σ P) {rt1 : Rt σ P} (h : runLoop app n rt = .ok (rt1, none)) :
    runLoop app (n + 1) rt =
      match runOneIteration app rt1 with
      | .panic => .panic
      | .ok (rt, some e) => .ok (rt, some e)
      | .ok (rt, none) => .ok (rt, none) := by
  induction n generalizing rt with
  | zero =>
    simp only [runLoop, Rs.ok.injEq, Prod.mk.injEq, and_true] at h
    subst h
    rfl
  | succ n ih =>
    unfold runLoop at h ⊢
    cases h1 : runOneIteration app rt with
    | panic => rw [h1] at h; cases h
    | ok x =>
      obtain ⟨rta, e⟩ := x
      rw [h1] at h
      cases e with
      | some e => simp at h
      | none => exact ih rta h

/-- What a run that ends in the iteration after `n` quiet ones has logged. -/
theorem ended_logged {app : App σ P} {n : Nat} {rt rt1 rt2 : Rt σ P} {e : Err} (h : record app n rt = .ok rt1)
    (h2 : run app (n + 1) rt = .ok (rt2, .ended e))
    (hpost : ∀ u e, Ev.decided .postprocess u e .shutdown ∉ rt2.w.trace) :
    loggedLists rt2.w.trace = loggedLists rt1.w.trace := by
  unfold record at h
  unfold run at h2
  generalize startAll app rt = q at h h2
  obtain ⟨rta, es⟩ := q
  cases es with
  | some e => cases h
  | none =>
    simp only at h h2
    split at h
    · rename_i rtb hb
      simp only [Rs.ok.injEq] at h
      subst h
      rw [runLoop_last app n rta hb] at h2
      cases h1 : runOneIteration app rtb with
      | panic => rw [h1] at h2; cases h2
      | ok x =>
        obtain ⟨rtc, ec⟩ := x
        rw [h1] at h2
        cases ec with
        | none => simp at h2
        | some ec =>
          obtain ⟨t, ht, hit⟩ := iteration_trace app rtb h1
          obtain ⟨c, hc1, hc2⟩ := lifeAll_trace app.env .stop (List.range app.tasks) rtc.w
          have hqc := (quiet_of_task hc2.ofTask).1
          have hstop : ∃ c', rt2.w.trace = rtc.w.trace ++ c' ∧ loggedLists c' = [] := by
            simp only at h2
            unfold stopAll at h2
            generalize lifeAll app.env .stop (List.range app.tasks) rtc.w = q at h2 hc1
            obtain ⟨w, f⟩ := q
            simp only at hc1
            cases f with
            | abort =>
              simp only [Rs.ok.injEq, Prod.mk.injEq] at h2
              obtain ⟨rfl, _⟩ := h2
              exact ⟨c, hc1, hqc⟩
            | shutdown e =>
              simp only [Rs.ok.injEq, Prod.mk.injEq] at h2
              obtain ⟨rfl, _⟩ := h2
              exact ⟨c, hc1, hqc⟩
            | next =>
              simp only at h2
              split at h2 <;> rename_i heq
              all_goals
                simp only [Prod.mk.injEq] at heq
                obtain ⟨hx, hy⟩ := heq
                simp only [Rs.ok.injEq, Prod.mk.injEq] at h2
                obtain ⟨rfl, _⟩ := h2
                refine ⟨c ++ [.monStopped (app.env.monStop w.st).2], by rw [← hx]; simp [World.emit, hc1], ?_⟩
                rw [loggedLists_append, hqc]
                rfl
          obtain ⟨c', hc', hl'⟩ := hstop
          have hun := iteration_unlogged hit rfl fun u hu => hpost u ec (by rw [hc', ht]; simp [hu])
          rw [hc', ht, loggedLists_append, loggedLists_append, hun, hl']
          simp
    · cases h

/-! ### two replays -/

/-- Two runs of the process steps whose sources left the same contents. -/
theorem planLoop_agree {plan : List Step} (hw : Wired plan) (hns : SinksUnread plan)
    {code : TaskCode P τ} {mem : σ → Nat → τ} {env : Env σ P} (he : Fair plan code mem env)
    {mem' : σ' → Nat → τ} {env' : Env σ' P} (he' : Fair plan code mem' env')
    {out out' : List (Msg P)}
    (hsrc : ∀ (k : Nat) (s : Step), plan[k]? = some s → s.taskType = .source →
      out[k]?.map Msg.content = out'[k]?.map Msg.content) (steps : List Step) :
    ∀ (k : Nat) (msgs msgs' : List (Msg P)) (w v : World σ P) (w' v' : World σ' P),
      steps = plan.drop k → msgs.length = plan.length → msgs'.length = plan.length →
      Agree plan msgs msgs' → (∀ t, IsRegular plan t → mem w.st t = mem' w'.st t) →
      planLoop env steps w msgs = .ok (v, out, .next) →
      planLoop env' steps w' msgs' = .ok (v', out', .next) →
      Agree plan out out' ∧ ∀ t, IsRegular plan t → mem v.st t = mem' v'.st t := by
  induction steps with
  | nil =>
    intro k msgs msgs' w v w' v' _ _ _ hag hm h h'
    simp only [planLoop, Rs.ok.injEq, Prod.mk.injEq] at h h'
    obtain ⟨rfl, rfl, _⟩ := h
    obtain ⟨rfl, rfl, _⟩ := h'
    exact ⟨hag, hm⟩
  | cons step steps ih =>
    intro k msgs msgs' w v w' v' hst hl hl' hag hm h h'
    obtain ⟨hk1, hk, hst'⟩ := mem_of_drop hst
    have hmem : step ∈ plan := List.mem_of_getElem? hk
    obtain ⟨ins, o, h1, h2, h3, h4⟩ := planLoop_cons hw hk h
    obtain ⟨ins', o', h1', h2', h3', h4'⟩ := planLoop_cons hw hk h'
    have hins : ins.map Msg.content = ins'.map Msg.content := by
      apply inputs_agree h1 h1'
      intro i hi
      have hlt := hw.back k _ hk i hi
      have hp : plan[i.1]? = some plan[i.1] := List.getElem?_eq_getElem (by omega)
      exact hag i.1 _ hp (hns k _ hk i hi _ hp)
    have hkeep := (planLoop_keeps hw steps (k + 1) _ _ _ _ hst' h4).2 k (by omega)
    have hkeep' := (planLoop_keeps hw steps (k + 1) _ _ _ _ hst' h4').2 k (by omega)
    rw [List.getElem?_set_self (by omega)] at hkeep hkeep'
    have key : (step.taskType ≠ .sink → (processStep env step ins o w).2.1.content =
        (processStep env' step ins' o' w').2.1.content) ∧
        ∀ t, IsRegular plan t → mem (processStep env step ins o w).1.st t =
          mem' (processStep env' step ins' o' w').1.st t := by
      by_cases hr : step.taskType = .regular
      · obtain ⟨a1, a2⟩ := processStep_regular he step hmem hr ins o w h3
        obtain ⟨b1, b2⟩ := processStep_regular he' step hmem hr ins' o' w' h3'
        have ho : o.content = o'.content := by
          have := hag k _ hk (by rw [hr]; simp)
          rw [h2, h2'] at this
          simpa using this
        have hmt := hm step.nodeId ⟨step, hmem, rfl, hr⟩
        rw [← hins, ← ho, ← hmt] at b1 b2
        refine ⟨fun _ => by rw [a2, b2], fun t ht => ?_⟩
        rw [a1, b1]
        unfold setAt
        split
        · rfl
        · exact hm t ht
      · rw [processStep_other he step hr, processStep_other he' step hr]
        refine ⟨fun hs => ?_, hm⟩
        have hs2 : step.taskType = .source := by
          cases h : step.taskType with
          | source => rfl
          | regular => exact absurd h hr
          | sink => exact absurd h hs
        have := hsrc k _ hk hs2
        rw [hkeep, hkeep'] at this
        simpa using this
    refine ih (k + 1) _ _ _ v _ v' hst' (by simpa using hl) (by simpa using hl') ?_ key.2 h4 h4'
    intro j s hj hs
    by_cases hjk : k = j
    · subst hjk
      rw [hk] at hj
      cases hj
      rw [List.getElem?_set_self (by omega), List.getElem?_set_self (by omega)]
      simp [key.1 hs]
    · rw [List.getElem?_set_ne hjk, List.getElem?_set_ne hjk]
      exact hag j s hj hs

/-- The sources of a replayed list have the contents of the recorded one. -/
theorem resim_sources {plan : List Step} (hw : Wired plan) (hacc : SourcesReadable plan) {app : App σ P}
    {so : Nat → List (Msg P) → Msg P → Msg P} {rec out : List (Msg P)} (hrec : rec.length = plan.length)
    (steps : List Step) :
    ∀ (k : Nat) (msgs : List (Msg P)) (w v : World σ P), steps = plan.drop k → msgs.length = plan.length →
      planLoop (app.withSim (resimCallback plan so rec)).env steps w msgs = .ok (v, out, .next) →
      ∀ (j : Nat) (s : Step), k ≤ j → plan[j]? = some s → s.taskType = .source →
        out[j]?.map Msg.content = rec[j]?.map Msg.content := by
  induction steps with
  | nil =>
    intro k msgs w v hst hl h j s hkj hj _
    have h1 : j < plan.length := (List.getElem?_eq_some_iff.1 hj).1
    have h2 : (plan.drop k).length = 0 := by rw [← hst]; rfl
    rw [List.length_drop] at h2
    omega
  | cons step steps ih =>
    intro k msgs w v hst hl h j s hkj hj hs
    obtain ⟨hk1, hk, hst'⟩ := mem_of_drop hst
    have hmem : step ∈ plan := List.mem_of_getElem? hk
    obtain ⟨ins, o, h1, h2, h3, h4⟩ := planLoop_cons hw hk h
    by_cases hjk : k = j
    · subst hjk
      rw [hk] at hj
      cases hj
      have hkeep := (planLoop_keeps hw steps (k + 1) _ _ _ _ hst' h4).2 k (by omega)
      rw [List.getElem?_set_self (by omega)] at hkeep
      have hr : rec[k]? = some rec[k] := List.getElem?_eq_getElem (by omega)
      rw [hkeep, hr]
      simp only [Option.map_some, Option.some.injEq]
      exact source_replayed hw.nodup hmem hs (hacc k _ hk hs) hr ins o w
    · exact ih (k + 1) _ _ v hst' (by simpa using hl) h4 j s (by omega) hj hs

/-- One list replayed by two applications. -/
theorem pair_sync {plan : List Step} {r : Replayer σ P} {r' : Replayer σ' P} (hw : Wired plan)
    (hns : SinksUnread plan) (hacc : SourcesReadable plan) (hplan : r.app.plan = plan) (hplan' : r'.app.plan = plan)
    (htasks : r'.app.tasks = r.app.tasks)
    {code : TaskCode P τ} {mem : σ → Nat → τ} (he : Plays plan code mem r.app.env)
    {mem' : σ' → Nat → τ} (he' : Plays plan code mem' r'.app.env)
    (hclock : ∀ msgs s, mem (r.setClock msgs s) = mem s) (hclock' : ∀ msgs s, mem' (r'.setClock msgs s) = mem' s)
    (hlog : r.app.env.log.isSome = true) (hlog' : r'.app.env.log.isSome = true)
    {rt rt1 : Rt σ P} {rt' rt1' : Rt σ' P} (hs : Synced plan mem mem' rt rt') {cl cl' : CL (List (Msg P))}
    (hsrc : SameSources plan cl cl')
    (h : replayOne r cl rt = .ok (rt1, none)) (hq : ∀ ev ∈ rt1.w.trace, ev.stops = false)
    (h' : replayOne r' cl' rt' = .ok (rt1', none)) (hq' : ∀ ev ∈ rt1'.w.trace, ev.stops = false) :
    Synced plan mem mem' rt1 rt1' ∧
      ∃ t o t' o', rt1.w.trace = rt.w.trace ++ t ∧ loggedLists t = [o] ∧
        rt1'.w.trace = rt'.w.trace ++ t' ∧ loggedLists t' = [o'] ∧ SameSources plan cl o ∧ SameList plan o o' := by
  subst hplan
  obtain ⟨⟨hi, hi', hid, hc⟩, hm⟩ := hs
  obtain ⟨hlen1, hlen1', hsrc⟩ := hsrc
  unfold replayOne at h h'
  have hF : Fair (r.app.withSim (resimCallback r.app.plan r.sinkOut cl.msgs)).plan code mem
      (r.app.withSim (resimCallback r.app.plan r.sinkOut cl.msgs)).env :=
    he.withSim (resim_leaves hw.nodup mem _ _)
  rw [hplan'] at h'
  have hsame : (r'.app.withSim (resimCallback r.app.plan r'.sinkOut cl'.msgs)).plan = r.app.plan := hplan'
  have hF' : Fair (r'.app.withSim (resimCallback r.app.plan r'.sinkOut cl'.msgs)).plan code mem'
      (r'.app.withSim (resimCallback r.app.plan r'.sinkOut cl'.msgs)).env := by
    rw [hsame]
    exact he'.withSim (resim_leaves hw.nodup mem' _ _)
  obtain ⟨c, c', w1, v, msgs, t, h1, h2, h3, h4, h5, h6, h7, h8, h9, h10, h11, -⟩ :=
    iteration_full hF (k := r.app.plan.length)
      (rt := { rt with w := { rt.w with st := r.setClock cl.msgs rt.w.st } }) hi h hq
  obtain ⟨d, d', w1', v', msgs', t', k1, k2, k3, k4, k5, k6, k7, k8, k9, k10, k11, -⟩ :=
    iteration_full hF' (k := r.app.plan.length)
      (rt := { rt' with w := { rt'.w with st := r'.setClock cl'.msgs rt'.w.st } }) hi' h' hq'
  have hl1 : (r.app.withSim (resimCallback r.app.plan r.sinkOut cl.msgs)).env.log.isSome = true := hlog
  have hl2 : (r'.app.withSim (resimCallback r.app.plan r'.sinkOut cl'.msgs)).env.log.isSome = true := hlog'
  rw [if_pos hl1] at h11
  rw [if_pos hl2] at k11
  rw [hsame] at k3 k4 k5
  have htk : (r'.app.withSim (resimCallback r.app.plan r'.sinkOut cl'.msgs)).tasks = r.app.tasks := htasks
  rw [htk] at k3 k5
  have hm1 : ∀ t, IsRegular r.app.plan t → mem w1.st t = mem' w1'.st t := by
    intro t ht
    rw [h3, k3]
    apply lifeMem_congr _ _ _ _ _ _ _ t ht
    intro u hu
    rw [hclock, hclock']
    exact hm u hu
  have hs1 := resim_sources hw hacc hlen1 r.app.plan 0 _ w1 v (by simp) h2 h4
  have hs2 := resim_sources hw hacc hlen1' r.app.plan 0 _ w1' v' (by simp) k2 k4
  obtain ⟨a1, a2⟩ := planLoop_agree hw hns hF (hsame ▸ hF') (fun k s hk hsk => by
      rw [hs1 k s (by omega) hk hsk, hs2 k s (by omega) hk hsk, hsrc k s hk hsk])
    r.app.plan 0 c.msgs d.msgs w1 v w1' v' (by simp) h2 k2 (hc c d h1 k1) hm1 h4 k4
  have hlen := (planLoop_keeps hw r.app.plan 0 _ _ _ _ (by simp) h4).1
  have hlen' := (planLoop_keeps hw r.app.plan 0 _ _ _ _ (by simp) k4).1
  refine ⟨⟨⟨h8, k8, by rw [h9, k9]; exact congrArg (· + 1) hid, ?_⟩, ?_⟩, t, _, t', _, h10, h11, k10, k11,
    ⟨hlen1, by simp only; rw [hlen, h2], fun k s hk hsk => (hs1 k s (by omega) hk hsk).symm⟩, ?_⟩
  · intro x x' hx hx'
    rw [h6] at hx
    rw [k6] at hx'
    cases hx
    cases hx'
    rw [h7, k7]
    exact a1
  · intro t ht
    rw [h5, k5]
    exact lifeMem_congr _ _ _ _ _ _ a2 t ht
  · exact ⟨hid, by simp only; rw [hlen, hlen', h2, k2], a1⟩

theorem pairs_sync {plan : List Step} {r : Replayer σ P} {r' : Replayer σ' P} (hw : Wired plan)
    (hns : SinksUnread plan) (hacc : SourcesReadable plan) (hplan : r.app.plan = plan) (hplan' : r'.app.plan = plan)
    (htasks : r'.app.tasks = r.app.tasks)
    {code : TaskCode P τ} {mem : σ → Nat → τ} (he : Plays plan code mem r.app.env)
    {mem' : σ' → Nat → τ} (he' : Plays plan code mem' r'.app.env)
    (hclock : ∀ msgs s, mem (r.setClock msgs s) = mem s) (hclock' : ∀ msgs s, mem' (r'.setClock msgs s) = mem' s)
    (hlog : r.app.env.log.isSome = true) (hlog' : r'.app.env.log.isSome = true)
    {cls cls' : List (CL (List (Msg P)))} (hsrc : Pointwise (SameSources plan) cls cls') :
    ∀ (rt rt1 : Rt σ P) (rt' rt1' : Rt σ' P), Synced plan mem mem' rt rt' →
      replayLoop r cls rt = .ok rt1 → (∀ ev ∈ rt1.w.trace, ev.stops = false) →
      replayLoop r' cls' rt' = .ok rt1' → (∀ ev ∈ rt1'.w.trace, ev.stops = false) →
      Synced plan mem mem' rt1 rt1' ∧ ∃ t t', rt1.w.trace = rt.w.trace ++ t ∧ rt1'.w.trace = rt'.w.trace ++ t' ∧
        Pointwise (SameSources plan) cls (loggedLists t) ∧
        Pointwise (SameList plan) (loggedLists t) (loggedLists t') := by
  induction hsrc with
  | nil =>
    intro rt rt1 rt' rt1' hs h hq h' hq'
    simp only [replayLoop, Rs.ok.injEq] at h h'
    subst h h'
    exact ⟨hs, [], [], by simp, by simp, .nil, .nil⟩
  | cons h1 _ ih =>
    intro rt rt1 rt' rt1' hs h hq h' hq'
    unfold replayLoop at h h'
    split at h
    · rename_i rta ha
      split at h'
      · rename_i rta' ha'
        obtain ⟨tb, htb⟩ := replayLoop_trace r _ rta h
        obtain ⟨tb', htb'⟩ := replayLoop_trace r' _ rta' h'
        have hqa : ∀ ev ∈ rta.w.trace, ev.stops = false := fun ev hev => hq ev (by rw [htb]; simp [hev])
        have hqa' : ∀ ev ∈ rta'.w.trace, ev.stops = false := fun ev hev => hq' ev (by rw [htb']; simp [hev])
        obtain ⟨hs1, t, o, t', o', k1, k2, k3, k4, k5, k6⟩ := pair_sync hw hns hacc hplan hplan' htasks he he'
          hclock hclock' hlog hlog' hs h1 ha hqa ha' hqa'
        obtain ⟨hs2, u, u', l1, l2, l3, l4⟩ := ih rta rt1 rta' rt1' hs1 h hq h' hq'
        refine ⟨hs2, t ++ u, t' ++ u', by rw [l1, k1]; simp, by rw [l2, k3]; simp, ?_, ?_⟩
        · rw [loggedLists_append, k2]; exact .cons k5 l3
        · rw [loggedLists_append, loggedLists_append, k2, k4]; exact .cons k6 l4
      · cases h'
    · cases h

end Runtime
end Verif
