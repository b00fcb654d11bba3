import Verif.Model.BalanceResim
import Verif.Proofs.BalanceSim
import Verif.Proofs.Replay
import Verif.Props.RuntimePool
/-!
Lemmas on the resimulation of the balancing robot.
-/
namespace Verif
namespace Runtime
open Clock CopperList Planner
variable {σ σ' P τ : Type}

/-- Nothing but the monitor's own errors stops an iteration. -/
structure Calm (env : Env σ P) : Prop where
  pre : ∀ t w, (lifeStep env .preprocess t w).2 = .next
  post : ∀ t w, (lifeStep env .postprocess t w).2 = .next
  proc : ∀ t e s, (env.onError .process t e s).2 = .ignore

section calm
variable {env : Env σ P}

theorem lifeAll_calm {ph : Phase} (h : ∀ t w, (lifeStep env ph t w).2 = .next) (ts : List Nat) (w : World σ P) :
    (lifeAll env ph ts w).2 = .next := by
  induction ts generalizing w with
  | nil => rfl
  | cons t ts ih =>
    have hs := h t w
    unfold lifeAll
    generalize lifeStep env ph t w = r at hs
    obtain ⟨w1, f⟩ := r
    simp only at hs
    subst hs
    exact ih w1

theorem react_calm (h : Calm env) (t : Nat) (e : Err) (w : World σ P) : (react env .process t e w).2 = .next := by
  unfold react; simp [h.proc]

theorem execProcess_calm (h : Calm env) (step : Step) (ins : List (Msg P)) (out : Msg P)
    (doit : Bool) (w : World σ P) : (execProcess env step ins out doit w).2.2 = .next := by
  unfold execProcess
  simp only
  split
  · rfl
  · rename_i e _
    have hr : ∀ w1, (react env .process step.nodeId e w1).2 = .next := fun w1 => react_calm h _ _ _
    split
    · rfl
    · rename_i hne hx
      exact absurd ((congrArg Prod.snd hx).symm.trans (hr _)) hne

theorem processStep_calm (h : Calm env) (step : Step) (ins : List (Msg P)) (out : Msg P)
    (w : World σ P) : (processStep env step ins out w).2.2 = .next := by
  unfold processStep
  split
  · exact execProcess_calm h _ _ _ _ _
  · simp only
    split
    · rename_i e _
      have hr : ∀ w1, (react env .process step.nodeId e w1).2 = .next := fun w1 => react_calm h _ _ _
      split
      · exact execProcess_calm h _ _ _ _ _
      · rename_i hne hx
        exact absurd ((congrArg Prod.snd hx).symm.trans (hr _)) hne
    · exact execProcess_calm h _ _ _ _ _
    · exact execProcess_calm h _ _ _ _ _

theorem planLoop_calm (h : Calm env) (steps : List Step) (w : World σ P) (msgs : List (Msg P))
    {v : World σ P} {out : List (Msg P)} {f : Flow} (hp : planLoop env steps w msgs = .ok (v, out, f)) :
    f = .next := by
  induction steps generalizing w msgs with
  | nil =>
    simp only [planLoop, Rs.ok.injEq, Prod.mk.injEq] at hp
    exact hp.2.2.symm
  | cons step steps ih =>
    unfold planLoop at hp
    split at hp
    · cases hp
    · split at hp
      · rename_i ins o _ _
        have := processStep_calm h step ins o w
        generalize processStep env step ins o w = r at hp this
        obtain ⟨w1, o1, f1⟩ := r
        simp only at this
        subst this
        exact ih _ _ hp
      · cases hp

/-- An iteration that reports no error was not stopped, and it reports none if the monitor has none. -/
theorem iteration_calm {app : App σ P} (h : Calm app.env) {rt rt' : Rt σ P} {r : Option Err}
    (hi : runOneIteration app rt = .ok (rt', r)) (hq : ∀ ev ∈ rt.w.trace, ev.stops = false) :
    (r = none → ∀ ev ∈ rt'.w.trace, ev.stops = false) ∧
    ((∀ md s, (app.env.monCL md s).2 = none) → r = none) := by
  have hfin : ∀ (id : UInt32) (msgs : List (Msg P)) (rt rt' : Rt σ P) (r : Option Err),
      finishList app id msgs rt = .ok (rt', r) → (∀ ev ∈ rt.w.trace, ev.stops = false) →
      (r = none → ∀ ev ∈ rt'.w.trace, ev.stops = false) ∧
      ((∀ md s, (app.env.monCL md s).2 = none) → r = none) := by
    intro id msgs rt rt' r hf hq
    unfold finishList at hf
    split at hf
    · cases hf
    · rename_i md hmd
      simp only at hf
      split at hf
      · rename_i e he
        simp only [Rs.ok.injEq, Prod.mk.injEq] at hf
        obtain ⟨-, rfl⟩ := hf
        exact ⟨fun hn => (by cases hn), fun hm => (by rw [hm] at he; cases he)⟩
      · rename_i he
        split at hf
        · cases hf
        · rename_i w m heop
          simp only [Rs.ok.injEq, Prod.mk.injEq] at hf
          obtain ⟨rfl, rfl⟩ := hf
          refine ⟨fun _ => ?_, fun _ => rfl⟩
          obtain ⟨c, hc1, hc2⟩ := endOfProcessing_trace _ _ _ _ heop
          intro ev hev
          simp only at hev
          rw [hc1] at hev
          simp only [World.emit, List.mem_append, List.mem_singleton] at hev
          rcases hev with (hev | rfl) | hev
          · exact hq ev hev
          · rw [he]; rfl
          · have := hc2 ev hev
            cases ev <;> simp_all [Ev.isLogged, Ev.stops]
  obtain ⟨c, hc1, hc2⟩ := lifeAll_trace app.env .preprocess (List.range app.tasks) rt.w
  have hf1 := lifeAll_calm h.pre (List.range app.tasks) rt.w
  unfold runOneIteration at hi
  generalize lifeAll app.env .preprocess (List.range app.tasks) rt.w = q at hi hc1 hc2 hf1
  obtain ⟨w1, f⟩ := q
  simp only at hf1
  subst hf1
  simp only at hi hc1 hc2
  have hq1 : ∀ ev ∈ w1.trace, ev.stops = false := by
    intro ev hev
    rw [hc1] at hev
    rcases List.mem_append.1 hev with hev | hev
    · exact hq ev hev
    · exact hc2.stops.2 rfl ev hev
  split at hi
  · cases hi
  · cases hi
  · split at hi
    · cases hi
    · split at hi
      · cases hi
      · rename_i w2 msgs flow hpl
        obtain ⟨c2, hp1, hp2⟩ := planLoop_trace _ _ _ _ hpl
        have := planLoop_calm h _ _ _ hpl
        subst this
        have hq2 : ∀ ev ∈ w2.trace, ev.stops = false := by
          intro ev hev
          rw [hp1] at hev
          simp only [World.emit, List.mem_append, List.mem_singleton] at hev
          rcases hev with (hev | rfl) | hev
          · exact hq1 ev hev
          · rfl
          · exact hp2.stops.2 rfl ev hev
        simp only at hi
        split at hi
        · cases hi
        · split at hi
          · cases hi
          · split at hi
            · cases hi
            · rename_i rt1 e hfn
              obtain ⟨-, this⟩ := hfin _ _ _ _ _ hfn hq2
              simp only [Rs.ok.injEq, Prod.mk.injEq] at hi
              obtain ⟨-, rfl⟩ := hi
              exact ⟨fun hn => (by cases hn), this⟩
            · rename_i rt1 hfn
              have hq3 := (hfin _ _ _ _ _ hfn hq2).1 rfl
              obtain ⟨c4, hl1, hl2⟩ := lifeAll_trace app.env .postprocess (List.range app.tasks) rt1.w
              have hf4 := lifeAll_calm h.post (List.range app.tasks) rt1.w
              generalize lifeAll app.env .postprocess (List.range app.tasks) rt1.w = q at hi hl1 hl2 hf4
              obtain ⟨w4, f⟩ := q
              simp only at hf4
              subst hf4
              simp only [Rs.ok.injEq, Prod.mk.injEq] at hi
              obtain ⟨rfl, rfl⟩ := hi
              refine ⟨fun _ => ?_, fun _ => rfl⟩
              intro ev hev
              simp only at hev hl1 hl2
              rw [hl1] at hev
              rcases List.mem_append.1 hev with hev | hev
              · exact hq3 ev hev
              · exact hl2.stops.2 rfl ev hev

/-- Tasks that were started were not stopped, if no error of a task is ignored by aborting. -/
theorem start_calm {app : App σ P} (h : ∀ t e s, (app.env.onError .start t e s).2 ≠ .abort) {rt rt1 : Rt σ P}
    (hs : startAll app rt = (rt1, none)) (hq : ∀ ev ∈ rt.w.trace, ev.stops = false) :
    ∀ ev ∈ rt1.w.trace, ev.stops = false := by
  have hr : ∀ t e (w : World σ P), (react app.env .start t e w).2 ≠ .abort := by
    intro t e w
    have := h t e w.st
    unfold react
    simp only
    revert this
    cases (app.env.onError .start t e w.st).2 <;> simp
  have hcall : ∀ t (w : World σ P), (lifeCall app.env .start t w).2 ≠ .abort := by
    intro t w
    unfold lifeCall
    simp only
    split
    · simp
    · exact hr _ _ _
  have hstep : ∀ t (w : World σ P), (lifeStep app.env .start t w).2 ≠ .abort := by
    intro t w
    unfold lifeStep
    split
    · exact hcall t w
    · simp only
      split
      · exact hr _ _ _
      · simp
      · exact hcall _ _
  have hall : ∀ ts (w : World σ P), (lifeAll app.env .start ts w).2 ≠ .abort := by
    intro ts
    induction ts with
    | nil => intro w; simp [lifeAll]
    | cons t ts ih =>
      intro w
      have := hstep t w
      unfold lifeAll
      generalize lifeStep app.env .start t w = q at this ⊢
      obtain ⟨w1, f⟩ := q
      cases f with
      | next => exact ih w1
      | abort => exact absurd rfl this
      | shutdown e => simp
  obtain ⟨c, hc1, hc2⟩ := lifeAll_trace app.env .start (List.range app.tasks) rt.w
  have hn := hall (List.range app.tasks) rt.w
  unfold startAll at hs
  generalize lifeAll app.env .start (List.range app.tasks) rt.w = q at hs hc1 hc2 hn
  obtain ⟨w, f⟩ := q
  cases f with
  | abort => exact absurd rfl hn
  | shutdown e => simp at hs
  | next =>
    simp only [Prod.mk.injEq] at hs
    obtain ⟨rfl, hm⟩ := hs
    intro ev hev
    simp only [World.emit, List.mem_append, List.mem_singleton] at hev
    simp only at hc1
    rw [hc1] at hev
    rcases hev with hev | rfl
    · rcases List.mem_append.1 hev with hev | hev
      · exact hq ev hev
      · exact hc2.stops.2 rfl ev hev
    · rw [hm]; rfl

end calm

theorem iteration_next {app : App σ P} {plan : List Step} (hplan : app.plan = plan) {code : TaskCode P τ} {mem : σ → Nat → τ}
    (he : Fair plan code mem app.env) {k : Nat} {rt rt' : Rt σ P} (hi : Idle k rt.mgr)
    (h : runOneIteration app rt = .ok (rt', none)) (hq : ∀ ev ∈ rt'.w.trace, ev.stops = false) :
    rt'.mgr.currentClId = rt.mgr.currentClId + 1 := by
  subst hplan
  obtain ⟨_, _, _, _, _, _, -, -, -, -, -, -, -, -, h9, -⟩ := iteration_full he hi h hq
  exact h9

/-- Iterations between which the outside changes the state. -/
def episodes (app : App σ P) : List (σ → σ) → Rt σ P → Rs (Rt σ P × Option Err)
  | [], rt => .ok (rt, none)
  | f :: fs, rt =>
    match runOneIteration app { rt with w := { rt.w with st := f rt.w.st } } with
    | .panic => .panic
    | .ok (rt, some e) => .ok (rt, some e)
    | .ok (rt, none) => episodes app fs rt

theorem episodes_loop (app : App σ P) (n : Nat) (rt : Rt σ P) :
    episodes app (List.replicate n id) rt = runLoop app n rt := by
  induction n generalizing rt with
  | zero => rfl
  | succ n ih =>
    rw [List.replicate_succ, episodes, runLoop]
    have : ({ rt with w := { rt.w with st := id rt.w.st } } : Rt σ P) = rt := rfl
    rw [this]
    cases runOneIteration app rt with
    | panic => rfl
    | ok x =>
      obtain ⟨rt1, e⟩ := x
      cases e with
      | none => exact ih rt1
      | some e => rfl

end Runtime

namespace BotResim
open Clock CopperList Planner Verif.Runtime Fp Bot
variable {inp : Inputs}

/-! ### The code of the tasks -/

/-- What a PID task keeps, and whether the task has panicked. -/
abbrev Mem := Option PidFp.Task × Bool

/-- The memories of the tasks. -/
def memOf (g : List Nat → Bool) (s : Robot) (t : Nat) : Mem :=
  if t = 2 then (some s.rodPid, s.panicked.contains 2)
  else if t = 3 then (some s.railPid, s.panicked.contains 3)
  else if t = 4 then (none, g s.panicked)
  else (none, false)

def inContent (c : Content Payload) : Option (Option Nat × Num) :=
  c.payload.map (fun p => ((match c.tov with | .time t => some t.ns.toNat | _ => none), measure p))

def outContent (inp : Inputs) (out : Content Payload) : PidFp.Res → Content Payload × Bool
  | .produced o => ({ out with status := inp.text (.control o), payload := some (.control o) }, false)
  | .cleared => ({ out with payload := none }, false)
  | .error => (out, true)

def pidCode (inp : Inputs) (c out : Content Payload) (m : Mem) : Mem × Content Payload × Bool :=
  match m.1 with
  | none => (m, out, false)
  | some p =>
    match p.process (inContent c) with
    | .panic => ((some p, true), out, false)
    | .ok (t, r) => ((some t, m.2), outContent inp out r)

def mergeCode (inp : Inputs) (bal pos out : Content Payload) (m : Mem) : Mem × Content Payload × Bool :=
  match bal.payload with
  | some (.control b) =>
    match pos.payload with
    | some (.control p) =>
      match (b.output.sub f32 p.output).clamp (.fin (-1)) (.fin 1) with
      | none => ((m.1, true), { out with tov := bal.tov }, false)
      | some c => (m, ⟨some (.motor c), bal.tov, inp.text (.motor c)⟩, false)
    | _ => (m, out, true)
  | _ => (m, out, true)

def code (inp : Inputs) : TaskCode Payload Mem where
  life ph t m := if ph = .stop ∧ (t = 2 ∨ t = 3) then (m.1.map PidFp.Task.stop, m.2) else m
  process t ins out m :=
    match t, ins with
    | 2, [c] => pidCode inp c out m
    | 3, [c] => pidCode inp c out m
    | 4, [a, b] => mergeCode inp a b out m
    | _, _ => (m, out, false)

theorem setAt_same {τ : Type} (m : Nat → τ) (t : Nat) : setAt m t (m t) = m := by
  funext u
  unfold setAt
  split
  · rename_i h; rw [h]
  · rfl

theorem pidOutput_content (out : Msg Payload) (r : PidFp.Res) :
    (pidOutput inp out r).1.content = (outContent inp out.content r).1 ∧
    (pidOutput inp out r).2.isSome = (outContent inp out.content r).2 := by
  cases r <;> exact ⟨rfl, rfl⟩

theorem pidInput_content (m : Msg Payload) : pidInput m = inContent m.content := rfl

/-- Calls of the tasks see the contents of the messages only. -/
theorem plays_regular {g : List Nat → Bool} (h2 : ∀ l, g (2 :: l) = g l) (h3 : ∀ l, g (3 :: l) = g l)
    (h4 : ∀ l, g (4 :: l) = true) (t : Nat) (ins : List (Msg Payload)) (out : Msg Payload) (s : Robot) :
    let r := (code inp).process t (ins.map Msg.content) out.content (memOf g s t)
    memOf g ((Bot.env inp).regular t ins out s).1 = setAt (memOf g s) t r.1 ∧
      ((Bot.env inp).regular t ins out s).2.1.content = r.2.1 ∧
      ((Bot.env inp).regular t ins out s).2.2.isSome = r.2.2 := by
  have other : ∀ t, setAt (memOf g s) t (memOf g s t) = memOf g s := fun t => setAt_same _ _
  match t, ins with
  | 0, _ | 1, _ => exact ⟨(other _).symm, rfl, rfl⟩
  | 2, [] | 3, [] | 4, [] | 4, [_] => exact ⟨(other _).symm, rfl, rfl⟩
  | 2, _ :: _ :: _ | 3, _ :: _ :: _ | 4, _ :: _ :: _ :: _ => exact ⟨(other _).symm, rfl, rfl⟩
  | n + 5, _ => exact ⟨(other _).symm, rfl, rfl⟩
  | 2, [m] =>
    show memOf g (balposPid inp m out s).1 = setAt _ 2 (pidCode inp m.content out.content (memOf g s 2)).1 ∧
      (balposPid inp m out s).2.1.content = (pidCode inp m.content out.content (memOf g s 2)).2.1 ∧
      (balposPid inp m out s).2.2.isSome = (pidCode inp m.content out.content (memOf g s 2)).2.2
    have hm : memOf g s 2 = (some s.rodPid, s.panicked.contains 2) := rfl
    rw [hm]
    unfold balposPid pidCode
    rw [← pidInput_content]
    simp only
    cases s.rodPid.process (pidInput m) with
    | panic =>
      refine ⟨?_, rfl, rfl⟩
      funext u
      simp only [memOf, setAt]
      split
      · simp
      · split
        · simp
        · split
          · rw [h2]
          · rfl
    | ok x =>
      obtain ⟨t, r⟩ := x
      refine ⟨?_, (pidOutput_content out r).1, (pidOutput_content out r).2⟩
      funext u
      simp only [memOf, setAt]
      split <;> rfl
  | 3, [m] =>
    show memOf g (railposPid inp m out s).1 = setAt _ 3 (pidCode inp m.content out.content (memOf g s 3)).1 ∧
      (railposPid inp m out s).2.1.content = (pidCode inp m.content out.content (memOf g s 3)).2.1 ∧
      (railposPid inp m out s).2.2.isSome = (pidCode inp m.content out.content (memOf g s 3)).2.2
    have hm : memOf g s 3 = (some s.railPid, s.panicked.contains 3) := rfl
    rw [hm]
    unfold railposPid pidCode
    rw [← pidInput_content]
    simp only
    cases s.railPid.process (pidInput m) with
    | panic =>
      refine ⟨?_, rfl, rfl⟩
      funext u
      simp only [memOf, setAt]
      by_cases e2 : u = 2
      · subst e2; simp
      · by_cases e3 : u = 3
        · subst e3; simp
        · simp only [e2, e3, if_false, h3]
    | ok x =>
      obtain ⟨t, r⟩ := x
      refine ⟨?_, (pidOutput_content out r).1, (pidOutput_content out r).2⟩
      funext u
      simp only [memOf, setAt]
      by_cases e2 : u = 2
      · subst e2; simp
      · by_cases e3 : u = 3
        · subst e3; simp
        · simp only [e2, e3, if_false]
  | 4, [a, b] =>
    show memOf g (mergePids inp a b out s).1 =
        setAt _ 4 (mergeCode inp a.content b.content out.content (memOf g s 4)).1 ∧
      (mergePids inp a b out s).2.1.content = (mergeCode inp a.content b.content out.content (memOf g s 4)).2.1 ∧
      (mergePids inp a b out s).2.2.isSome = (mergeCode inp a.content b.content out.content (memOf g s 4)).2.2
    have e : a.content.payload = a.payload := rfl
    have e' : b.content.payload = b.payload := rfl
    unfold mergePids mergeCode
    rw [e, e']
    rcases ha : a.payload with _ | (v | v | x | v)
    · exact ⟨(other 4).symm, rfl, rfl⟩
    · exact ⟨(other 4).symm, rfl, rfl⟩
    · exact ⟨(other 4).symm, rfl, rfl⟩
    · rcases hb : b.payload with _ | (v | v | y | v)
      · exact ⟨(other 4).symm, rfl, rfl⟩
      · exact ⟨(other 4).symm, rfl, rfl⟩
      · exact ⟨(other 4).symm, rfl, rfl⟩
      · simp only
        cases (x.output.sub f32 y.output).clamp (.fin (-1)) (.fin 1) with
        | some c => exact ⟨(other 4).symm, rfl, rfl⟩
        | none =>
          refine ⟨?_, rfl, rfl⟩
          funext u
          simp only [memOf, setAt]
          by_cases e2 : u = 2
          · subst e2; simp
          · by_cases e3 : u = 3
            · subst e3; simp
            · by_cases e4 : u = 4
              · subst e4; simp [h4]
              · simp only [e2, e3, e4, if_false]
      · exact ⟨(other 4).symm, rfl, rfl⟩
    · exact ⟨(other 4).symm, rfl, rfl⟩

theorem isRegular_eq (t : Nat) : Runtime.IsRegular plan t ↔ t = 2 ∨ t = 3 ∨ t = 4 := by
  unfold Runtime.IsRegular
  rw [plan_eq]
  simp [eq_comm]

theorem plays_life {g : List Nat → Bool} (ph : Phase) (t : Nat) (s : Robot) :
    memOf g (Bot.life inp ph t s).1 = setAt (memOf g s) t ((code inp).life ph t (memOf g s t)) := by
  have other : ∀ t, setAt (memOf g s) t (memOf g s t) = memOf g s := fun t => setAt_same _ _
  unfold life
  split
  · exact (other _).symm
  · exact (other _).symm
  · funext u
    simp only [memOf, setAt, code]
    split <;> rfl
  · funext u
    simp only [memOf, setAt, code]
    by_cases e2 : u = 2
    · subst e2; rfl
    · by_cases e3 : u = 3
      · subst e3; rfl
      · simp only [e2, e3, if_false]
  · exact (other _).symm
  · rename_i h1 h2 h3 h4 h5
    have : ¬ (ph = .stop ∧ (t = 2 ∨ t = 3)) := by
      rintro ⟨rfl, rfl | rfl⟩
      · exact h3 rfl rfl
      · exact h4 rfl rfl
    simp only [code, if_neg this]
    exact (other _).symm

theorem plays_lifeOther {g : List Nat → Bool} (ph : Phase) (t : Nat) (s : Robot) (h : ¬ Runtime.IsRegular plan t) :
    memOf g (Bot.life inp ph t s).1 = memOf g s := by
  rw [plays_life]
  rw [isRegular_eq] at h
  have : ¬ (ph = .stop ∧ (t = 2 ∨ t = 3)) := by omega
  simp only [code, if_neg this]
  exact setAt_same _ _

/-- The memories in a run on the hardware, or in the simulation. -/
def memRec : Robot → Nat → Mem := memOf (·.contains 4)
/-- The memories in a resimulation. -/
def memRe : Robot → Nat → Mem := memOf (·.any (fun t => t != 2 && t != 3))

theorem memOf_congr {g : List Nat → Bool} {s s' : Robot} (h1 : s.rodPid = s'.rodPid) (h2 : s.railPid = s'.railPid)
    (h3 : s.panicked = s'.panicked) : memOf g s = memOf g s' := by
  unfold memOf
  rw [h1, h2, h3]

theorem balposRead_mem (mid mid' : Option CuTime) (v : UInt16) (out : Msg Payload) (s : Robot) :
    memRec (balposRead inp mid mid' v out s).1 = memRec s := by
  cases mid with
  | none => funext u; simp [balposRead, memRec, memOf]
  | some t =>
    unfold balposRead
    generalize Adc.process s.integrated (some v) = r
    obtain ⟨i, _ | r⟩ := r
    · exact memOf_congr rfl rfl rfl
    · cases mid' with
      | none => funext u; simp [memRec, memOf]
      | some t => exact memOf_congr rfl rfl rfl

theorem balpos_mem (out : Msg Payload) (s : Robot) : memRec (balpos inp out s).1 = memRec s := by
  unfold balpos
  split
  · exact memOf_congr rfl rfl rfl
  · rw [balposRead_mem]
    exact memOf_congr rfl rfl rfl

theorem sink_mem (t : Nat) (ins : List (Msg Payload)) (s : Robot) :
    memRec ((Bot.env inp).sink t ins s).1 = memRec s := by
  match t, ins with
  | 0, _ | 1, _ | 2, _ | 3, _ | 4, _ => exact memOf_congr rfl rfl rfl
  | 5, [] | 5, _ :: _ :: _ => exact memOf_congr rfl rfl rfl
  | 5, [m] => exact memOf_congr rfl rfl rfl
  | n + 6, _ => exact memOf_congr rfl rfl rfl

theorem source_mem (t : Nat) (out : Msg Payload) (s : Robot) :
    memRec ((Bot.env inp).source t out s).1 = memRec s := by
  match t with
  | 0 => exact balpos_mem out s
  | 1 => exact memOf_congr rfl rfl rfl
  | n + 2 => exact memOf_congr rfl rfl rfl

theorem bot_plays : Plays plan (code inp) memRec (Bot.env inp) where
  life ph t s _ := plays_life ph t s
  regular t ins out s := plays_regular (by simp) (by simp) (by simp) t ins out s
  lifeOther ph t s h := plays_lifeOther ph t s h
  now _ := rfl
  source := source_mem
  sink := sink_mem
  onError _ _ _ _ := rfl
  monCL _ _ := rfl
  monStart _ := rfl
  log f hf s cl s' h := by cases hf; cases h; rfl

theorem bot_fair : Fair plan (code inp) memRec (Bot.env inp) := ⟨bot_plays, fun s h => by cases h⟩

theorem sim_fair : Fair plan (code inp) (fun s : BotSim.State => memRec s.robot) (BotSim.env inp) := by
  refine ⟨⟨fun ph t s h => bot_plays.life ph t s.robot h, fun t ins out s => bot_plays.regular t ins out s.robot,
    fun ph t s h => bot_plays.lifeOther ph t s.robot h, fun _ => rfl, fun t out s => bot_plays.source t out s.robot,
    fun t ins s => bot_plays.sink t ins s.robot, fun _ _ _ _ => rfl, fun _ _ => rfl, fun _ => rfl,
    fun f hf s cl s' h => by cases hf; cases h; rfl⟩, fun sim h => ?_⟩
  cases h
  refine ⟨fun ph t s => ⟨rfl, fun h => ?_⟩, fun t ins out s => ⟨?_, fun h => ?_⟩⟩
  · rw [isRegular_eq] at h
    have : ¬ (t = 0 ∨ t = 1 ∨ t = 5) := by omega
    simp only [BotSim.answerLife, if_neg this]
  · show memRec (BotSim.answer inp t ins out s).1.robot = memRec s.robot
    congr 1
    unfold BotSim.answer
    split
    · rfl
    · rfl
    · split
      · split <;> rfl
      · rfl
    · rfl
    · rfl
  · rw [isRegular_eq] at h
    rcases h with rfl | rfl | rfl <;> rfl

theorem re_plays (t : CuTime) (msgs : List (Msg Payload)) : Plays plan (code inp) memRe (env inp t msgs) where
  life ph t s _ := plays_life ph t s
  regular t ins out s := plays_regular (by simp) (by simp) (by simp) t ins out s
  lifeOther ph t s h := plays_lifeOther ph t s h
  now _ := rfl
  source _ _ _ := rfl
  sink _ _ _ := rfl
  onError _ _ _ _ := rfl
  monCL _ _ := rfl
  monStart _ := rfl
  log f hf s cl s' h := by cases hf; cases h; rfl

theorem re_fair (t : CuTime) (msgs : List (Msg Payload)) : Fair plan (code inp) memRe (env inp t msgs) := by
  refine ⟨re_plays t msgs, fun sim h => ?_⟩
  cases h
  refine ⟨fun ph t s => ⟨rfl, fun h => ?_⟩, fun t ins out s => ⟨?_, fun h => ?_⟩⟩
  · rw [isRegular_eq] at h
    have : ¬ (t = 0 ∨ t = 1 ∨ t = 5) := by omega
    simp only [answerLife, if_neg this]
  · show memRe (answer inp msgs t ins out s).1 = memRe s
    congr 1
    unfold answer
    split
    · rfl
    · rfl
    · split
      · split <;> rfl
      · rfl
    · rfl
    · rfl
  · rw [isRegular_eq] at h
    rcases h with rfl | rfl | rfl <;> rfl

theorem code_congr {inp inp' : Inputs} (h : inp'.text = inp.text) : code inp' = code inp := by
  obtain ⟨a, b, c, d, e⟩ := inp
  obtain ⟨a', b', c', d', e'⟩ := inp'
  simp only at h
  subst h
  rfl

/-! ### Nothing stops -/

theorem bot_calm : Calm (Bot.env inp) := by
  have key : ∀ ph, ph = .preprocess ∨ ph = .postprocess → ∀ t (w : World Robot Payload),
      (lifeStep (Bot.env inp) ph t w).2 = .next := by
    intro ph hph t w
    have hl : (Bot.env inp).life ph t w.st = (w.st, none) := by
      show life inp ph t w.st = _
      rcases hph with rfl | rfl <;> unfold life <;> split <;> simp_all
    have hs : (Bot.env inp).sim = none := rfl
    unfold lifeStep
    rw [hs]
    simp only [lifeCall, hl]
  exact ⟨key _ (.inl rfl), key _ (.inr rfl), fun _ _ _ => rfl⟩

theorem sim_calm : Calm (BotSim.env inp) := by
  refine ⟨fun t w => ?_, fun t w => ?_, fun _ _ _ => rfl⟩
  · obtain ⟨w', h, -⟩ := BotSim.sim_lifeStep (inp := inp) (.inl rfl) t w
    rw [h]
  · obtain ⟨w', h, -⟩ := BotSim.sim_lifeStep (inp := inp) (.inr (.inl rfl)) t w
    rw [h]

theorem re_lifeStep {ph : Phase} (hph : ph = .preprocess ∨ ph = .postprocess ∨ ph = .start) (time : CuTime)
    (msgs : List (Msg Payload)) (t : Nat) (w : World Robot Payload) :
    (lifeStep (env inp time msgs) ph t w).2 = .next := by
  have hs : (env inp time msgs).sim = some ⟨answerLife, answer inp msgs⟩ := rfl
  by_cases ht : t = 0 ∨ t = 1 ∨ t = 5
  · have ha : answerLife ph t w.st = (w.st, .executedBySim) := by simp only [answerLife, if_pos ht]
    unfold lifeStep
    rw [hs]
    simp only [ha]
  · have ha : answerLife ph t w.st = (w.st, .executeByRuntime) := by simp only [answerLife, if_neg ht]
    have hl : (env inp time msgs).life ph t w.st = (w.st, none) := by
      show Bot.life inp ph t w.st = _
      rcases hph with rfl | rfl | rfl <;> unfold life <;> split <;> simp_all
    unfold lifeStep
    rw [hs]
    simp only [ha, lifeCall, World.emit, hl]

theorem re_calm (t : CuTime) (msgs : List (Msg Payload)) : Calm (env inp t msgs) :=
  ⟨re_lifeStep (.inl rfl) t msgs, re_lifeStep (.inr (.inl rfl)) t msgs, fun _ _ _ => rfl⟩

/-! ### Nothing panics -/

theorem graph_plan : computePlan graph = .ok (some plan) := by
  have : (match computePlan graph with | .ok (some _) => true | _ => false) = true := by decide +kernel
  unfold plan
  revert this
  rcases computePlan graph with (_ | p) | _ <;> simp

theorem graph_wf : graph.WF := by decide
theorem graph_acyclic : graph.Acyclic := ⟨id, by decide⟩
theorem graph_first : ProducersFirst graph := by unfold ProducersFirst; decide

theorem readable : SourcesReadable plan := by
  have : ∀ k : Fin 6, ∀ s ∈ plan[k.val]?, s.taskType = .source → accessorIndex plan s.nodeId = some k.val := by
    rw [plan_eq]; decide
  intro k s hk hs
  have hlt : k < 6 := by
    have := (List.getElem?_eq_some_iff.1 hk).1
    rw [plan_eq] at this
    exact this
  exact this ⟨k, hlt⟩ s hk hs

theorem re_clock {t : CuTime} (ht : t.ns ≠ NONE_VALUE) (msgs : List (Msg Payload)) :
    MonotoneClock (env inp t msgs) (fun _ => t.ns.toNat) :=
  ⟨fun _ => ⟨le_refl _, le_refl _, ht⟩, fun _ _ _ => le_refl _, fun _ _ _ => le_refl _, fun _ _ _ _ => le_refl _,
    fun _ _ _ => le_refl _, fun _ _ _ _ => le_refl _, fun _ _ => le_refl _, fun _ => le_refl _, fun _ => le_refl _,
    fun _ _ _ _ _ _ => le_refl _, fun _ _ _ _ _ => le_refl _, fun _ _ _ _ _ _ => le_refl _⟩

theorem re_keeps (t : CuTime) (msgs : List (Msg Payload)) : KeepsStart (env inp t msgs) := by
  refine ⟨fun _ _ _ => rfl, fun t ins out s => ?_⟩
  show ((Bot.env inp).regular t ins out s).2.1.md.processTime.start = _
  match t, ins with
  | 0, _ | 1, _ => rfl
  | 2, [] | 3, [] | 4, [] | 4, [_] => rfl
  | 2, _ :: _ :: _ | 3, _ :: _ :: _ | 4, _ :: _ :: _ :: _ => rfl
  | n + 5, _ => rfl
  | 2, [m] =>
    show (balposPid inp m out s).2.1.md.processTime.start = _
    unfold balposPid
    split
    · rfl
    · exact BotSim.pidOutput_start _ _
  | 3, [m] =>
    show (railposPid inp m out s).2.1.md.processTime.start = _
    unfold railposPid
    split
    · rfl
    · exact BotSim.pidOutput_start _ _
  | 4, [a, b] =>
    show (mergePids inp a b out s).2.1.md.processTime.start = _
    unfold mergePids
    split
    · split
      · simp only
        split <;> rfl
      · rfl
    · rfl

/-- An iteration with the clock at a time does not panic. -/
theorem re_ok {t : CuTime} (ht : t.ns ≠ NONE_VALUE) (msgs : List (Msg Payload)) {rt : Rt Robot Payload}
    (hi : Idle plan.length rt.mgr) (hid : rt.mgr.currentClId ≠ 0xFFFFFFFF) :
    ∃ r, runOneIteration (app inp t msgs) rt = .ok r :=
  C52_no_panic_partial graph graph_wf graph_acyclic (by decide) (app inp t msgs) graph_plan (.inl graph_first)
    (fun _ => t.ns.toNat) (re_clock ht msgs) (re_keeps t msgs) (fun f hf s cl => by cases hf; exact ⟨s, rfl⟩) rt hi
    (.inl hid)

/-! ### One list after the other -/

/-- What is left in the message of the motor. -/
def sinkOut (inp : Inputs) (_ : Nat) (ins : List (Msg Payload)) (out : Msg Payload) : Msg Payload :=
  (answer inp [] 5 ins out .new).2.1

/-- The resimulation with the clock at `t`, as in `Model/Replay`. -/
def player (inp : Inputs) (t : CuTime) : Replayer Robot Payload := ⟨app inp t [], sinkOut inp, fun _ s => s⟩

theorem kind_eq (t : Nat) :
    kindOf plan t = if t = 0 ∨ t = 1 then .source else if t = 5 then .sink else .regular := by
  unfold kindOf
  rw [plan_eq]
  match t with
  | 0 | 1 | 2 | 3 | 4 | 5 => rfl
  | n + 6 => simp [List.find?]

theorem callback_eq (msgs : List (Msg Payload)) :
    resimCallback plan (sinkOut inp) msgs = (⟨answerLife, answer inp msgs⟩ : Sim Robot Payload) := by
  unfold resimCallback
  congr 1
  · funext _ t s
    rw [kind_eq]
    unfold answerLife
    by_cases h : t = 0 ∨ t = 1
    · have : t = 0 ∨ t = 1 ∨ t = 5 := by omega
      simp only [if_pos h, if_pos this]
      rfl
    · by_cases h5 : t = 5
      · have : t = 0 ∨ t = 1 ∨ t = 5 := by omega
        simp only [if_neg h, if_pos h5, if_pos this]
        rfl
      · have : ¬ (t = 0 ∨ t = 1 ∨ t = 5) := by omega
        simp only [if_neg h, if_neg h5, if_neg this]
        rfl
  · funext t ins out s
    rw [kind_eq]
    match t with
    | 0 | 1 => rfl
    | 2 | 3 | 4 => rfl
    | 5 =>
      show (s, sinkOut inp 5 ins out, SimOverride.executedBySim) = answer inp msgs 5 ins out s
      unfold sinkOut
      match ins with
      | [] | _ :: _ :: _ => rfl
      | [m] =>
        unfold answer
        simp only
        rcases m.payload with _ | (v | v | v | p)
        · rfl
        · rfl
        · rfl
        · rfl
        · simp only
          split <;> rfl
    | n + 6 =>
      have h1 : ¬ (n + 6 = 0 ∨ n + 6 = 1) := by omega
      have h2 : ¬ (n + 6 = 5) := by omega
      simp only [if_neg h1, if_neg h2]
      rfl

theorem one_eq {cl : CL (List (Msg Payload))} {t : CuTime}
    (ht : (output cl.msgs 0).bind (fun m => m.md.processTime.start.unwrap) = some t) (rt : Rt Robot Payload) :
    one inp cl rt = runOneIteration (app inp t cl.msgs) rt ∧ one inp cl rt = replayOne (player inp t) cl rt := by
  have h : one inp cl rt = runOneIteration (app inp t cl.msgs) rt := by unfold one; rw [ht]
  refine ⟨h, ?_⟩
  rw [h]
  unfold replayOne
  have : (player inp t).app.withSim (resimCallback (player inp t).app.plan (player inp t).sinkOut cl.msgs) =
      app inp t cl.msgs := by
    show (app inp t []).withSim (resimCallback plan (sinkOut inp) cl.msgs) = _
    rw [callback_eq]
    rfl
  rw [this]
  rfl

/-- The runtime has written when it called `balpos`. -/
theorem has_start {msgs : List (Msg Payload)} {o : Overflow} {md : List MsgMeta} {d : CuDuration}
    (h1 : collectMetadata plan msgs = .ok md) (h2 : endToEnd o md = .ok d) :
    ∃ t : CuTime, (output msgs 0).bind (fun m => m.md.processTime.start.unwrap) = some t ∧ t.ns ≠ NONE_VALUE := by
  have hco : callOrder plan = [0, 2, 1, 3, 4, 5] := by rw [plan_eq]; rfl
  have hacc : output msgs 0 = msgs[0]? := by
    unfold output accessorIndex
    rw [hco]
    rfl
  rw [hacc]
  unfold collectMetadata at h1
  rw [hco] at h1
  cases hm : msgs[0]? with
  | none => simp [mapRs, hm, Rs.ofOption] at h1
  | some m =>
    have hhead : md.head? = some m.md := by
      rw [mapRs] at h1
      simp only [hm, Option.map_some, Rs.ofOption] at h1
      split at h1
      · rename_i hx _
        cases hx
        cases h1
        rfl
      · cases h1
    unfold endToEnd at h2
    rw [hhead] at h2
    split at h2
    · rename_i l f _ hf
      cases hf
      split at h2
      · rename_i e st _ hst
        refine ⟨st, hst, ?_⟩
        unfold OptionCuTime.unwrap at hst
        split at hst
        · cases hst
        · rename_i hne
          cases hst
          intro he
          exact hne (by simp [OptionCuTime.isNone, he])
      · cases h2
    · cases h2

variable {σ : Type}

/-- The recording of a run, taken up by the resimulation. -/
theorem lists_sync {inp' : Inputs} (htext : inp'.text = inp.text) (hquit : ∀ k, inp'.quit k = false)
    {a : App σ Payload} (hplan : a.plan = plan) (htasks : a.tasks = 6) {mem : σ → Nat → Mem}
    (hf : Fair plan (code inp) mem a.env) (hcalm : Calm a.env) (hlog : a.env.log.isSome = true)
    (fs : List (σ → σ)) (hfs : ∀ f ∈ fs, ∀ s, mem (f s) = mem s) :
    ∀ (rt rt1 : Rt σ Payload) (rt' : Rt Robot Payload), Synced plan mem memRe rt rt' →
      (∀ ev ∈ rt.w.trace, ev.stops = false) → (∀ ev ∈ rt'.w.trace, ev.stops = false) →
      rt'.mgr.currentClId.toNat + fs.length < 2 ^ 32 → episodes a fs rt = .ok (rt1, none) →
      ∃ t rt1' t', rt1.w.trace = rt.w.trace ++ t ∧ (loggedLists t).length = fs.length ∧
        lists inp' (loggedLists t) rt' = .ok (rt1', none) ∧ Synced plan mem memRe rt1 rt1' ∧
        rt1'.w.trace = rt'.w.trace ++ t' ∧ Pointwise (SameList plan) (loggedLists t) (loggedLists t') := by
  have hw : Wired a.plan := by rw [hplan]; exact wired_of_plan graph_wf graph_plan
  have hns : SinksUnread a.plan := by rw [hplan]; exact sinksUnread_of_plan graph_wf graph_plan
  have hacc : SourcesReadable a.plan := by rw [hplan]; exact readable
  have hf' : Fair a.plan (code inp) mem a.env := by rw [hplan]; exact hf
  induction fs with
  | nil =>
    intro rt rt1 rt' hs _ _ _ h
    simp only [episodes, Rs.ok.injEq, Prod.mk.injEq, and_true] at h
    subst h
    exact ⟨[], rt', [], by simp, rfl, rfl, hs, by simp, .nil⟩
  | cons f fs ih =>
    intro rt rt1 rt' hs hq hq' hid h
    unfold episodes at h
    have hs0 : Synced a.plan mem memRe ({ rt with w := { rt.w with st := f rt.w.st } } : Rt σ Payload) rt' := by
      rw [hplan]
      exact ⟨hs.1, fun t ht => by rw [← hs.2 t ht]; exact congrFun (hfs f (List.mem_cons_self ..) rt.w.st) t⟩
    cases h1 : runOneIteration a { rt with w := { rt.w with st := f rt.w.st } } with
    | panic => rw [h1] at h; cases h
    | ok x =>
      obtain ⟨rta, e⟩ := x
      rw [h1] at h
      cases e with
      | some e => simp at h
      | none =>
        simp only at h
        have hqa := (iteration_calm hcalm h1 hq).1 rfl
        have hpl : ∀ t, (player inp' t).app.plan = a.plan := fun _ => hplan.symm
        have hpt : ∀ t, (player inp' t).app.tasks = a.tasks := fun _ => htasks.symm
        have hpp : ∀ t, Plays a.plan (code inp) memRe (player inp' t).app.env := by
          intro t
          rw [hplan, ← code_congr htext]
          exact re_plays t []
        obtain ⟨ta, cl, hta, hcl, ⟨md, d, hmd, hd⟩, -⟩ := one_sync (r := player inp' ⟨0⟩) (rt1' := rt') hw hns hacc (hpl _)
          (hpt _) hf' (hpp _) (fun _ _ => rfl) hlog rfl hs0 h1 hqa
        rw [hplan] at hmd
        obtain ⟨t, ht, hne⟩ := has_start hmd hd
        obtain ⟨o1, o2⟩ := one_eq (inp := inp') ht rt'
        have hidle : Idle plan.length rt'.mgr := hs.1.2.1
        have hid' : rt'.mgr.currentClId ≠ 0xFFFFFFFF := by
          intro h0
          rw [h0] at hid
          simp only [List.length_cons] at hid
          have : (0xFFFFFFFF : UInt32).toNat = 4294967295 := rfl
          omega
        obtain ⟨⟨rtb, e⟩, hb⟩ := re_ok (inp := inp') hne cl.msgs hidle hid'
        obtain ⟨c1, c2⟩ := iteration_calm (re_calm t cl.msgs) hb hq'
        have hmon : ∀ md s, ((app inp' t cl.msgs).env.monCL md s).2 = none := by
          intro md s
          show (if inp'.quit s.lists then some "Exiting..." else none) = none
          rw [hquit]
          rfl
        have he := c2 hmon
        subst he
        have hqb := c1 rfl
        obtain ⟨ta2, cl2, hta2, hcl2, -, hone⟩ := one_sync (r := player inp' t) (rt1' := rtb) hw hns hacc (hpl _) (hpt _)
          hf' (hpp _) (fun _ _ => rfl) hlog rfl hs0 h1 hqa
        have : ta2 = ta := by
          apply List.append_cancel_left (as := rt.w.trace)
          exact hta2.symm.trans hta
        subst this
        rw [hcl] at hcl2
        simp only [List.cons.injEq, and_true] at hcl2
        subst hcl2
        have hb' : replayOne (player inp' t) cl rt' = .ok (rtb, none) := by rw [← o2, o1]; exact hb
        obtain ⟨hs2, t2, cl', ht2, hcl', hsame⟩ := hone hb' hqb
        rw [hplan] at hs2 hsame
        have hidb : rtb.mgr.currentClId.toNat + fs.length < 2 ^ 32 := by
          have hn : rtb.mgr.currentClId = rt'.mgr.currentClId + 1 := by
            exact iteration_next (app := app inp' t cl.msgs) rfl (re_fair t cl.msgs) hidle hb hqb
          rw [hn, UInt32.toNat_add]
          simp only [List.length_cons, UInt32.toNat_ofNat] at hid ⊢
          omega
        obtain ⟨t3, rt1', t3', i1, i2, i3, i4, i5, i6⟩ := ih (fun g hg => hfs g (List.mem_cons_of_mem _ hg)) rta rt1 rtb hs2
          hqa hqb hidb h
        refine ⟨ta2 ++ t3, rt1', t2 ++ t3', ?_, ?_, ?_, i4, ?_, ?_⟩
        · rw [i1, hta]; simp
        · rw [loggedLists_append, hcl]; simp [i2]
        · rw [loggedLists_append, hcl, List.singleton_append, lists, o1, hb]
          exact i3
        · rw [i5, ht2]; simp
        · rw [loggedLists_append, loggedLists_append, hcl, hcl']
          exact .cons hsame i6

theorem re_start {inp' : Inputs} : ∃ rt, startAll (app inp' ⟨0⟩ []) fresh = (rt, none) := by
  have h := lifeAll_calm (env := env inp' ⟨0⟩ []) (re_lifeStep (.inr (.inr rfl)) ⟨0⟩ []) (List.range 6) fresh.w
  unfold startAll
  have : lifeAll (app inp' ⟨0⟩ []).env .start (List.range (app inp' ⟨0⟩ []).tasks) fresh.w =
      lifeAll (env inp' ⟨0⟩ []) .start (List.range 6) fresh.w := rfl
  rw [this]
  generalize lifeAll (env inp' ⟨0⟩ []) .start (List.range 6) fresh.w = q at h
  obtain ⟨w, f⟩ := q
  simp only at h
  subst h
  exact ⟨_, rfl⟩

/-- A recorded run, from its start. -/
theorem resim_sync {inp' : Inputs} (htext : inp'.text = inp.text) (hquit : ∀ k, inp'.quit k = false)
    {a : App σ Payload} (hplan : a.plan = plan) (htasks : a.tasks = 6) {mem : σ → Nat → Mem}
    (hf : Fair plan (code inp) mem a.env) (hcalm : Calm a.env) (hlog : a.env.log.isSome = true)
    (hstart : ∀ t e s, (a.env.onError .start t e s).2 ≠ .abort)
    {fs : List (σ → σ)} (hfs : ∀ f ∈ fs, ∀ s, mem (f s) = mem s) (hn : fs.length < 4294967295)
    {rt0 rts rt1 : Rt σ Payload} (htr : rt0.w.trace = []) (hmgr : rt0.mgr = fresh.mgr)
    (hmem : mem rt0.w.st = memRec .new) (hs : startAll a rt0 = (rts, none))
    (h : episodes a fs rts = .ok (rt1, none)) :
    (loggedLists rt1.w.trace).length = fs.length ∧
    ∃ rt', resim inp' (loggedLists rt1.w.trace) = .ok (rt', none) ∧
      Pointwise (SameList plan) (loggedLists rt1.w.trace) (loggedLists rt'.w.trace) ∧
      ∀ t, Runtime.IsRegular plan t → mem rt1.w.st t = memRe rt'.w.st t := by
  obtain ⟨rts', hs'⟩ := re_start (inp' := inp')
  have hq := start_calm hstart hs (by rw [htr]; intro ev hev; cases hev)
  have hq' : ∀ ev ∈ rts'.w.trace, ev.stops = false := start_calm (app := app inp' ⟨0⟩ [])
    (by intro t e s hx; cases hx) hs' (by intro ev hev; cases hev)
  obtain ⟨m1, m2⟩ := start_sync hf hs hq
  obtain ⟨m1', m2'⟩ := start_sync (re_fair (inp := inp') ⟨0⟩ []) hs' hq'
  have hl : plan.length = 6 := by rw [plan_eq]; rfl
  have hsync : Synced plan mem memRe rts rts' := by
    refine ⟨⟨?_, ?_, ?_, ?_⟩, fun t ht => ?_⟩
    · rw [m1, hmgr, hl]; exact fresh_idle
    · rw [m1', hl]; exact fresh_idle
    · rw [m1, m1', hmgr]
    · intro c c' hc hc' k s _ _
      rw [m1, hmgr] at hc
      rw [m1', hc] at hc'
      cases hc'
      rfl
    · rw [m2, m2', htasks, code_congr htext]
      show _ = lifeMem plan (code inp) .start (List.range 6) (memRe .new) t
      refine lifeMem_congr _ _ _ _ _ _ ?_ t ht
      intro u hu
      rw [hmem]
      rw [isRegular_eq] at hu
      rcases hu with rfl | rfl | rfl <;> rfl
  have hid : rts'.mgr.currentClId.toNat + fs.length < 2 ^ 32 := by
    rw [m1']
    have : (fresh.mgr.currentClId).toNat = 0 := rfl
    omega
  obtain ⟨t, rt1', t', i1, i2, i3, i4, i5, i6⟩ := lists_sync htext hquit hplan htasks hf hcalm hlog fs hfs rts rt1 rts' hsync
    hq hq' hid h
  have hll : loggedLists rts.w.trace = [] := start_quiet a hs htr
  have hll' : loggedLists rts'.w.trace = [] := start_quiet _ hs' rfl
  have e1 : loggedLists rt1.w.trace = loggedLists t := by rw [i1, loggedLists_append, hll, List.nil_append]
  have e2 : loggedLists rt1'.w.trace = loggedLists t' := by rw [i5, loggedLists_append, hll', List.nil_append]
  rw [e1]
  refine ⟨i2, rt1', ?_, by rw [e2]; exact i6, i4.2⟩
  unfold resim
  rw [hs']
  exact i3

/-- What the memories say. -/
theorem mem_same {s s' : Robot} (h : ∀ t, Runtime.IsRegular plan t → memRec s t = memRe s' t) :
    s'.rodPid = s.rodPid ∧ s'.railPid = s.railPid ∧ (s.panicked = [] → s'.panicked = []) := by
  have h2 : (some s.rodPid, s.panicked.contains 2) = (some s'.rodPid, s'.panicked.contains 2) :=
    h 2 ((isRegular_eq 2).2 (by omega))
  have h3 : (some s.railPid, s.panicked.contains 3) = (some s'.railPid, s'.panicked.contains 3) :=
    h 3 ((isRegular_eq 3).2 (by omega))
  have h4 : ((none, s.panicked.contains 4) : Mem) = (none, s'.panicked.any (fun t => t != 2 && t != 3)) :=
    h 4 ((isRegular_eq 4).2 (by omega))
  simp only [Prod.mk.injEq, Option.some.injEq] at h2 h3 h4
  refine ⟨h2.1.symm, h3.1.symm, fun h0 => ?_⟩
  have g2 := h2.2
  have g3 := h3.2
  have g4 := h4.2
  rw [h0] at g2 g3 g4
  cases hp : s'.panicked with
  | nil => rfl
  | cons x l =>
    exfalso
    rw [hp] at g2 g3 g4
    simp at g2 g3 g4
    omega

theorem frames_episodes (fs : List BotSim.Frame) (rt : Rt BotSim.State Payload) :
    BotSim.frames inp fs rt =
      episodes (BotSim.app inp) (fs.map (fun f s => { s with frame := f })) rt := by
  induction fs generalizing rt with
  | nil => rfl
  | cons f fs ih =>
    rw [BotSim.frames, List.map_cons, episodes]
    generalize runOneIteration (BotSim.app inp) { rt with w := { rt.w with st := { rt.w.st with frame := f } } } = q
    rcases q with ⟨rt1, _ | e⟩ | _
    · exact ih rt1
    · rfl
    · rfl

end BotResim
end Verif
