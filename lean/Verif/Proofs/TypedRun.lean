import Verif.Spec.TypedRun
import Verif.Proofs.RuntimePool
import Verif.Proofs.RuntimeFlow
/-! The contracts of the tasks hold of everything that is seen of a run. -/
namespace Verif
namespace Runtime
open Clock CopperList Planner
variable {σ P : Type}

section
variable {app : App σ P} {I : σ → Prop} {Q : Nat → Msg P → Prop} {n : Nat}

/-- The world: its state, and what was seen of the run. -/
def Sane (app : App σ P) (I : σ → Prop) (n : Nat) (Q : Nat → Msg P → Prop) (w : World σ P) : Prop :=
  I w.st ∧ ∀ ev ∈ w.trace, ev.Holds app.plan n Q

theorem Sane.emit {w : World σ P} (h : Sane app I n Q w) {s : σ} (hs : I s) {ev : Ev P} (he : ev.Holds app.plan n Q) :
    Sane app I n Q (w.emit s ev) := by
  refine ⟨hs, fun x hx => ?_⟩
  unfold World.emit at hx
  rcases List.mem_append.1 hx with hx | hx
  · exact h.2 x hx
  · rw [List.mem_singleton.1 hx]; exact he

theorem Sane.st {w : World σ P} (h : Sane app I n Q w) {s : σ} (hs : I s) : Sane app I n Q { w with st := s } := ⟨hs, h.2⟩

theorem life_holds {ph : Phase} (hp : ph ≠ .process) {t : Nat} (ins : List (Msg P)) :
    (∀ r, (Ev.called ph t ins r).Holds app.plan n Q) ∧ ∀ r, (Ev.asked ph t ins r).Holds app.plan n Q := by
  cases ph <;> first | exact absurd rfl hp | exact ⟨fun _ => trivial, fun _ => trivial⟩

theorem react_sane (hk : Unheard app I Q) {ph : Phase} {t : Nat} {e : Err} {w : World σ P} (h : Sane app I n Q w) :
    Sane app I n Q (react app.env ph t e w).1 :=
  h.emit (hk.onError ph t e w.st h.1) trivial

theorem lifeCall_sane (hk : Unheard app I Q) {ph : Phase} (hp : ph ≠ .process) {t : Nat} {w : World σ P} (h : Sane app I n Q w) :
    Sane app I n Q (lifeCall app.env ph t w).1 := by
  have h1 := h.emit (hk.life ph t w.st h.1) (ev := .called ph t [] (app.env.life ph t w.st).2) ((life_holds hp _).1 _)
  unfold lifeCall
  simp only
  split
  · exact h1
  · exact react_sane hk h1

theorem lifeStep_sane (hk : Unheard app I Q) {ph : Phase} (hp : ph ≠ .process) {t : Nat} {w : World σ P} (h : Sane app I n Q w) :
    Sane app I n Q (lifeStep app.env ph t w).1 := by
  unfold lifeStep
  split
  · exact lifeCall_sane hk hp h
  · rename_i sim hsim
    have h1 := h.emit (hk.simLife sim hsim ph t w.st h.1) (ev := .asked ph t [] (sim.life ph t w.st).2) ((life_holds hp _).2 _)
    simp only
    split
    · exact react_sane hk h1
    · exact h1
    · exact lifeCall_sane hk hp h1

theorem lifeAll_sane (hk : Unheard app I Q) {ph : Phase} (hp : ph ≠ .process) (ts : List Nat) {w : World σ P} (h : Sane app I n Q w) :
    Sane app I n Q (lifeAll app.env ph ts w).1 := by
  induction ts generalizing w with
  | nil => exact h
  | cons t ts ih =>
    have h1 := lifeStep_sane hk hp (t := t) h
    unfold lifeAll
    generalize lifeStep app.env ph t w = r at h1 ⊢
    obtain ⟨w1, f⟩ := r
    cases f with
    | next => exact ih h1
    | abort => exact h1
    | shutdown e => exact h1

theorem Keeps.promises (hk : Keeps app I Q) : Promises app I Q where
  toUnheard := hk.toUnheard
  call step hs o ty ho ins out s h hi hq :=
    have ⟨h1, h2⟩ := hk.call step hs o ty ho ins out s h hi hq
    ⟨h1, fun _ => h2, fun _ => hk.cleared _ _ h2⟩
  simCall sim hsim step hs o ty ho ins out s h hi hq :=
    have ⟨h1, h2⟩ := hk.simCall sim hsim step hs o ty ho ins out s h hi hq
    ⟨h1, fun _ => h2, fun _ _ => hk.cleared _ _ h2⟩

theorem react_next (hf : Forgiving app I) {t : Nat} {e : Err} {w : World σ P} (h : I w.st) :
    (react app.env .process t e w).2 = .next := by
  unfold react
  simp only [hf t e w.st h]

theorem execProcess_sane (hk : Promises app I Q) (hf : Forgiving app I ∨ Keeps app I Q) {step : Step}
    (hs : step ∈ app.plan) {o : Nat} {ty : String}
    (ho : step.output = some (o, ty)) {ins : List (Msg P)}
    (hi : Pointwise (fun (i : Nat × String) m => Q i.1 m) step.inputs ins) {out : Msg P} (hq : Q o out) (doit : Bool)
    {w : World σ P} (h : Sane app I n Q w) :
    Sane app I n Q (execProcess app.env step ins out doit w).1 ∧ Q o (execProcess app.env step ins out doit w).2.1 := by
  have h0 := h.st (hk.now w.st h.1)
  have q0 := (hk.times o out (app.env.now w.st).2 hq).1
  have key : ∀ (w1 : World σ P) (m : Msg P) (e : Option Err), Sane app I n Q w1 →
      ((e = none → Q o m) ∧ (e ≠ none → Q o m.clearPayload) ∧ (Keeps app I Q → Q o m)) →
      let r := (match e with
        | none => (World.emit { w1 with st := (app.env.now w1.st).1 } (app.env.now w1.st).1
            (.left step.nodeId (m.setStop (app.env.now w1.st).2)), m.setStop (app.env.now w1.st).2, Flow.next)
        | some e =>
          match react app.env .process step.nodeId e { w1 with st := (app.env.now w1.st).1 } with
          | (w, .next) => (w.emit w.st (.left step.nodeId (m.setStop (app.env.now w1.st).2).clearPayload),
              (m.setStop (app.env.now w1.st).2).clearPayload, .next)
          | (w, f) => (w, m.setStop (app.env.now w1.st).2, f) : World σ P × Msg P × Flow)
      Sane app I n Q r.1 ∧ Q o r.2.1 := by
    intro w1 m e hw ⟨m1, m2, m3⟩
    have h1 := hw.st (hk.now w1.st hw.1)
    cases e with
    | none =>
      have q1 := (hk.times o m (app.env.now w1.st).2 (m1 rfl)).2
      exact ⟨h1.emit h1.1 ⟨step, hs, rfl, o, ty, ho, q1⟩, q1⟩
    | some e =>
      have q1 : Q o (m.setStop (app.env.now w1.st).2).clearPayload :=
        (hk.times o m.clearPayload (app.env.now w1.st).2 (m2 (by simp))).2
      have h2 := react_sane hk.toUnheard (ph := .process) (t := step.nodeId) (e := e) h1
      have h3 := fun hf => react_next (app := app) hf (t := step.nodeId) (e := e) h1.1
      have q2 := fun h => (hk.times o m (app.env.now w1.st).2 (m3 h)).2
      simp only
      generalize react app.env .process step.nodeId e { w1 with st := (app.env.now w1.st).1 } = r at h2 h3 ⊢
      obtain ⟨w2, f⟩ := r
      cases f with
      | next => exact ⟨h2.emit h2.1 ⟨step, hs, rfl, o, ty, ho, q1⟩, q1⟩
      | abort => exact ⟨h2, hf.elim (fun hf => nomatch h3 hf) q2⟩
      | shutdown e => exact ⟨h2, hf.elim (fun hf => nomatch h3 hf) q2⟩
  cases doit with
  | false => exact key _ _ none h0 ⟨fun _ => q0, fun h => absurd rfl h, fun _ => q0⟩
  | true =>
    obtain ⟨i1, q1, q2⟩ := hk.call step hs o ty ho ins _ _ h0.1 hi q0
    exact key _ _ _ (h0.emit i1 ⟨step, hs, rfl, hi⟩)
      ⟨q1, q2, fun hk => (hk.call step hs o ty ho ins _ _ h0.1 hi q0).2⟩

theorem processStep_sane (hk : Promises app I Q) (hf : Forgiving app I ∨ Keeps app I Q) {step : Step}
    (hs : step ∈ app.plan) {o : Nat} {ty : String}
    (ho : step.output = some (o, ty)) {ins : List (Msg P)}
    (hi : Pointwise (fun (i : Nat × String) m => Q i.1 m) step.inputs ins) {out : Msg P} (hq : Q o out)
    {w : World σ P} (h : Sane app I n Q w) :
    Sane app I n Q (processStep app.env step ins out w).1 ∧ Q o (processStep app.env step ins out w).2.1 := by
  unfold processStep
  split
  · exact execProcess_sane hk hf hs ho hi hq true h
  · rename_i sim hsim
    obtain ⟨i1, q1, q2⟩ := hk.simCall sim hsim step hs o ty ho ins out w.st h.1 hi hq
    have h1 := h.emit i1 (ev := .asked .process step.nodeId ins (sim.process step.nodeId ins out w.st).2.2)
      ⟨step, hs, rfl, hi⟩
    simp only
    split
    · rename_i e he
      have h2 := react_sane hk.toUnheard (ph := .process) (t := step.nodeId) (e := e) h1
      have h3 := fun hf => react_next (app := app) hf (t := step.nodeId) (e := e) h1.1
      have q3 := fun hk : Keeps app I Q => (hk.simCall sim hsim step hs o ty ho ins out w.st h.1 hi hq).2
      generalize react app.env .process step.nodeId e _ = r at h2 h3 ⊢
      obtain ⟨w2, f⟩ := r
      cases f with
      | next => exact execProcess_sane hk hf hs ho hi (q2 e he) false h2
      | abort => exact ⟨h2, hf.elim (fun hf => nomatch h3 hf) q3⟩
      | shutdown e => exact ⟨h2, hf.elim (fun hf => nomatch h3 hf) q3⟩
    · rename_i he
      exact execProcess_sane hk hf hs ho hi (q1 (by rw [he]; simp)) false h1
    · rename_i he
      exact execProcess_sane hk hf hs ho hi (q1 (by rw [he]; simp)) true h1

theorem holds_set {msgs : List (Msg P)} (h : Holds n Q msgs) {o : Nat} {m : Msg P} (hm : Q o m) :
    Holds n Q (msgs.set o m) := by
  refine ⟨by rw [List.length_set, h.1], fun i x hx => ?_⟩
  rw [List.getElem?_set] at hx
  split at hx
  · rename_i hio
    subst hio
    split at hx
    · cases hx; exact hm
    · cases hx
  · exact h.2 i x hx

theorem planLoop_sane (hk : Promises app I Q) (hf : Forgiving app I ∨ Keeps app I Q) {steps : List Step} (hs : ∀ s ∈ steps, s ∈ app.plan) {w w' : World σ P}
    (h : Sane app I n Q w) {msgs msgs' : List (Msg P)} (hm : Holds n Q msgs) {f : Flow}
    (hp : planLoop app.env steps w msgs = .ok (w', msgs', f)) : Sane app I n Q w' ∧ Holds n Q msgs' := by
  induction steps generalizing w msgs with
  | nil =>
    simp only [planLoop, Rs.ok.injEq, Prod.mk.injEq] at hp
    obtain ⟨rfl, rfl, -⟩ := hp
    exact ⟨h, hm⟩
  | cons step steps ih =>
    unfold planLoop at hp
    split at hp
    · cases hp
    · rename_i o ty ho
      split at hp
      · rename_i ins out hins hout
        have hi : Pointwise (fun (i : Nat × String) m => Q i.1 m) step.inputs ins :=
          forall₂_imp (mapRs_forall₂ hins) fun i _ m hx => by
            cases hmi : msgs[i.1]? with
            | none => rw [hmi] at hx; cases hx
            | some y => rw [hmi] at hx; cases hx; exact hm.2 _ _ hmi
        obtain ⟨h1, q1⟩ := processStep_sane hk hf (hs step (by simp)) ho hi (hm.2 _ _ hout) h
        generalize processStep app.env step ins out w = r at hp h1 q1
        obtain ⟨w1, o1, f1⟩ := r
        cases f1 with
        | next => exact ih (fun s hx => hs s (by simp [hx])) h1 (holds_set hm q1) hp
        | abort =>
          simp only [Rs.ok.injEq, Prod.mk.injEq] at hp
          obtain ⟨rfl, rfl, -⟩ := hp
          exact ⟨h1, holds_set hm q1⟩
        | shutdown e =>
          simp only [Rs.ok.injEq, Prod.mk.injEq] at hp
          obtain ⟨rfl, rfl, -⟩ := hp
          exact ⟨h1, holds_set hm q1⟩
      · cases hp

/-- The lists of the pool. -/
def PoolHolds (n : Nat) (Q : Nat → Msg P → Prop) (l : List (CL (List (Msg P)))) : Prop := ∀ cl ∈ l, Holds n Q cl.msgs

theorem eopVisit_sane (hk : Unheard app I Q) {id : UInt32} {w w' : World σ P} {top top' : Bool} {nb nb' : Nat}
    {c c' : CL (List (Msg P))} (h : Sane app I n Q w) (hc : Holds n Q c.msgs)
    (hv : eopVisit (tracedLog app.env.log) id w top nb c = .ok (w', top', nb', c')) :
    Sane app I n Q w' ∧ Holds n Q c'.msgs := by
  unfold eopVisit at hv
  simp only at hv
  have hy : Holds n Q (if c.id = id ∧ c.state = CLState.processing then
      ({ c with state := .doneProcessing } : CL (List (Msg P))) else c).msgs := by
    split <;> exact hc
  generalize (if c.id = id ∧ c.state = CLState.processing then
    ({ c with state := .doneProcessing } : CL (List (Msg P))) else c) = y at hv hy
  split at hv
  · cases hlog : app.env.log with
    | none =>
      rw [hlog] at hv
      simp only [tracedLog, Option.map_none, Rs.ok.injEq, Prod.mk.injEq] at hv
      obtain ⟨rfl, -, -, rfl⟩ := hv
      exact ⟨h, hy⟩
    | some f0 =>
      rw [hlog] at hv
      simp only [tracedLog, Option.map_some] at hv
      cases hf : f0 w.st { y with state := .beingSerialized } with
      | panic => rw [hf] at hv; cases hv
      | ok s' =>
        rw [hf] at hv
        simp only [Rs.ok.injEq, Prod.mk.injEq] at hv
        obtain ⟨rfl, -, -, rfl⟩ := hv
        exact ⟨h.emit (hk.log f0 hlog _ _ _ h.1 hf) hy, hy⟩
  · simp only [Rs.ok.injEq, Prod.mk.injEq] at hv
    obtain ⟨rfl, -, -, rfl⟩ := hv
    exact ⟨h, hy⟩

theorem eopLoop_sane (hk : Unheard app I Q) {id : UInt32} {w w' : World σ P} {top : Bool} {nb nb' : Nat}
    {l l' : List (CL (List (Msg P)))} (h : Sane app I n Q w) (hl : PoolHolds n Q l)
    (hv : eopLoop (tracedLog app.env.log) id w top nb l = .ok (w', nb', l')) : Sane app I n Q w' ∧ PoolHolds n Q l' := by
  induction l generalizing w top nb nb' l' with
  | nil =>
    simp only [eopLoop, Rs.ok.injEq, Prod.mk.injEq] at hv
    obtain ⟨rfl, -, rfl⟩ := hv
    exact ⟨h, hl⟩
  | cons c l ih =>
    unfold eopLoop at hv
    cases hx : eopVisit (tracedLog app.env.log) id w top nb c with
    | panic => rw [hx] at hv; cases hv
    | ok r =>
      obtain ⟨w1, top1, nb1, c1⟩ := r
      rw [hx] at hv
      simp only at hv
      obtain ⟨h1, hc1⟩ := eopVisit_sane hk h (hl c (by simp)) hx
      cases hy : eopLoop (tracedLog app.env.log) id w1 top1 nb1 l with
      | panic => rw [hy] at hv; cases hv
      | ok r =>
        obtain ⟨w2, nb2, l2⟩ := r
        rw [hy] at hv
        simp only [Rs.ok.injEq, Prod.mk.injEq] at hv
        obtain ⟨rfl, -, rfl⟩ := hv
        obtain ⟨h2, hl2⟩ := ih h1 (fun x hx => hl x (by simp [hx])) hy
        refine ⟨h2, fun x hx => ?_⟩
        rcases List.mem_cons.1 hx with rfl | hx
        · exact hc1
        · exact hl2 x hx

theorem popN_data {k : Nat} {m m' : Manager (List (Msg P))} (h : Manager.popN k m = .ok m') : m'.data = m.data := by
  induction k generalizing m with
  | zero => simp only [Manager.popN, Rs.ok.injEq] at h; rw [← h]
  | succ k ih =>
    unfold Manager.popN at h
    cases hp : m.pop with
    | panic => rw [hp] at h; cases h
    | ok r =>
      obtain ⟨m1, x⟩ := r
      rw [hp] at h
      rw [ih h]
      unfold Manager.pop at hp
      split at hp
      · simp only [Rs.ok.injEq, Prod.mk.injEq] at hp
        rw [hp.1]
      · simp only at hp
        split at hp
        · cases hp
        · simp only [Rs.ok.injEq, Prod.mk.injEq] at hp
          rw [← hp.1]

theorem endOfProcessing_sane (hk : Unheard app I Q) {id : UInt32} {w w' : World σ P} {m m' : Manager (List (Msg P))}
    (h : Sane app I n Q w) (hm : PoolHolds n Q m.data)
    (hv : endOfProcessing (tracedLog app.env.log) w m id = .ok (w', m')) : Sane app I n Q w' ∧ PoolHolds n Q m'.data := by
  unfold endOfProcessing at hv
  split at hv
  · cases hv
  · rename_i visited hvis
    have hvis' : PoolHolds n Q visited := by
      unfold Manager.iterMut splitAt' at hvis
      split at hvis
      · cases hvis
      · rename_i a b hab
        split at hab
        · simp only [Rs.ok.injEq, Prod.mk.injEq] at hab hvis
          obtain ⟨rfl, rfl⟩ := hab
          subst hvis
          intro cl hcl
          refine hm cl ?_
          rcases List.mem_append.1 hcl with hcl | hcl
          · exact List.mem_of_mem_take (List.mem_reverse.1 hcl)
          · exact List.mem_of_mem_drop (List.mem_reverse.1 hcl)
        · cases hab
    split at hv
    · cases hv
    · rename_i w1 nb out hloop
      obtain ⟨h1, ho⟩ := eopLoop_sane hk h hvis' hloop
      simp only at hv
      split at hv
      · cases hv
      · rename_i m1 hpop
        simp only [Rs.ok.injEq, Prod.mk.injEq] at hv
        obtain ⟨rfl, rfl⟩ := hv
        refine ⟨h1, fun cl hcl => ho cl ?_⟩
        rw [popN_data hpop] at hcl
        simp only at hcl
        rcases List.mem_append.1 hcl with hcl | hcl
        · exact List.mem_of_mem_take (List.mem_reverse.1 hcl)
        · exact List.mem_of_mem_drop (List.mem_reverse.1 hcl)

/-- The runtime. -/
def Sound (app : App σ P) (I : σ → Prop) (n : Nat) (Q : Nat → Msg P → Prop) (rt : Rt σ P) : Prop :=
  Sane app I n Q rt.w ∧ PoolHolds n Q rt.mgr.data

theorem finishList_sound (hk : Unheard app I Q) {id : UInt32} {msgs : List (Msg P)} {rt rt' : Rt σ P} {r : Option Err}
    (h : Sound app I n Q rt) (hf : finishList app id msgs rt = .ok (rt', r)) : Sound app I n Q rt' := by
  unfold finishList at hf
  split at hf
  · cases hf
  · rename_i md hmd
    have h1 := h.1.emit (hk.monCL md rt.w.st h.1.1) (ev := .monitored md (app.env.monCL md rt.w.st).2) trivial
    simp only at hf
    split at hf
    · simp only [Rs.ok.injEq, Prod.mk.injEq] at hf
      obtain ⟨rfl, -⟩ := hf
      exact ⟨h1, h.2⟩
    · split at hf
      · cases hf
      · rename_i w m heop
        simp only [Rs.ok.injEq, Prod.mk.injEq] at hf
        obtain ⟨rfl, -⟩ := hf
        exact endOfProcessing_sane hk h1 h.2 heop

/-- An iteration. -/
theorem iteration_sound (hk : Promises app I Q) (hf : Forgiving app I ∨ Keeps app I Q) {rt rt' : Rt σ P} {r : Option Err} (h : Sound app I n Q rt)
    (hi : runOneIteration app rt = .ok (rt', r)) : Sound app I n Q rt' := by
  have h1 := lifeAll_sane hk.toUnheard (ph := .preprocess) (by decide) (List.range app.tasks) h.1
  unfold runOneIteration at hi
  generalize lifeAll app.env .preprocess (List.range app.tasks) rt.w = q at hi h1
  obtain ⟨w1, f⟩ := q
  cases f with
  | abort =>
    simp only [Rs.ok.injEq, Prod.mk.injEq] at hi
    obtain ⟨rfl, -⟩ := hi
    exact ⟨h1, h.2⟩
  | shutdown e =>
    simp only [Rs.ok.injEq, Prod.mk.injEq] at hi
    obtain ⟨rfl, -⟩ := hi
    exact ⟨h1, h.2⟩
  | next =>
    simp only at hi
    split at hi
    · cases hi
    · cases hi
    · rename_i mgr slot hcr
      have hm : PoolHolds n Q mgr.data := by
        unfold Manager.create at hcr
        split at hcr
        · simp at hcr
        · split at hcr
          · cases hcr
          · rename_i old hold
            split at hcr
            · cases hcr
            · simp only [Rs.ok.injEq, Prod.mk.injEq, Option.some.injEq] at hcr
              obtain ⟨rfl, -⟩ := hcr
              intro cl hcl
              rcases List.mem_or_eq_of_mem_set hcl with hcl | rfl
              · exact h.2 cl hcl
              · exact h.2 old (List.mem_of_getElem? hold)
      split at hi
      · cases hi
      · rename_i cl hcl
        split at hi
        · cases hi
        · rename_i w2 msgs flow hpl
          obtain ⟨h2, q2⟩ := planLoop_sane hk hf (fun s hs => hs) (h1.emit h1.1 (ev := .created cl.id) trivial)
            (hm cl (List.mem_of_getElem? hcl)) hpl
          have hs2 : Sound app I n Q ⟨w2, mgr.write slot (fun c => { c with state := .processing, msgs := msgs })⟩ := by
            refine ⟨h2, fun c hc => ?_⟩
            obtain ⟨i, hi⟩ := List.mem_iff_getElem?.1 hc
            simp only [Manager.write, List.getElem?_modify] at hi
            cases hd : mgr.data[i]? with
            | none => rw [hd] at hi; cases hi
            | some y =>
              rw [hd] at hi
              simp only [Option.map_eq_map, Option.map_some, Option.some.injEq] at hi
              split at hi
              · subst hi; exact q2
              · subst hi; exact hm y (List.mem_of_getElem? hd)
          split at hi
          · simp only [Rs.ok.injEq, Prod.mk.injEq] at hi
            obtain ⟨rfl, -⟩ := hi
            exact hs2
          · exact finishList_sound hk.toUnheard hs2 hi
          · split at hi
            · cases hi
            · split at hi
              · cases hi
              · split at hi
                · cases hi
                · rename_i rt1 e hfn
                  simp only [Rs.ok.injEq, Prod.mk.injEq] at hi
                  obtain ⟨rfl, -⟩ := hi
                  exact finishList_sound hk.toUnheard hs2 hfn
                · rename_i rt1 hfn
                  have hs3 := finishList_sound hk.toUnheard hs2 hfn
                  have h4 := lifeAll_sane hk.toUnheard (ph := .postprocess) (by decide) (List.range app.tasks) hs3.1
                  generalize lifeAll app.env .postprocess (List.range app.tasks) rt1.w = q at hi h4
                  obtain ⟨w4, f⟩ := q
                  cases f <;>
                  · simp only [Rs.ok.injEq, Prod.mk.injEq] at hi
                    obtain ⟨rfl, -⟩ := hi
                    exact ⟨h4, hs3.2⟩

theorem start_sound (hk : Unheard app I Q) {rt : Rt σ P} (h : Sound app I n Q rt) : Sound app I n Q (startAll app rt).1 := by
  have h1 := lifeAll_sane hk (ph := .start) (by decide) (List.range app.tasks) h.1
  unfold startAll
  generalize lifeAll app.env .start (List.range app.tasks) rt.w = q at h1
  obtain ⟨w1, f⟩ := q
  cases f with
  | abort => exact ⟨h1, h.2⟩
  | shutdown e => exact ⟨h1, h.2⟩
  | next => exact ⟨h1.emit (hk.monStart w1.st h1.1) trivial, h.2⟩

theorem stop_sound (hk : Unheard app I Q) {rt : Rt σ P} (h : Sound app I n Q rt) : Sound app I n Q (stopAll app rt).1 := by
  have h1 := lifeAll_sane hk (ph := .stop) (by decide) (List.range app.tasks) h.1
  unfold stopAll
  generalize lifeAll app.env .stop (List.range app.tasks) rt.w = q at h1
  obtain ⟨w1, f⟩ := q
  cases f with
  | abort => exact ⟨h1, h.2⟩
  | shutdown e => exact ⟨h1, h.2⟩
  | next => exact ⟨h1.emit (hk.monStop w1.st h1.1) trivial, h.2⟩

theorem runLoop_sound (hk : Promises app I Q) (hf : Forgiving app I ∨ Keeps app I Q) {k : Nat} {rt rt' : Rt σ P} {r : Option Err} (h : Sound app I n Q rt)
    (hi : runLoop app k rt = .ok (rt', r)) : Sound app I n Q rt' := by
  induction k generalizing rt with
  | zero =>
    simp only [runLoop, Rs.ok.injEq, Prod.mk.injEq] at hi
    obtain ⟨rfl, -⟩ := hi
    exact h
  | succ k ih =>
    unfold runLoop at hi
    cases h1 : runOneIteration app rt with
    | panic => rw [h1] at hi; cases hi
    | ok q =>
      obtain ⟨rt1, e⟩ := q
      rw [h1] at hi
      have hs := iteration_sound hk hf h h1
      cases e with
      | none => exact ih hs hi
      | some e =>
        simp only [Rs.ok.injEq, Prod.mk.injEq] at hi
        obtain ⟨rfl, -⟩ := hi
        exact hs

theorem run_sound (hk : Promises app I Q) (hf : Forgiving app I ∨ Keeps app I Q) {k : Nat} {rt rt' : Rt σ P} {r : RunResult} (h : Sound app I n Q rt)
    (hr : run app k rt = .ok (rt', r)) : Sound app I n Q rt' := by
  have hs := start_sound hk.toUnheard h
  unfold run at hr
  generalize startAll app rt = q at hr hs
  obtain ⟨rt1, _ | e⟩ := q
  · simp only at hr
    cases hl : runLoop app k rt1 with
    | panic => rw [hl] at hr; cases hr
    | ok q =>
      obtain ⟨rt2, _ | e⟩ := q
      · rw [hl] at hr
        simp only [Rs.ok.injEq, Prod.mk.injEq] at hr
        obtain ⟨rfl, -⟩ := hr
        exact runLoop_sound hk hf hs hl
      · rw [hl] at hr
        have h3 := stop_sound hk.toUnheard (runLoop_sound hk hf hs hl)
        simp only at hr
        generalize stopAll app rt2 = q at hr h3
        obtain ⟨rt3, _ | e⟩ := q <;>
        · simp only [Rs.ok.injEq, Prod.mk.injEq] at hr
          obtain ⟨rfl, -⟩ := hr
          exact h3
  · simp only [Rs.ok.injEq, Prod.mk.injEq] at hr
    obtain ⟨rfl, -⟩ := hr
    exact hs

theorem logged_holds {w : World σ P} (h : Sane app I n Q w) {cl : CL (List (Msg P))} (hcl : cl ∈ loggedLists w.trace) :
    Holds n Q cl.msgs := by
  unfold loggedLists at hcl
  obtain ⟨ev, hev, he⟩ := List.mem_filterMap.1 hcl
  have := h.2 ev hev
  cases ev <;> simp only [Option.some.injEq, reduceCtorEq] at he
  rw [← he]
  exact this

end
end Runtime
end Verif
