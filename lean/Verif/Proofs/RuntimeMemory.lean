import Verif.Proofs.RuntimeFlow
/-! An iteration does not read what earlier iterations left in its copper list (C21). -/
namespace Verif
namespace Runtime
open Planner CopperList Clock
variable {σ P : Type}

@[simp] theorem processCalls_append (a b : List (Ev P)) :
    processCalls (a ++ b) = processCalls a ++ processCalls b := by simp [processCalls]
@[simp] theorem processCalls_nil : processCalls ([] : List (Ev P)) = [] := rfl

theorem processCalls_of_reads {c : List (Ev P)} (h : ∀ ev ∈ c, ev.reads = none) :
    processCalls c = [] := by
  unfold processCalls
  rw [List.filterMap_eq_nil_iff]
  intro ev hev
  have := h ev hev
  cases ev with
  | called ph tid ins r => cases ph <;> simp_all [Ev.reads]
  | _ => rfl

/-- Same state; the first extends `w` and the second `w'` by chunks with the same process calls. -/
structure Twin (w w' v v' : World σ P) : Prop where
  st : v.st = v'.st
  ext : ∃ c c', v.trace = w.trace ++ c ∧ v'.trace = w'.trace ++ c' ∧ processCalls c = processCalls c'

theorem Twin.refl {w w' : World σ P} (h : w.st = w'.st) : Twin w w' w w' :=
  ⟨h, [], [], by simp, by simp, rfl⟩

theorem Twin.trans {w w' v v' u u' : World σ P} (h : Twin w w' v v') (h2 : Twin v v' u u') :
    Twin w w' u u' := by
  obtain ⟨c, c', h3, h4, h5⟩ := h.ext
  obtain ⟨d, d', h6, h7, h8⟩ := h2.ext
  exact ⟨h2.st, c ++ d, c' ++ d', by rw [h6, h3]; simp, by rw [h7, h4]; simp, by simp [h5, h8]⟩

theorem Twin.emit {w w' v v' : World σ P} (h : Twin w w' v v') (s : σ) (e e' : Ev P)
    (he : processCalls [e] = processCalls [e']) : Twin w w' (v.emit s e) (v'.emit s e') := by
  obtain ⟨c, c', h3, h4, h5⟩ := h.ext
  exact ⟨rfl, c ++ [e], c' ++ [e'], by simp [World.emit, h3], by simp [World.emit, h4], by
    rw [processCalls_append, processCalls_append, h5, he]⟩

theorem Twin.st' {w w' v v' : World σ P} (h : Twin w w' v v') (s : σ) :
    Twin w w' { v with st := s } { v' with st := s } := ⟨rfl, h.ext⟩

theorem react_twin (env : Env σ P) (ph : Phase) (tid : Nat) (e : Err) {w w' v v' : World σ P}
    (h : Twin w w' v v') :
    Twin w w' (react env ph tid e v).1 (react env ph tid e v').1 ∧
      (react env ph tid e v).2 = (react env ph tid e v').2 := by
  unfold react
  simp only [h.st]
  exact ⟨h.emit _ _ _ rfl, trivial⟩

theorem lifeCall_twin (env : Env σ P) (ph : Phase) (tid : Nat) {w w' v v' : World σ P}
    (h : Twin w w' v v') :
    Twin w w' (lifeCall env ph tid v).1 (lifeCall env ph tid v').1 ∧
      (lifeCall env ph tid v).2 = (lifeCall env ph tid v').2 := by
  unfold lifeCall
  simp only [h.st]
  have h2 := h.emit (env.life ph tid v'.st).1 (.called ph tid [] (env.life ph tid v'.st).2) _ rfl
  cases hr : (env.life ph tid v'.st).2 with
  | none => rw [hr] at h2; exact ⟨h2, rfl⟩
  | some e => rw [hr] at h2; exact react_twin env ph tid e h2

theorem lifeAll_twin (env : Env σ P) (hs : env.sim = none) (ph : Phase) (ts : List Nat)
    {w w' v v' : World σ P} (h : Twin w w' v v') :
    Twin w w' (lifeAll env ph ts v).1 (lifeAll env ph ts v').1 ∧
      (lifeAll env ph ts v).2 = (lifeAll env ph ts v').2 := by
  induction ts generalizing v v' with
  | nil => exact ⟨h, rfl⟩
  | cons t ts ih =>
    have h1 : ∀ v : World σ P, lifeStep env ph t v = lifeCall env ph t v := by
      intro v; unfold lifeStep; rw [hs]
    obtain ⟨h2, h3⟩ := lifeCall_twin env ph t h
    unfold lifeAll
    rw [h1, h1]
    generalize lifeCall env ph t v = a at h2 h3
    generalize lifeCall env ph t v' = b at h2 h3
    obtain ⟨a, f⟩ := a
    obtain ⟨b, f'⟩ := b
    simp only at h3
    subst h3
    cases f with
    | next => exact ih h2
    | abort => exact ⟨h2, rfl⟩
    | shutdown e => exact ⟨h2, rfl⟩

theorem execProcess_twin (env : Env σ P) (hf : SetsOutput env) (step : Step) (ins : List (Msg P))
    (out out' : Msg P) {w w' v v' : World σ P} (h : Twin w w' v v') :
    Twin w w' (execProcess env step ins out true v).1 (execProcess env step ins out' true v').1 ∧
      (execProcess env step ins out true v).2.2 = (execProcess env step ins out' true v').2.2 ∧
      (step.taskType ≠ .sink → (execProcess env step ins out true v).2.1 =
        (execProcess env step ins out' true v').2.1) := by
  have hc : ∀ (t : CuTime) (s : σ),
      (callProcess env step ins (out.setStart t) s).1 = (callProcess env step ins (out'.setStart t) s).1 ∧
      (callProcess env step ins (out.setStart t) s).2.2 =
        (callProcess env step ins (out'.setStart t) s).2.2 ∧
      (step.taskType ≠ .sink → ∀ u, (callProcess env step ins (out.setStart t) s).2.1.setStop u =
        (callProcess env step ins (out'.setStart t) s).2.1.setStop u) := by
    intro t s
    unfold callProcess
    cases step.taskType with
    | source =>
      obtain ⟨h1, h2, h3⟩ := hf.source step.nodeId (out.setStart t) (out'.setStart t) s rfl
      exact ⟨h1, h2, fun _ => h3⟩
    | regular =>
      obtain ⟨h1, h2, h3⟩ := hf.regular step.nodeId ins (out.setStart t) (out'.setStart t) s rfl
      exact ⟨h1, h2, fun _ => h3⟩
    | sink => exact ⟨rfl, rfl, fun h => absurd rfl h⟩
  unfold execProcess
  simp only [if_true, h.st]
  obtain ⟨h1, h2, h3⟩ := hc (env.now v'.st).2 (env.now v'.st).1
  generalize callProcess env step ins (out.setStart (env.now v'.st).2) (env.now v'.st).1 = a at h1 h2 h3
  generalize callProcess env step ins (out'.setStart (env.now v'.st).2) (env.now v'.st).1 = b at h1 h2 h3
  obtain ⟨s, m, r⟩ := a
  obtain ⟨s', m', r'⟩ := b
  simp only at h1 h2 h3
  subst h1 h2
  have ht := ((h.st' (env.now v'.st).1).emit s (.called .process step.nodeId ins r) _ rfl).st'
    (env.now s).1
  cases r with
  | none => exact ⟨ht.emit _ _ _ rfl, rfl, fun hs => h3 hs _⟩
  | some e =>
    obtain ⟨h4, h5⟩ := react_twin env .process step.nodeId e ht
    simp only [World.emit] at h4 h5 ⊢
    generalize react env .process step.nodeId e _ = a at h4 h5 ⊢
    generalize react env .process step.nodeId e _ = b at h4 h5 ⊢
    obtain ⟨a, f⟩ := a
    obtain ⟨b, f'⟩ := b
    simp only at h5 h4
    subst h5
    cases f with
    | next =>
      have h6 := h4.emit a.st
        (.left step.nodeId (Msg.clearPayload (m.setStop (env.now s).2)))
        (.left step.nodeId (Msg.clearPayload (m'.setStop (env.now s).2))) rfl
      simp only
      refine ⟨?_, trivial, fun hs => by rw [h3 hs]⟩
      have hst := h4.st
      simp only [World.emit, hst] at h6 ⊢
      exact h6
    | abort => exact ⟨h4, rfl, fun hs => h3 hs _⟩
    | shutdown e => exact ⟨h4, rfl, fun hs => h3 hs _⟩

theorem mapRs_congr {α β : Type} {f g : α → Rs β} {l : List α} (h : ∀ a ∈ l, f a = g a) :
    mapRs f l = mapRs g l := by
  induction l with
  | nil => rfl
  | cons a l ih =>
    unfold mapRs
    rw [h a (by simp), ih (fun b hb => h b (by simp [hb]))]

/-- Outcome of two runs of the process steps. -/
def TwinOut (w w' : World σ P) :
    Rs (World σ P × List (Msg P) × Flow) → Rs (World σ P × List (Msg P) × Flow) → Prop
  | .ok (v, _, f), .ok (v', _, f') => Twin w w' v v' ∧ f = f'
  | .panic, .panic => True
  | _, _ => False

theorem planLoop_twin (env : Env σ P) (hs : env.sim = none) (hf : SetsOutput env) (plan : List Step)
    (hw : Wired plan)
    (hns : ∀ (k : Nat) (s : Step), plan[k]? = some s → ∀ i ∈ s.inputs, ∀ p : Step, plan[i.1]? = some p →
      p.taskType ≠ .sink)
    (steps : List Step) : ∀ (k : Nat) (msgs msgs' : List (Msg P)) (w w' v v' : World σ P),
      steps = plan.drop k → msgs.length = msgs'.length →
      (∀ (j : Nat) (s : Step), j < k → plan[j]? = some s → s.taskType ≠ .sink → msgs[j]? = msgs'[j]?) →
      Twin w w' v v' → TwinOut w w' (planLoop env steps v msgs) (planLoop env steps v' msgs') := by
  induction steps with
  | nil => intro k msgs msgs' w w' v v' _ _ _ h; exact ⟨h, rfl⟩
  | cons step steps ih =>
    intro k msgs msgs' w w' v v' hst hlen hag h
    have hk1 : k < plan.length := by
      by_cases hk1 : k < plan.length
      · exact hk1
      · rw [List.drop_eq_nil_iff.2 (by omega)] at hst; cases hst
    rw [List.drop_eq_getElem_cons hk1] at hst
    simp only [List.cons.injEq] at hst
    obtain ⟨rfl, hst'⟩ := hst
    have hst : plan[k]? = some plan[k] := List.getElem?_eq_getElem hk1
    obtain ⟨ty, ho⟩ := hw.own k _ hst
    have hin : mapRs (fun i => Rs.ofOption msgs[i.1]?) plan[k].inputs =
        mapRs (fun i => Rs.ofOption msgs'[i.1]?) plan[k].inputs := by
      apply mapRs_congr
      intro i hi
      have hlt := hw.back k _ hst i hi
      have hp : plan[i.1]? = some plan[i.1] := List.getElem?_eq_getElem (by omega)
      rw [hag i.1 _ hlt hp (hns k _ hst i hi _ hp)]
    unfold planLoop
    rw [ho]
    simp only
    rw [hin]
    cases hi : mapRs (fun i => Rs.ofOption msgs'[i.1]?) plan[k].inputs with
    | panic => simp [TwinOut]
    | ok ins =>
      by_cases hkl : k < msgs.length
      · rw [List.getElem?_eq_getElem hkl, List.getElem?_eq_getElem (by omega : k < msgs'.length)]
        simp only
        have hp : ∀ (o : Msg P) (x : World σ P), processStep env plan[k] ins o x =
            execProcess env plan[k] ins o true x := by
          intro o x; unfold processStep; rw [hs]
        rw [hp, hp]
        obtain ⟨h1, h2, h3⟩ := execProcess_twin env hf plan[k] ins msgs[k] msgs'[k] h
        generalize execProcess env plan[k] ins msgs[k] true v = a at h1 h2 h3
        generalize execProcess env plan[k] ins msgs'[k] true v' = b at h1 h2 h3
        obtain ⟨a, o, f⟩ := a
        obtain ⟨b, o', f'⟩ := b
        simp only at h1 h2 h3
        subst h2
        cases f with
        | next =>
          simp only
          refine ih (k + 1) _ _ w w' a b hst' (by simp [hlen]) ?_ h1
          intro j s hj hjs hns'
          by_cases hjk : j = k
          · subst hjk
            rw [hst] at hjs
            cases hjs
            rw [h3 hns']
            simp [hkl, (by omega : j < msgs'.length)]
          · rw [List.getElem?_set_ne (by omega), List.getElem?_set_ne (by omega)]
            exact hag j s (by omega) hjs hns'
        | abort => exact ⟨h1, rfl⟩
        | shutdown e => exact ⟨h1, rfl⟩
      · rw [List.getElem?_eq_none (by omega), List.getElem?_eq_none (by omega : msgs'.length ≤ k)]
        simp [TwinOut]

theorem pointwise_get {α β : Type} {R : α → β → Prop} {l : List α} {r : List β} (h : Pointwise R l r)
    (i : Nat) : (∃ a b, l[i]? = some a ∧ r[i]? = some b ∧ R a b) ∨ (l[i]? = none ∧ r[i]? = none) := by
  induction h generalizing i with
  | nil => right; simp
  | cons h _ ih =>
    cases i with
    | zero => exact .inl ⟨_, _, rfl, rfl, h⟩
    | succ i => simpa using ih i

theorem pointwise_length {α β : Type} {R : α → β → Prop} {l : List α} {r : List β}
    (h : Pointwise R l r) : l.length = r.length := by
  induction h with
  | nil => rfl
  | cons _ _ ih => simp [ih]

/-- What `create` returns on two pools that differ in message contents only. -/
theorem create_same {o : Overflow} {m m' : Manager (List (Msg P))} (h : SameButMessages m m')
    {n n' : Manager (List (Msg P))} {slot slot' : Nat} (h1 : m.create o = .ok (n, some slot))
    (h2 : m'.create o = .ok (n', some slot')) :
    slot = slot' ∧ ∃ c c', n.data[slot]? = some c ∧ n'.data[slot']? = some c' ∧ c.id = c'.id ∧
      c.msgs.length = c'.msgs.length := by
  have hlen := pointwise_length h.data
  unfold Manager.create at h1 h2
  split at h1
  · cases h1
  split at h2
  · cases h2
  rw [← h.insertion] at h2
  rcases pointwise_get h.data m.insertionIndex with ⟨a, b, ha, hb, hid, _, hml⟩ | ⟨ha, hb⟩
  · rw [ha] at h1
    rw [hb] at h2
    simp only at h1 h2
    split at h1
    · cases h1
    split at h2
    · cases h2
    simp only [Rs.ok.injEq, Prod.mk.injEq, Option.some.injEq] at h1 h2
    obtain ⟨rfl, rfl⟩ := h1
    obtain ⟨rfl, rfl⟩ := h2
    have hl : m.insertionIndex < m.data.length := by
      by_cases hl : m.insertionIndex < m.data.length
      · exact hl
      · rw [List.getElem?_eq_none (by omega)] at ha; cases ha
    refine ⟨rfl, { a with id := m.currentClId }, { b with id := m'.currentClId }, ?_, ?_, ?_, ?_⟩
    · simp [hl]
    · simp [← hlen, hl]
    · exact h.nextId
    · exact hml
  · rw [ha] at h1; cases h1

/-- The process calls of an iteration are those of its process steps. -/
theorem iteration_processCalls (app : App σ P) (rt : Rt σ P) {rt' : Rt σ P} {r : Option Err}
    (h : runOneIteration app rt = .ok (rt', r)) :
    (∃ f, (lifeAll app.env .preprocess (List.range app.tasks) rt.w).2 = f ∧ f ≠ .next ∧
      ∃ t, rt'.w.trace = rt.w.trace ++ t ∧ processCalls t = []) ∨
    ((lifeAll app.env .preprocess (List.range app.tasks) rt.w).2 = .next ∧
      ∃ mgr slot cl w2 msgs flow, rt.mgr.create app.overflow = .ok (mgr, some slot) ∧
      mgr.data[slot]? = some cl ∧
      planLoop app.env app.plan ((lifeAll app.env .preprocess (List.range app.tasks) rt.w).1.emit
        (lifeAll app.env .preprocess (List.range app.tasks) rt.w).1.st (.created cl.id)) cl.msgs =
        .ok (w2, msgs, flow) ∧
      ∃ t, rt'.w.trace = w2.trace ++ t ∧ processCalls t = []) := by
  obtain ⟨c, hc1, hc2⟩ := lifeAll_trace app.env .preprocess (List.range app.tasks) rt.w
  unfold runOneIteration at h
  generalize lifeAll app.env .preprocess (List.range app.tasks) rt.w = q at h hc1 hc2
  obtain ⟨w1, f⟩ := q
  cases f with
  | abort =>
    simp only [Rs.ok.injEq, Prod.mk.injEq] at h
    obtain ⟨rfl, rfl⟩ := h
    exact .inl ⟨_, rfl, by simp, c, hc1, processCalls_of_reads (hc2.reads (by simp))⟩
  | shutdown e =>
    simp only [Rs.ok.injEq, Prod.mk.injEq] at h
    obtain ⟨rfl, rfl⟩ := h
    exact .inl ⟨_, rfl, by simp, c, hc1, processCalls_of_reads (hc2.reads (by simp))⟩
  | next =>
    simp only at h
    refine .inr ⟨rfl, ?_⟩
    split at h
    · cases h
    · cases h
    · rename_i mgr slot hcr
      split at h
      · cases h
      · rename_i cl hcl
        split at h
        · cases h
        · rename_i w2 msgs flow hpl
          refine ⟨mgr, slot, cl, w2, msgs, flow, hcr, hcl, hpl, ?_⟩
          cases flow with
          | shutdown e =>
            simp only [Rs.ok.injEq, Prod.mk.injEq] at h
            obtain ⟨rfl, rfl⟩ := h
            exact ⟨[], by simp, rfl⟩
          | abort =>
            simp only at h
            obtain ⟨c3, hf1, hf2⟩ := finishList_trace _ _ _ _ h
            exact ⟨c3, hf1, processCalls_of_reads hf2.reads⟩
          | next =>
            simp only at h
            split at h
            · cases h
            · split at h
              · cases h
              · split at h
                · cases h
                · rename_i rt1 e hfin
                  obtain ⟨c3, hf1, hf2⟩ := finishList_trace _ _ _ _ hfin
                  simp only [Rs.ok.injEq, Prod.mk.injEq] at h
                  obtain ⟨rfl, rfl⟩ := h
                  exact ⟨c3, hf1, processCalls_of_reads hf2.reads⟩
                · rename_i rt1 hfin
                  obtain ⟨c3, hf1, hf2⟩ := finishList_trace _ _ _ _ hfin
                  obtain ⟨c4, hl1, hl2⟩ :=
                    lifeAll_trace app.env .postprocess (List.range app.tasks) rt1.w
                  generalize lifeAll app.env .postprocess (List.range app.tasks) rt1.w = q at h hl1 hl2
                  obtain ⟨w4, f⟩ := q
                  have ht : w4.trace = w2.trace ++ (c3 ++ c4) := by
                    simp only at hl1; rw [hl1, hf1]; simp
                  have hn : processCalls (c3 ++ c4) = [] := by
                    rw [processCalls_append, processCalls_of_reads hf2.reads,
                      processCalls_of_reads (hl2.reads (by simp))]
                    rfl
                  cases f <;>
                  · simp only [Rs.ok.injEq, Prod.mk.injEq] at h
                    obtain ⟨rfl, rfl⟩ := h
                    exact ⟨_, ht, hn⟩

end Runtime
end Verif
