import Verif.Proofs.RuntimeTrace
/-! The shape of the trace of one iteration. -/
namespace Verif
namespace Runtime
open Planner CopperList Clock
variable {σ P : Type}

def Ev.isLogged : Ev P → Bool
  | .logged _ => true
  | _ => false

def errOf : Flow → Option Err
  | .shutdown e => some e
  | _ => none

theorem eopLoop_trace (log : Logger σ (List (Msg P))) (id : UInt32) (w : World σ P) (top : Bool)
    (nb : Nat) (l : List (CL (List (Msg P)))) {w' : World σ P} {nb' : Nat}
    {l' : List (CL (List (Msg P)))}
    (h : eopLoop (tracedLog log) id w top nb l = .ok (w', nb', l')) :
    ∃ c, w'.trace = w.trace ++ c ∧ ∀ ev ∈ c, ev.isLogged = true := by
  induction l generalizing w top nb nb' l' with
  | nil =>
    simp only [eopLoop, Rs.ok.injEq, Prod.mk.injEq] at h
    obtain ⟨rfl, _, _⟩ := h
    exact ⟨[], by simp, by simp⟩
  | cons x l ih =>
    unfold eopLoop at h
    cases hv : eopVisit (tracedLog log) id w top nb x with
    | panic => rw [hv] at h; cases h
    | ok r =>
      obtain ⟨w1, top1, nb1, x1⟩ := r
      rw [hv] at h
      simp only at h
      cases hl : eopLoop (tracedLog log) id w1 top1 nb1 l with
      | panic => rw [hl] at h; cases h
      | ok r =>
        obtain ⟨w2, nb2, l2⟩ := r
        rw [hl] at h
        simp only [Rs.ok.injEq, Prod.mk.injEq] at h
        obtain ⟨rfl, _, _⟩ := h
        obtain ⟨c, h1, h2⟩ := ih w1 top1 nb1 hl
        have hv' : ∃ c', w1.trace = w.trace ++ c' ∧ ∀ ev ∈ c', ev.isLogged = true := by
          unfold eopVisit at hv
          simp only at hv
          generalize (if x.id = id ∧ x.state = CLState.processing then
            ({ x with state := .doneProcessing } : CL (List (Msg P))) else x) = y at hv
          by_cases hc : top = true ∧ y.state = .doneProcessing
          · rw [if_pos hc] at hv
            cases log with
            | none =>
              simp only [tracedLog, Option.map_none, Rs.ok.injEq, Prod.mk.injEq] at hv
              obtain ⟨rfl, _⟩ := hv
              exact ⟨[], by simp, by simp⟩
            | some f0 =>
              simp only [tracedLog, Option.map_some] at hv
              cases hf : f0 w.st { y with state := .beingSerialized } with
              | panic => rw [hf] at hv; cases hv
              | ok s' =>
                rw [hf] at hv
                simp only [Rs.ok.injEq, Prod.mk.injEq] at hv
                obtain ⟨rfl, _⟩ := hv
                exact ⟨_, rfl, by simp [Ev.isLogged]⟩
          · rw [if_neg hc] at hv
            simp only [Rs.ok.injEq, Prod.mk.injEq] at hv
            obtain ⟨rfl, _⟩ := hv
            exact ⟨[], by simp, by simp⟩
        obtain ⟨c', h3, h4⟩ := hv'
        refine ⟨c' ++ c, by rw [h1, h3]; simp, ?_⟩
        intro ev hev
        rcases List.mem_append.1 hev with h | h
        · exact h4 ev h
        · exact h2 ev h

theorem endOfProcessing_trace (log : Logger σ (List (Msg P))) (id : UInt32) (w : World σ P)
    (m : Manager (List (Msg P))) {w' : World σ P} {m' : Manager (List (Msg P))}
    (h : endOfProcessing (tracedLog log) w m id = .ok (w', m')) :
    ∃ c, w'.trace = w.trace ++ c ∧ ∀ ev ∈ c, ev.isLogged = true := by
  unfold endOfProcessing at h
  split at h
  · cases h
  · split at h
    · cases h
    · rename_i hl
      simp only at h
      split at h
      · cases h
      · simp only [Rs.ok.injEq, Prod.mk.injEq] at h
        obtain ⟨rfl, _⟩ := h
        exact eopLoop_trace log id w true 0 _ hl

/-- The end of a copper list: shown to the monitor, then logged. -/
inductive FinishTrace : List (Ev P) → Option Err → Prop
  | err (md : List MsgMeta) (e : Err) : FinishTrace [.monitored md (some e)] (some e)
  | ok (md : List MsgMeta) {l : List (Ev P)} (h : ∀ ev ∈ l, ev.isLogged = true) :
      FinishTrace (.monitored md none :: l) none

theorem finishList_trace (app : App σ P) (id : UInt32) (msgs : List (Msg P)) (rt : Rt σ P)
    {rt' : Rt σ P} {r : Option Err} (h : finishList app id msgs rt = .ok (rt', r)) :
    ∃ c, rt'.w.trace = rt.w.trace ++ c ∧ FinishTrace c r := by
  unfold finishList at h
  split at h
  · cases h
  · rename_i md _
    simp only at h
    split at h
    · rename_i e he
      simp only [Rs.ok.injEq, Prod.mk.injEq] at h
      obtain ⟨rfl, rfl⟩ := h
      rw [he]
      exact ⟨_, rfl, .err md e⟩
    · rename_i he
      split at h
      · cases h
      · rename_i w1 m1 heop
        simp only [Rs.ok.injEq, Prod.mk.injEq] at h
        obtain ⟨rfl, rfl⟩ := h
        rw [he] at heop
        obtain ⟨c, h1, h2⟩ := endOfProcessing_trace _ _ _ _ heop
        exact ⟨.monitored md none :: c, by rw [h1]; simp [World.emit], .ok md h2⟩

inductive IterTrace (sim : Bool) (tasks : Nat) (plan : List Step) :
    List (Ev P) → Option Err → Prop
  | pre {c : List (Ev P)} {f : Flow} (h : LifeTrace sim .preprocess (List.range tasks) c f)
      (hf : f ≠ .next) : IterTrace sim tasks plan c (errOf f)
  | shutdown {c c2 : List (Ev P)} {id : UInt32} {msgs msgs' : List (Msg P)} {e : Err}
      (h : LifeTrace sim .preprocess (List.range tasks) c .next)
      (hp : PlanTrace sim plan msgs c2 msgs' (.shutdown e)) :
      IterTrace sim tasks plan (c ++ [.created id] ++ c2) (some e)
  | abort {c c2 c3 : List (Ev P)} {id : UInt32} {msgs msgs' : List (Msg P)} {r : Option Err}
      (h : LifeTrace sim .preprocess (List.range tasks) c .next)
      (hp : PlanTrace sim plan msgs c2 msgs' .abort) (hf : FinishTrace c3 r) :
      IterTrace sim tasks plan (c ++ [.created id] ++ c2 ++ c3) r
  | monitor {c c2 c3 : List (Ev P)} {id : UInt32} {msgs msgs' : List (Msg P)} {e : Err}
      (h : LifeTrace sim .preprocess (List.range tasks) c .next)
      (hp : PlanTrace sim plan msgs c2 msgs' .next) (hf : FinishTrace c3 (some e)) :
      IterTrace sim tasks plan (c ++ [.created id] ++ c2 ++ c3) (some e)
  | full {c c2 c3 c4 : List (Ev P)} {id : UInt32} {msgs msgs' : List (Msg P)} {f : Flow}
      (h : LifeTrace sim .preprocess (List.range tasks) c .next)
      (hp : PlanTrace sim plan msgs c2 msgs' .next) (hf : FinishTrace c3 none)
      (h4 : LifeTrace sim .postprocess (List.range tasks) c4 f) :
      IterTrace sim tasks plan (c ++ [.created id] ++ c2 ++ c3 ++ c4) (errOf f)

theorem iteration_trace (app : App σ P) (rt : Rt σ P) {rt' : Rt σ P} {r : Option Err}
    (h : runOneIteration app rt = .ok (rt', r)) :
    ∃ t, rt'.w.trace = rt.w.trace ++ t ∧ IterTrace app.env.sim.isSome app.tasks app.plan t r := by
  obtain ⟨c, hc1, hc2⟩ := lifeAll_trace app.env .preprocess (List.range app.tasks) rt.w
  unfold runOneIteration at h
  generalize lifeAll app.env .preprocess (List.range app.tasks) rt.w = q at h hc1 hc2
  obtain ⟨w1, f⟩ := q
  cases f with
  | abort =>
    simp only [Rs.ok.injEq, Prod.mk.injEq] at h
    obtain ⟨rfl, rfl⟩ := h
    exact ⟨c, hc1, .pre hc2 (by simp)⟩
  | shutdown e =>
    simp only [Rs.ok.injEq, Prod.mk.injEq] at h
    obtain ⟨rfl, rfl⟩ := h
    exact ⟨c, hc1, .pre hc2 (by simp)⟩
  | next =>
    simp only at h
    split at h
    · cases h
    · cases h
    · rename_i mgr slot hcr
      split at h
      · cases h
      · rename_i cl hcl
        split at h
        · cases h
        · rename_i w2 msgs flow hpl
          obtain ⟨c2, hp1, hp2⟩ := planLoop_trace _ _ _ _ hpl
          have hp1' : w2.trace = rt.w.trace ++ (c ++ [.created cl.id] ++ c2) := by
            rw [hp1]; simp only at hc1; simp [World.emit, hc1]
          cases flow with
          | shutdown e =>
            simp only [Rs.ok.injEq, Prod.mk.injEq] at h
            obtain ⟨rfl, rfl⟩ := h
            exact ⟨_, hp1', .shutdown hc2 hp2⟩
          | abort =>
            simp only at h
            obtain ⟨c3, hf1, hf2⟩ := finishList_trace _ _ _ _ h
            exact ⟨c ++ [.created cl.id] ++ c2 ++ c3, by rw [hf1]; simp [hp1'], .abort hc2 hp2 hf2⟩
          | next =>
            simp only at h
            split at h
            · cases h
            · split at h
              · cases h
              · split at h
                · cases h
                · rename_i rt1 e hfin
                  obtain ⟨c3, hf1, hf2⟩ := finishList_trace _ _ _ _ hfin
                  simp only [Rs.ok.injEq, Prod.mk.injEq] at h
                  obtain ⟨rfl, rfl⟩ := h
                  exact ⟨c ++ [.created cl.id] ++ c2 ++ c3, by rw [hf1]; simp [hp1'],
                    .monitor hc2 hp2 hf2⟩
                · rename_i rt1 hfin
                  obtain ⟨c3, hf1, hf2⟩ := finishList_trace _ _ _ _ hfin
                  obtain ⟨c4, hl1, hl2⟩ :=
                    lifeAll_trace app.env .postprocess (List.range app.tasks) rt1.w
                  generalize lifeAll app.env .postprocess (List.range app.tasks) rt1.w = q at h hl1 hl2
                  obtain ⟨w4, f⟩ := q
                  have ht : w4.trace = rt.w.trace ++ (c ++ [.created cl.id] ++ c2 ++ c3 ++ c4) := by
                    simp only at hl1; rw [hl1, hf1]; simp [hp1']
                  have hI := IterTrace.full (id := cl.id) hc2 hp2 hf2 hl2
                  cases f with
                  | shutdown e =>
                    simp only [Rs.ok.injEq, Prod.mk.injEq] at h
                    obtain ⟨rfl, rfl⟩ := h
                    exact ⟨_, ht, hI⟩
                  | abort =>
                    simp only [Rs.ok.injEq, Prod.mk.injEq] at h
                    obtain ⟨rfl, rfl⟩ := h
                    exact ⟨_, ht, hI⟩
                  | next =>
                    simp only [Rs.ok.injEq, Prod.mk.injEq] at h
                    obtain ⟨rfl, rfl⟩ := h
                    exact ⟨_, ht, hI⟩

end Runtime
end Verif
