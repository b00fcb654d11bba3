import Verif.Proofs.RuntimeIter
import Verif.Proofs.PlannerWiring
import Verif.Props.Planner
/-! How messages flow through the slots of a copper list (C21). -/
namespace Verif
namespace Runtime
open Planner CopperList Clock
variable {σ P : Type}

/-- Each step owns the slot of its position and reads slots of earlier steps. -/
structure Wired (plan : List Step) : Prop where
  nodup : (plan.map Step.nodeId).Nodup
  own : ∀ (k : Nat) (s : Step), plan[k]? = some s → ∃ ty, s.output = some (k, ty)
  back : ∀ (k : Nat) (s : Step), plan[k]? = some s → ∀ i ∈ s.inputs, i.1 < k

theorem wired_of_plan {g : Graph} (hg : g.WF) {plan : List Step}
    (h : computePlan g = .ok (some plan)) : Wired plan := by
  have h13 := (C13_each_task_once g hg).2 plan h
  refine ⟨h13.1, fun k s hk => C16_own_slot g hg plan h k s hk, ?_⟩
  intro k s hk i hi
  obtain ⟨p, hp, _, e, he, hes, hed⟩ := (C16_inputs_perm_partial g hg plan h k s hk).2 i hi
  obtain ⟨j, s', hj, hs', hid⟩ := C14_producers_first g hg plan h k s hk e he hed
  have h1 : (plan.map Step.nodeId)[i.1]? = some p.nodeId := by simp [hp]
  have h2 : (plan.map Step.nodeId)[j]? = some p.nodeId := by simp [hs', hid, hes]
  have hlt : i.1 < (plan.map Step.nodeId).length := by
    by_cases hlt : i.1 < (plan.map Step.nodeId).length
    · exact hlt
    · rw [List.getElem?_eq_none (by omega)] at h1; cases h1
  have := (List.getElem?_inj hlt h13.1).1 (h1.trans h2.symm)
  omega

theorem mapRs_forall₂ {α β : Type} {f : α → Rs β} {l : List α} {r : List β} (h : mapRs f l = .ok r) :
    Pointwise (fun a b => f a = .ok b) l r := by
  induction l generalizing r with
  | nil => simp only [mapRs, Rs.ok.injEq] at h; subst h; exact .nil
  | cons a l ih =>
    unfold mapRs at h
    cases ha : f a with
    | panic => rw [ha] at h; cases h
    | ok b =>
      cases hl : mapRs f l with
      | panic => rw [ha, hl] at h; cases h
      | ok bs =>
        rw [ha, hl] at h
        simp only [Rs.ok.injEq] at h
        subst h
        exact .cons ha (ih hl)

theorem forall₂_imp {α β : Type} {R S : α → β → Prop} {l : List α} {r : List β}
    (h : Pointwise R l r) (hi : ∀ a ∈ l, ∀ b, R a b → S a b) : Pointwise S l r := by
  induction h with
  | nil => exact .nil
  | cons h1 _ ih =>
    exact .cons (hi _ (by simp) _ h1) (ih (fun a ha => hi a (by simp [ha])))

@[simp] theorem lefts_append (a b : List (Ev P)) : lefts (a ++ b) = lefts a ++ lefts b := by
  simp [lefts]
@[simp] theorem lefts_nil : lefts ([] : List (Ev P)) = [] := rfl

theorem RealChunk.lefts_nil {ph : Phase} {tid : Nat} {ins : List (Msg P)} {c : List (Ev P)} {f : Flow}
    {b : Bool} (h : RealChunk ph tid ins c f b) : lefts c = [] := by
  cases h <;> rfl

theorem Core.lefts_nil {sim : Bool} {ph : Phase} {tid : Nat} {ins : List (Msg P)} {c : List (Ev P)}
    {f : Flow} {b : Bool} (h : Core sim ph tid ins c f b) : lefts c = [] := by
  cases h with
  | real hs h => exact h.lefts_nil
  | bySim hs => rfl
  | errored hs e d => rfl
  | byRuntime hs h =>
    rw [show ∀ (a : Ev P) l, a :: l = [a] ++ l from fun _ _ => rfl, lefts_append, h.lefts_nil]; rfl

theorem RealChunk.reads {ph : Phase} {tid : Nat} {ins : List (Msg P)} {c : List (Ev P)} {f : Flow}
    {b : Bool} (h : RealChunk ph tid ins c f b) :
    ∀ ev ∈ c, ev.reads = none ∨ (ph = .process ∧ ev.reads = some (tid, ins)) := by
  cases h <;> cases ph <;> simp [Ev.reads]

theorem Core.reads {sim : Bool} {ph : Phase} {tid : Nat} {ins : List (Msg P)} {c : List (Ev P)}
    {f : Flow} {b : Bool} (h : Core sim ph tid ins c f b) :
    ∀ ev ∈ c, ev.reads = none ∨ (ph = .process ∧ ev.reads = some (tid, ins)) := by
  cases h with
  | real hs h => exact h.reads
  | bySim hs => cases ph <;> simp [Ev.reads]
  | errored hs e d => cases ph <;> simp [Ev.reads]
  | byRuntime hs h =>
    intro ev hev
    rcases List.mem_cons.1 hev with rfl | hev
    · cases ph <;> simp [Ev.reads]
    · exact h.reads ev hev

theorem LifeTrace.lefts_nil {sim : Bool} {ph : Phase} {ts : List Nat} {c : List (Ev P)} {f : Flow}
    (h : LifeTrace sim ph ts c f) : lefts c = [] := by
  induction h with
  | nil => rfl
  | cons h _ ih => rw [lefts_append, h.lefts_nil, ih]; rfl
  | stop h _ => exact h.lefts_nil

theorem LifeTrace.reads {sim : Bool} {ph : Phase} (hp : ph ≠ .process) {ts : List Nat}
    {c : List (Ev P)} {f : Flow} (h : LifeTrace sim ph ts c f) : ∀ ev ∈ c, ev.reads = none := by
  induction h with
  | nil => simp
  | cons h _ ih =>
    intro ev hev
    rcases List.mem_append.1 hev with h1 | h1
    · rcases h.reads ev h1 with h2 | h2
      · exact h2
      · exact absurd h2.1 hp
    · exact ih ev h1
  | stop h _ =>
    intro ev hev
    rcases h.reads ev hev with h2 | h2
    · exact h2
    · exact absurd h2.1 hp

theorem FinishTrace.lefts_nil {c : List (Ev P)} {r : Option Err} (h : FinishTrace c r) :
    lefts c = [] := by
  cases h with
  | err => rfl
  | ok md hl =>
    rw [show ∀ (a : Ev P) l, a :: l = [a] ++ l from fun _ _ => rfl, lefts_append]
    have : ∀ l : List (Ev P), (∀ ev ∈ l, ev.isLogged = true) → lefts l = [] := by
      intro l hl
      unfold lefts
      rw [List.filterMap_eq_nil_iff]
      intro ev hev
      have := hl ev hev
      cases ev <;> simp_all [Ev.isLogged]
    rw [this _ hl]; rfl

theorem FinishTrace.reads {c : List (Ev P)} {r : Option Err} (h : FinishTrace c r) :
    ∀ ev ∈ c, ev.reads = none := by
  cases h with
  | err => simp [Ev.reads]
  | ok md hl =>
    intro ev hev
    rcases List.mem_cons.1 hev with rfl | hev
    · rfl
    · have := hl ev hev
      cases ev <;> simp_all [Ev.isLogged, Ev.reads]

theorem ProcChunk.lefts_eq {sim : Bool} {tid : Nat} {ins : List (Msg P)} {out : Msg P}
    {c : List (Ev P)} {f : Flow} (h : ProcChunk sim tid ins out c f) :
    lefts c = if f = .next then [(tid, out)] else [] := by
  cases h with
  | next h _ => rw [lefts_append, h.lefts_nil]; rfl
  | stop h hf => rw [h.lefts_nil, if_neg hf]

theorem ProcChunk.reads {sim : Bool} {tid : Nat} {ins : List (Msg P)} {out : Msg P}
    {c : List (Ev P)} {f : Flow} (h : ProcChunk sim tid ins out c f) :
    ∀ ev ∈ c, ev.reads = none ∨ ev.reads = some (tid, ins) := by
  cases h with
  | next h _ =>
    intro ev hev
    rcases List.mem_append.1 hev with h1 | h1
    · rcases h.reads ev h1 with h2 | h2
      · exact .inl h2
      · exact .inr h2.2
    · simp only [List.mem_singleton] at h1; subst h1; exact .inl rfl
  | stop h _ =>
    intro ev hev
    rcases h.reads ev hev with h2 | h2
    · exact .inl h2
    · exact .inr h2.2

/-- Splitting a list at an element of its right or left part. -/
theorem split_cases {α : Type} {a b pre post : List α} {x : α} (h : a ++ b = pre ++ x :: post) :
    (∃ post', a = pre ++ x :: post' ∧ post = post' ++ b) ∨ (∃ pre', pre = a ++ pre' ∧ b = pre' ++ x :: post) := by
  rcases List.append_eq_append_iff.1 h with ⟨c, h1, h2⟩ | ⟨c, h1, h2⟩
  · exact .inr ⟨c, h1, h2⟩
  · cases c with
    | nil => 
      simp only [List.append_nil] at h1
      simp only [List.nil_append] at h2
      exact .inr ⟨[], by simp [h1], by simp [h2]⟩
    | cons y c =>
      simp only [List.cons_append, List.cons.injEq] at h2
      obtain ⟨rfl, rfl⟩ := h2
      exact .inl ⟨c, h1, rfl⟩

structure FlowOk (plan : List Step) (L0 : List (Nat × Msg P)) (c : List (Ev P))
    (msgs' : List (Msg P)) (f : Flow) : Prop where
  reads : ∀ pre ev post v ins, c = pre ++ ev :: post → ev.reads = some (v, ins) →
    ∃ (j : Nat) (s : Step), plan[j]? = some s ∧ s.nodeId = v ∧
      Pointwise (fun (i : Nat × String) m => ∃ p : Step, plan[i.1]? = some p ∧ (p.nodeId, m) ∈ L0 ++ lefts pre) s.inputs ins
  order : (L0 ++ lefts c).map Prod.fst <+: plan.map Step.nodeId
  full : f = .next → (L0 ++ lefts c).map Prod.fst = plan.map Step.nodeId
  slots : ∀ (j : Nat) (x : Nat × Msg P), (L0 ++ lefts c)[j]? = some x → msgs'[j]? = some x.2

theorem PlanTrace.length {sim : Bool} {steps : List Step} {msgs msgs' : List (Msg P)}
    {c : List (Ev P)} {f : Flow} (h : PlanTrace sim steps msgs c msgs' f) :
    msgs'.length = msgs.length := by
  induction h with
  | nil => rfl
  | cons ho hl hi h hs ih => simpa using ih
  | stop ho hl hi h hf => simp

theorem PlanTrace.flow {sim : Bool} {plan : List Step} (hw : Wired plan) {steps : List Step}
    {msgs msgs' : List (Msg P)} {c : List (Ev P)} {f : Flow}
    (h : PlanTrace sim steps msgs c msgs' f) :
    ∀ (k : Nat) (L0 : List (Nat × Msg P)), steps = plan.drop k →
      L0.map Prod.fst = (plan.take k).map Step.nodeId → k ≤ plan.length →
      (∀ (j : Nat) (x : Nat × Msg P), L0[j]? = some x → msgs[j]? = some x.2) →
      FlowOk plan L0 c msgs' f := by
  have key : ∀ (k : Nat) (L0 : List (Nat × Msg P)) (step : Step) (msgs ins : List (Msg P)),
      plan[k]? = some step → L0.map Prod.fst = (plan.take k).map Step.nodeId → k ≤ plan.length →
      (∀ (j : Nat) (x : Nat × Msg P), L0[j]? = some x → msgs[j]? = some x.2) →
      mapRs (fun i => Rs.ofOption msgs[i.1]?) step.inputs = .ok ins →
      Pointwise (fun (i : Nat × String) m => ∃ p : Step, plan[i.1]? = some p ∧ (p.nodeId, m) ∈ L0) step.inputs ins := by
    intro k L0 step msgs ins hst hL hk hm hi
    refine forall₂_imp (mapRs_forall₂ hi) ?_
    intro i hin m hm'
    have hlt := hw.back k step hst i hin
    have hpl : i.1 < plan.length := by omega
    refine ⟨plan[i.1], List.getElem?_eq_getElem hpl, ?_⟩
    have hLl : L0.length = k := by
      have := congrArg List.length hL
      simp only [List.length_map, List.length_take] at this
      omega
    have hx := hm i.1 _ (List.getElem?_eq_getElem (by omega : i.1 < L0.length))
    rw [hx] at hm'
    simp only [Rs.ofOption, Rs.ok.injEq] at hm'
    subst hm'
    have h1 : (L0.map Prod.fst)[i.1]? = some plan[i.1].nodeId := by
      rw [hL]; simp [hlt, hpl]
    have h2 : L0[i.1].1 = plan[i.1].nodeId := by
      rw [List.getElem?_map, List.getElem?_eq_getElem (by omega)] at h1
      simpa using h1
    rw [← h2]
    exact List.getElem_mem _
  induction h with
  | nil msgs =>
    intro k L0 hs hL hk hm
    have hk' : plan.length ≤ k := List.drop_eq_nil_iff.1 hs.symm
    rw [List.take_of_length_le hk'] at hL
    exact ⟨by simp, by simp [hL], by simp [hL], by simpa using hm⟩
  | @cons step steps msgs msgs' ins out o ty c cs f ho hl hi h hs ih =>
    intro k L0 hst hL hk hm
    have hk1 : k < plan.length := by
      by_cases hk1 : k < plan.length
      · exact hk1
      · rw [List.drop_eq_nil_iff.2 (by omega)] at hst; cases hst
    rw [List.drop_eq_getElem_cons hk1] at hst
    simp only [List.cons.injEq] at hst
    obtain ⟨rfl, rfl⟩ := hst
    have hst : plan[k]? = some plan[k] := List.getElem?_eq_getElem hk1
    obtain ⟨ty', ho'⟩ := hw.own k _ hst
    rw [ho'] at ho
    simp only [Option.some.injEq, Prod.mk.injEq] at ho
    obtain ⟨rfl, rfl⟩ := ho
    have hlc : lefts c = [(plan[k].nodeId, out)] := by rw [h.lefts_eq]; rfl
    have hLl : L0.length = k := by
      have := congrArg List.length hL
      simp only [List.length_map, List.length_take] at this
      omega
    have hrest := ih (k + 1) (L0 ++ [(plan[k].nodeId, out)]) rfl (by
      rw [List.map_append, hL, List.take_succ_eq_append_getElem hk1, List.map_append]; rfl) hk1 (by
      intro j x hx
      by_cases hj : j < L0.length
      · rw [List.getElem?_append_left hj] at hx
        rw [List.getElem?_set_ne (by omega)]
        exact hm j x hx
      · rw [List.getElem?_append_right (by omega)] at hx
        have : j - L0.length = 0 := by
          cases hd : j - L0.length with
          | zero => rfl
          | succ n => rw [hd] at hx; simp at hx
        have : j = k := by omega
        subst this
        rw [hLl] at hx
        simp at hx
        subst hx
        simp [hl])
    refine ⟨?_, ?_, ?_, ?_⟩
    · intro pre ev post v ins' hsp hr
      rcases split_cases hsp with ⟨post', h1, _⟩ | ⟨pre', h1, h2⟩
      · have hev : ev ∈ c := by rw [h1]; simp
        rcases h.reads ev hev with h3 | h3
        · rw [h3] at hr; cases hr
        · rw [h3] at hr
          simp only [Option.some.injEq, Prod.mk.injEq] at hr
          obtain ⟨rfl, rfl⟩ := hr
          refine ⟨k, _, hst, rfl, forall₂_imp (key k L0 _ _ _ hst hL hk hm hi) ?_⟩
          rintro i _ m ⟨p, h4, h5⟩
          exact ⟨p, h4, List.mem_append_left _ h5⟩
      · obtain ⟨j, s, h3, h4, h5⟩ := hrest.reads pre' ev post v ins' h2 hr
        refine ⟨j, s, h3, h4, ?_⟩
        rw [h1, lefts_append, hlc]
        simpa using h5
    · have := hrest.order; rw [lefts_append, hlc]; simpa using this
    · intro hf; have := hrest.full hf; rw [lefts_append, hlc]; simpa using this
    · have := hrest.slots; rw [lefts_append, hlc]; simpa using this
  | @stop step steps msgs ins out o ty c f ho hl hi h hf =>
    intro k L0 hst hL hk hm
    have hk1 : k < plan.length := by
      by_cases hk1 : k < plan.length
      · exact hk1
      · rw [List.drop_eq_nil_iff.2 (by omega)] at hst; cases hst
    rw [List.drop_eq_getElem_cons hk1] at hst
    simp only [List.cons.injEq] at hst
    obtain ⟨rfl, rfl⟩ := hst
    have hst : plan[k]? = some plan[k] := List.getElem?_eq_getElem hk1
    obtain ⟨ty', ho'⟩ := hw.own k _ hst
    rw [ho'] at ho
    simp only [Option.some.injEq, Prod.mk.injEq] at ho
    obtain ⟨rfl, rfl⟩ := ho
    have hlc : lefts c = [] := by rw [h.lefts_eq, if_neg hf]
    have hLl : L0.length = k := by
      have := congrArg List.length hL
      simp only [List.length_map, List.length_take] at this
      omega
    refine ⟨?_, ?_, ?_, ?_⟩
    · intro pre ev post v ins' hsp hr
      have hev : ev ∈ c := by rw [hsp]; simp
      rcases h.reads ev hev with h3 | h3
      · rw [h3] at hr; cases hr
      · rw [h3] at hr
        simp only [Option.some.injEq, Prod.mk.injEq] at hr
        obtain ⟨rfl, rfl⟩ := hr
        refine ⟨k, _, hst, rfl, forall₂_imp (key k L0 _ _ _ hst hL hk hm hi) ?_⟩
        rintro i _ m ⟨p, h4, h5⟩
        exact ⟨p, h4, List.mem_append_left _ h5⟩
    · rw [hlc, List.append_nil, hL, List.map_take]; exact List.take_prefix _ _
    · intro h'; exact absurd h' hf
    · intro j x hx
      rw [hlc, List.append_nil] at hx
      have hj : j < L0.length := by
        by_cases hj : j < L0.length
        · exact hj
        · rw [List.getElem?_eq_none (by omega)] at hx; cases hx
      rw [List.getElem?_set_ne (by omega)]
      exact hm j x hx

theorem reads_none_split {a b pre post : List (Ev P)} {ev : Ev P} {x : Nat × List (Msg P)}
    (ha : ∀ ev ∈ a, ev.reads = none) (hr : ev.reads = some x) (h : a ++ b = pre ++ ev :: post) :
    ∃ pre', pre = a ++ pre' ∧ b = pre' ++ ev :: post := by
  rcases split_cases h with ⟨post', h1, _⟩ | h1
  · have := ha ev (by rw [h1]; simp)
    rw [this] at hr; cases hr
  · exact h1

theorem reads_none_split' {a b pre post : List (Ev P)} {ev : Ev P} {x : Nat × List (Msg P)}
    (hb : ∀ ev ∈ b, ev.reads = none) (hr : ev.reads = some x) (h : a ++ b = pre ++ ev :: post) :
    ∃ post', a = pre ++ ev :: post' := by
  rcases split_cases h with ⟨post', h1, _⟩ | ⟨pre', h1, h2⟩
  · exact ⟨post', h1⟩
  · have := hb ev (by rw [h2]; simp)
    rw [this] at hr; cases hr

/-- The message flow of an iteration. -/
theorem IterTrace.flow {sim : Bool} {tasks : Nat} {plan : List Step} (hw : Wired plan)
    {t : List (Ev P)} {r : Option Err} (h : IterTrace sim tasks plan t r) :
    (∀ pre ev post v ins, t = pre ++ ev :: post → ev.reads = some (v, ins) →
      ∃ (j : Nat) (s : Step), plan[j]? = some s ∧ s.nodeId = v ∧
        Pointwise (fun (i : Nat × String) m => ∃ p : Step, plan[i.1]? = some p ∧ (p.nodeId, m) ∈ lefts pre) s.inputs ins) ∧
    (lefts t).map Prod.fst <+: plan.map Step.nodeId := by
  have mid : ∀ {c c2 c3 : List (Ev P)} {id : UInt32} {msgs msgs' : List (Msg P)} {f : Flow},
      (∀ ev ∈ c, ev.reads = none) → lefts c = [] → PlanTrace sim plan msgs c2 msgs' f →
      (∀ ev ∈ c3, ev.reads = none) → lefts c3 = [] →
      (∀ pre ev post v ins, c ++ [.created id] ++ c2 ++ c3 = pre ++ ev :: post →
        ev.reads = some (v, ins) → ∃ (j : Nat) (s : Step), plan[j]? = some s ∧ s.nodeId = v ∧
        Pointwise (fun (i : Nat × String) m => ∃ p : Step, plan[i.1]? = some p ∧ (p.nodeId, m) ∈ lefts pre) s.inputs ins) ∧
      (lefts (c ++ [.created id] ++ c2 ++ c3)).map Prod.fst <+: plan.map Step.nodeId := by
    intro c c2 c3 id msgs msgs' f hc hlc hp hc3 hlc3
    have hfl := hp.flow hw 0 [] (by simp) (by simp) (by simp) (by simp)
    have hl1 : lefts [Ev.created id (P := P)] = [] := rfl
    constructor
    · intro pre ev post v ins hsp hr
      obtain ⟨post', hsp⟩ := reads_none_split' hc3 hr hsp
      have hc' : ∀ ev ∈ c ++ [Ev.created id], ev.reads = none := by
        intro ev hev
        rcases List.mem_append.1 hev with h1 | h1
        · exact hc ev h1
        · simp only [List.mem_singleton] at h1; subst h1; rfl
      obtain ⟨pre', rfl, hsp2⟩ := reads_none_split hc' hr hsp
      have := hfl.reads pre' ev post' v ins hsp2 hr
      rw [lefts_append, lefts_append, hlc, hl1]
      exact this
    · have := hfl.order
      rw [lefts_append, lefts_append, lefts_append, hlc, hlc3, hl1, List.append_nil]
      exact this
  cases h with
  | pre h hf =>
    refine ⟨?_, by simp [h.lefts_nil]⟩
    intro pre ev post v ins hsp hr
    have := h.reads (by simp) ev (by rw [hsp]; simp)
    rw [this] at hr; cases hr
  | @shutdown c c2 id msgs msgs' e h hp =>
    have := mid (c3 := []) (id := id) (h.reads (by simp)) h.lefts_nil hp (by simp) rfl
    rw [List.append_nil] at this
    exact this
  | abort h hp hf => exact mid (h.reads (by simp)) h.lefts_nil hp hf.reads hf.lefts_nil
  | monitor h hp hf => exact mid (h.reads (by simp)) h.lefts_nil hp hf.reads hf.lefts_nil
  | @full c c2 c3 c4 id msgs msgs' f h hp hf h4 =>
    have := mid (c3 := c3 ++ c4) (id := id) (h.reads (by simp)) h.lefts_nil hp (by
      intro ev hev
      rcases List.mem_append.1 hev with h1 | h1
      · exact hf.reads ev h1
      · exact h4.reads (by simp) ev h1) (by simp [hf.lefts_nil, h4.lefts_nil])
    rw [← List.append_assoc] at this
    exact this

theorem exists_perm_map {α β : Type} {f : α → β} {l l2 : List β} (h : l.Perm l2) :
    ∀ es : List α, l2 = es.map f → ∃ es' : List α, es'.Perm es ∧ es'.map f = l := by
  induction h with
  | nil => intro es he; exact ⟨[], by cases es <;> simp_all, rfl⟩
  | cons x _ ih =>
    intro es he
    cases es with
    | nil => simp at he
    | cons e es =>
      simp only [List.map_cons, List.cons.injEq] at he
      obtain ⟨es', h1, h2⟩ := ih es he.2
      exact ⟨e :: es', h1.cons e, by simp [h2, he.1]⟩
  | swap x y l =>
    intro es he
    match es, he with
    | a :: b :: es, he =>
      simp only [List.map_cons, List.cons.injEq] at he
      exact ⟨b :: a :: es, List.Perm.swap a b es, by simp [he]⟩
  | trans _ _ ih1 ih2 =>
    intro es he
    obtain ⟨es2, h1, h2⟩ := ih2 es he
    obtain ⟨es1, h3, h4⟩ := ih1 es2 h2.symm
    exact ⟨es1, h3.trans h1, h4⟩

theorem forall₂_of_map {α β γ : Type} {f : α → β} {R : β → γ → Prop} {l : List α} {r : List γ}
    (h : Pointwise R (l.map f) r) : Pointwise (fun a c => R (f a) c) l r := by
  induction l generalizing r with
  | nil => cases h; exact .nil
  | cons a l ih => cases h with | cons h1 h2 => exact .cons h1 (ih h2)

theorem forall₂_map {α β γ : Type} {f : α → β} {R : β → γ → Prop} {l : List α} {r : List γ}
    (h : Pointwise (fun a c => R (f a) c) l r) : Pointwise R (l.map f) r := by
  induction h with
  | nil => exact .nil
  | cons h1 _ ih => exact .cons h1 ih

end Runtime
end Verif
