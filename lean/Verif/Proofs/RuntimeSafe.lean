import Verif.Proofs.RuntimePool
import Verif.Proofs.RuntimeTimes
/-! When an iteration cannot panic (C52). -/
namespace Verif
namespace Runtime
open Planner CopperList Clock
variable {σ P : Type}

theorem InOrder.pair {lo hi : Nat} {ms : List (Msg P)} (h : InOrder lo ms hi) {i j : Nat}
    {a b : Msg P} (ha : ms[i]? = some a) (hb : ms[j]? = some b) (hij : i ≤ j) :
    ∃ s e : CuTime, a.md.processTime.start.toOption = some s ∧
      b.md.processTime.stop.toOption = some e ∧ lo ≤ s.ns.toNat ∧ s.ns.toNat ≤ e.ns.toNat := by
  induction ms generalizing lo i j a b with
  | nil => simp at ha
  | cons m ms ih =>
    obtain ⟨s, e, h1, h2, h3, h4, h5⟩ := h
    cases i with
    | zero =>
      simp only [List.getElem?_cons_zero, Option.some.injEq] at ha
      subst ha
      cases j with
      | zero =>
        simp only [List.getElem?_cons_zero, Option.some.injEq] at hb
        subst hb
        exact ⟨s, e, h1, h2, h3, h4⟩
      | succ j =>
        simp only [List.getElem?_cons_succ] at hb
        obtain ⟨s', e', h6, h7, h8, h9⟩ := ih h5 hb hb (Nat.le_refl _)
        exact ⟨s, e', h1, h7, h3, by omega⟩
    | succ i =>
      cases j with
      | zero => omega
      | succ j =>
        simp only [List.getElem?_cons_succ] at ha hb
        obtain ⟨s', e', h6, h7, h8, h9⟩ := ih h5 ha hb (by omega)
        exact ⟨s', e', h6, h7, by omega, h9⟩

theorem unwrap_of_toOption {o : OptionCuTime} {t : CuTime} (h : o.toOption = some t) :
    o.unwrap = some t := by
  unfold OptionCuTime.toOption at h
  unfold OptionCuTime.unwrap OptionCuTime.isNone
  split at h
  · cases h
  · rename_i hn
    simp only [Option.some.injEq] at h
    subst h
    simp [hn]

theorem mapRs_total {α β : Type} {f : α → Rs β} {l : List α} (h : ∀ a ∈ l, ∃ b, f a = .ok b) :
    ∃ r, mapRs f l = .ok r := by
  induction l with
  | nil => exact ⟨[], rfl⟩
  | cons a l ih =>
    obtain ⟨b, hb⟩ := h a (by simp)
    obtain ⟨r, hr⟩ := ih (fun x hx => h x (by simp [hx]))
    exact ⟨b :: r, by simp [mapRs, hb, hr]⟩

theorem planLoop_safe (env : Env σ P) {plan : List Step} (hw : Wired plan) (steps : List Step)
    (k : Nat) (hs : steps = plan.drop k) (w : World σ P) (msgs : List (Msg P))
    (hl : msgs.length = plan.length) : ∃ r, planLoop env steps w msgs = .ok r := by
  induction steps generalizing k w msgs with
  | nil => exact ⟨_, rfl⟩
  | cons s steps ih =>
    have hk : plan[k]? = some s := by
      rw [← List.head?_drop, ← hs]; rfl
    have hkl : k < plan.length := by
      have := List.getElem?_eq_some_iff.1 hk
      exact this.1
    have hs' : steps = plan.drop (k + 1) := by
      rw [← List.tail_drop, ← hs]; rfl
    obtain ⟨ty, ho⟩ := hw.own k s hk
    have hin : ∃ ins, mapRs (fun (i : Nat × String) => Rs.ofOption msgs[i.1]?) s.inputs = .ok ins := by
      apply mapRs_total
      intro i hi
      have h1 := hw.back k s hk i hi
      refine ⟨msgs[i.1]'(by omega), ?_⟩
      rw [List.getElem?_eq_getElem]; rfl
    obtain ⟨ins, hin⟩ := hin
    have hout : msgs[k]? = some (msgs[k]'(by omega)) := List.getElem?_eq_getElem _
    simp only [planLoop, ho, hin, hout]
    split
    · exact ih (k + 1) hs' _ _ (by simp [hl])
    · exact ⟨_, rfl⟩

theorem collectMetadata_safe {plan : List Step} {msgs : List (Msg P)}
    (h : ∀ v ∈ callOrder plan, v < msgs.length) :
    ∃ md, collectMetadata plan msgs = .ok md := by
  apply mapRs_total
  intro a ha
  refine ⟨(msgs[a]'(h a ha)).md, ?_⟩
  rw [List.getElem?_eq_getElem (h a ha)]; rfl

theorem collectMetadata_get {plan : List Step} {msgs : List (Msg P)} {md : List MsgMeta}
    (h : collectMetadata plan msgs = .ok md) :
    md.length = plan.length ∧
    ∀ (k t : Nat), (callOrder plan)[k]? = some t → md[k]? = msgs[t]?.map Msg.md ∧ t < msgs.length := by
  have hp := mapRs_forall₂ h
  have gen : ∀ {l : List Nat} {r : List MsgMeta},
      Pointwise (fun t m => Rs.ofOption (msgs[t]?.map Msg.md) = .ok m) l r →
      r.length = l.length ∧ ∀ (k t : Nat), l[k]? = some t → r[k]? = msgs[t]?.map Msg.md ∧ t < msgs.length := by
    intro l r h
    induction h with
    | nil => exact ⟨rfl, by simp⟩
    | @cons a b _ _ h _ ih =>
      refine ⟨by simp [ih.1], ?_⟩
      intro k t hk
      cases k with
      | zero =>
        simp only [List.getElem?_cons_zero, Option.some.injEq] at hk ⊢
        subst hk
        cases hm : msgs[a]? with
        | none => rw [hm] at h; cases h
        | some m =>
          rw [hm] at h
          simp only [Option.map_some, Rs.ofOption, Rs.ok.injEq] at h
          subst h
          exact ⟨rfl, (List.getElem?_eq_some_iff.1 hm).1⟩
      | succ k =>
        simp only [List.getElem?_cons_succ] at hk ⊢
        exact ih.2 k t hk
  have := gen hp
  simpa [callOrder] using this

theorem endToEnd_safe {app : App σ P} (hne : app.plan ≠ []) (hlat : LatencyOk app)
    {msgs : List (Msg P)} {lo hi : Nat} (ho : InOrder lo msgs hi) {md : List MsgMeta}
    (hmd : collectMetadata app.plan msgs = .ok md) : ∃ d, endToEnd app.overflow md = .ok d := by
  obtain ⟨hlen, hget⟩ := collectMetadata_get hmd
  have hpos : 0 < app.plan.length := List.length_pos_iff.2 hne
  have hcl : (callOrder app.plan).length = app.plan.length := by simp [callOrder]
  obtain ⟨f, hf⟩ : ∃ f, (callOrder app.plan)[0]? = some f :=
    ⟨_, List.getElem?_eq_getElem (by omega)⟩
  obtain ⟨l, hl⟩ : ∃ l, (callOrder app.plan)[app.plan.length - 1]? = some l :=
    ⟨_, List.getElem?_eq_getElem (by omega)⟩
  obtain ⟨h1, h2⟩ := hget _ _ hf
  obtain ⟨h3, h4⟩ := hget _ _ hl
  rw [List.getElem?_eq_getElem h2] at h1
  rw [List.getElem?_eq_getElem h4] at h3
  have hh : md.head? = some (msgs[f]).md := by rw [List.head?_eq_getElem?]; exact h1
  have hg : md.getLast? = some (msgs[l]).md := by rw [List.getLast?_eq_getElem?, hlen]; exact h3
  unfold endToEnd
  simp only [hg, hh]
  obtain ⟨s, _, a1, _, _, _⟩ := ho.pair (List.getElem?_eq_getElem h2) (List.getElem?_eq_getElem h2) (Nat.le_refl _)
  obtain ⟨_, e, _, a2, _, _⟩ := ho.pair (List.getElem?_eq_getElem h4) (List.getElem?_eq_getElem h4) (Nat.le_refl _)
  rw [unwrap_of_toOption a1, unwrap_of_toOption a2]
  simp only [CuDuration.sub, u64Arith]
  rcases hlat with hwr | hle
  · rw [hwr]; split <;> exact ⟨_, rfl⟩
  · have hfl : f ≤ l := by
      refine hle f l ?_ ?_
      · rw [List.head?_eq_getElem?]; exact hf
      · rw [List.getLast?_eq_getElem?, hcl]; exact hl
    obtain ⟨s', e', b1, b2, _, b3⟩ := ho.pair (List.getElem?_eq_getElem h2) (List.getElem?_eq_getElem h4) hfl
    rw [a1] at b1; rw [a2] at b2
    cases b1; cases b2
    have hb := e.ns.toNat_lt
    rw [if_pos ⟨by omega, by omega⟩]
    exact ⟨_, rfl⟩

theorem finish_safe (app : App σ P) {k : Nat} {id : UInt32} {msgs : List (Msg P)} {rt : Rt σ P}
    (h : Busy k id msgs rt.mgr) (hord : ∀ v ∈ callOrder app.plan, v < msgs.length)
    (hlog : LogAccepts app.env.log) : ∃ r, finishList app id msgs rt = .ok r := by
  obtain ⟨md, hmd⟩ := collectMetadata_safe hord
  unfold finishList
  simp only [hmd]
  split
  · exact ⟨_, rfl⟩
  · rcases busy_finish h app.env.log (rt.w.emit (app.env.monCL md rt.w.st).1
      (.monitored md (app.env.monCL md rt.w.st).2)) with ⟨_, h2⟩ | ⟨w', m', h1, _⟩
    · exact absurd hlog h2
    · rw [h1]; exact ⟨_, rfl⟩

theorem iteration_safe (app : App σ P) (rt : Rt σ P) (hw : Wired app.plan) (hne : app.plan ≠ [])
    (hord : ∀ v ∈ callOrder app.plan, v < app.plan.length) {T : σ → Nat}
    (hc : MonotoneClock app.env T) (hk : KeepsStart app.env) (hlat : LatencyOk app)
    (hlog : LogAccepts app.env.log) (hi : Idle app.plan.length rt.mgr)
    (hid : rt.mgr.currentClId ≠ 0xFFFFFFFF ∨ app.overflow = .wrapping) :
    ∃ r, runOneIteration app rt = .ok r := by
  unfold runOneIteration
  generalize lifeAll app.env .preprocess (List.range app.tasks) rt.w = q
  obtain ⟨w1, f⟩ := q
  cases f with
  | abort => exact ⟨_, rfl⟩
  | shutdown e => exact ⟨_, rfl⟩
  | next =>
    obtain ⟨m1, cl, hcr, hcl, hclid, hcll, hwr⟩ := idle_create hi hid
    simp only [hcr, hcl]
    obtain ⟨⟨w2, msgs, flow⟩, hpl⟩ := planLoop_safe app.env hw app.plan 0 (by simp)
      (w1.emit w1.st (.created cl.id)) cl.msgs hcll
    simp only [hpl]
    obtain ⟨c2, hp1, hp2⟩ := planLoop_trace _ _ _ _ hpl
    have hml : msgs.length = app.plan.length := by rw [hp2.length, hcll]
    obtain ⟨hb, _, _⟩ := hwr msgs hml
    rw [← hclid] at hb
    obtain ⟨rf, hfin⟩ := finish_safe app (rt := ⟨w2, m1.write 0 (fun c => { c with state := .processing, msgs := msgs })⟩)
      hb (by rw [hml]; exact hord) hlog
    cases flow with
    | shutdown e => exact ⟨_, rfl⟩
    | abort => exact ⟨_, hfin⟩
    | next =>
      obtain ⟨md, hmd⟩ := collectMetadata_safe (msgs := msgs) (by rw [hml]; exact hord)
      have hfl := hp2.flow hw 0 [] (by simp) (by simp) (by simp) (by simp)
      have hms : msgs = (lefts c2).map Prod.snd := by
        have h1 := hfl.full rfl
        simp only [List.nil_append] at h1
        have h2 : (lefts c2).length = msgs.length := by
          have := congrArg List.length h1
          simp only [List.length_map] at this
          omega
        apply List.ext_getElem?
        intro j
        rw [List.getElem?_map]
        by_cases hj : j < (lefts c2).length
        · rw [List.getElem?_eq_getElem hj]
          exact hfl.slots j _ (by simp [hj])
        · rw [List.getElem?_eq_none (by omega), List.getElem?_eq_none (by omega)]; rfl
      obtain ⟨c3, ht1, ht2⟩ := planLoop_timed hc hk _ _ _ hpl
      have hcc : c3 = c2 := by
        have := ht1.symm.trans hp1
        exact List.append_cancel_left this
      rw [hcc, ← hms] at ht2
      obtain ⟨d, hd⟩ := endToEnd_safe hne hlat ht2 hmd
      simp only [hmd, hd, hfin]
      obtain ⟨rt1, re⟩ := rf
      cases re with
      | some e => exact ⟨_, rfl⟩
      | none =>
        simp only
        generalize lifeAll app.env .postprocess (List.range app.tasks) rt1.w = q
        obtain ⟨w4, f⟩ := q
        cases f <;> exact ⟨_, rfl⟩

end Runtime
end Verif
