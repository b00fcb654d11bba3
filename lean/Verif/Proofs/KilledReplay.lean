import Verif.Proofs.ReplayEnd
/-! The first iterations of a run (C110). -/
namespace Verif
namespace Runtime
open Clock CopperList Planner
variable {σ P : Type}

/-- An undisturbed loop of `m` iterations has logged `m` lists, and its first `j` iterations the first `j` of them. -/
theorem runLoop_take {app : App σ P} (hlog : app.env.log.isSome = true) {k : Nat} (m : Nat) :
    ∀ (rt rt1 : Rt σ P) (t : List (Ev P)), Idle k rt.mgr → runLoop app m rt = .ok (rt1, none) →
      rt1.w.trace = rt.w.trace ++ t → (∀ ev ∈ t, ev.stops = false) →
      (loggedLists t).length = m ∧
      ∀ j ≤ m, ∃ rtj tj, runLoop app j rt = .ok (rtj, none) ∧ rtj.w.trace = rt.w.trace ++ tj ∧ tj <+: t ∧
        loggedLists tj = (loggedLists t).take j := by
  induction m with
  | zero =>
    intro rt rt1 t _ h ht _
    simp only [runLoop, Rs.ok.injEq, Prod.mk.injEq, and_true] at h
    subst h
    have : t = [] := by simpa using ht
    subst this
    refine ⟨rfl, fun j hj => ?_⟩
    obtain rfl : j = 0 := by omega
    exact ⟨rt, [], rfl, by simp, List.prefix_refl _, rfl⟩
  | succ m ih =>
    intro rt rt1 t hi h ht hq
    unfold runLoop at h
    cases h1 : runOneIteration app rt with
    | panic => rw [h1] at h; cases h
    | ok x =>
      obtain ⟨rta, e⟩ := x
      rw [h1] at h
      cases e with
      | some e => simp at h
      | none =>
        simp only at h
        obtain ⟨its, hits, _⟩ := runLoop_trace app m rta h
        obtain ⟨hia, _, ta, hta, hpool⟩ := iteration_pool app rt hi h1
        have htt : t = ta ++ its.flatten := by
          apply List.append_cancel_left (as := rt.w.trace)
          rw [← ht, hits, hta]; simp
        rcases hpool with ⟨_, _, _, _, ev, hev, hst⟩ | ⟨_, _, msgs, _, _, hl, _⟩
        · rw [hq ev (by rw [htt]; simp [hev])] at hst; cases hst
        · rw [if_pos hlog] at hl
          obtain ⟨h2, h3⟩ := ih rta rt1 its.flatten hia h hits (fun ev hev => hq ev (by rw [htt]; simp [hev]))
          have hlt : loggedLists t = loggedLists ta ++ loggedLists its.flatten := by rw [htt, loggedLists_append]
          refine ⟨by rw [hlt, hl]; simp [h2], fun j hj => ?_⟩
          cases j with
          | zero => exact ⟨rt, [], rfl, by simp, List.nil_prefix, by simp [loggedLists]⟩
          | succ j =>
            obtain ⟨rtj, tj, h4, h5, h6, h7⟩ := h3 j (by omega)
            refine ⟨rtj, ta ++ tj, ?_, by rw [h5, hta]; simp, ?_, ?_⟩
            · unfold runLoop
              rw [h1]
              exact h4
            · rw [htt]
              exact (List.prefix_append_right_inj ta).2 h6
            · rw [hlt, hl, loggedLists_append, hl, h7]
              rfl

/-- A longer loop begins with a shorter one. -/
theorem runLoop_extends {app : App σ P} (m : Nat) : ∀ (n : Nat) (rt rt1 rt' : Rt σ P) (e : Option Err),
    m ≤ n → runLoop app m rt = .ok (rt1, none) → runLoop app n rt = .ok (rt', e) → rt1.w.trace <+: rt'.w.trace := by
  induction m with
  | zero =>
    intro n rt rt1 rt' e _ h h'
    simp only [runLoop, Rs.ok.injEq, Prod.mk.injEq, and_true] at h
    subst h
    obtain ⟨its, hits, _⟩ := runLoop_trace app n rt h'
    exact ⟨its.flatten, hits.symm⟩
  | succ m ih =>
    intro n rt rt1 rt' e hle h h'
    obtain ⟨n, rfl⟩ : ∃ n', n = n' + 1 := ⟨n - 1, by omega⟩
    unfold runLoop at h h'
    cases h1 : runOneIteration app rt with
    | panic => rw [h1] at h; cases h
    | ok x =>
      obtain ⟨rta, e⟩ := x
      rw [h1] at h h'
      cases e with
      | some e => simp at h
      | none => exact ih n rta rt1 rt' _ (by omega) h h'

/-- `stop_all_tasks` adds to the trace. -/
theorem stopAll_extends (app : App σ P) (rt : Rt σ P) : rt.w.trace <+: (stopAll app rt).1.w.trace := by
  obtain ⟨c, h, _⟩ := stopAll_trace app rt
  exact ⟨c, h.symm⟩

/-- Of a run that begins with `m` undisturbed iterations, any first lists up to the `m`th are those of an undisturbed
run of as many iterations. -/
theorem record_take {app : App σ P} (hlog : app.env.log.isSome = true) {k m n : Nat} {rt rt1 rt' : Rt σ P}
    {r : RunResult} (hfresh : rt.w.trace = []) (hi : Idle k rt.mgr) (h : record app m rt = .ok rt1)
    (hq : ∀ ev ∈ rt1.w.trace, ev.stops = false) (hmn : m ≤ n) (hrun : run app n rt = .ok (rt', r))
    {kept : List (CL (List (Msg P)))} (hk : kept <+: loggedLists rt'.w.trace) (hkm : kept.length ≤ m) :
    ∃ rtm, record app kept.length rt = .ok rtm ∧ loggedLists rtm.w.trace = kept ∧
      ∀ ev ∈ rtm.w.trace, ev.stops = false := by
  unfold record at h
  unfold run at hrun
  cases hs : startAll app rt with
  | mk rta e =>
    rw [hs] at h hrun
    cases e with
    | some e => cases h
    | none =>
      simp only at h hrun
      split at h
      · rename_i rtb hb
        simp only [Rs.ok.injEq] at h
        subst h
        obtain ⟨its, hits, _⟩ := runLoop_trace app m rta hb
        have hll : loggedLists rta.w.trace = [] := start_quiet app hs hfresh
        have hia : Idle k rta.mgr := by
          have : rta.mgr = rt.mgr := by
            have := startAll_mgr app rt
            rw [hs] at this
            exact this
          rw [this]; exact hi
        obtain ⟨h2, h3⟩ := runLoop_take hlog m rta rtb _ hia hb hits
          (fun ev hev => hq ev (by rw [hits]; exact List.mem_append_right _ hev))
        obtain ⟨rtm, tm, h4, h5, h6, h7⟩ := h3 kept.length hkm
        have hext : rtb.w.trace <+: rt'.w.trace := by
          split at hrun
          · cases hrun
          · rename_i rtc hc
            simp only [Rs.ok.injEq, Prod.mk.injEq] at hrun
            rw [← hrun.1]
            exact runLoop_extends m n rta rtb rtc _ hmn hb hc
          · rename_i rtc ec hc
            have h8 := runLoop_extends m n rta rtb rtc _ hmn hb hc
            have h9 := stopAll_extends app rtc
            generalize stopAll app rtc = q at h9 hrun
            obtain ⟨rtd, ed⟩ := q
            have : rtd = rt' := by
              cases ed <;> simp only [Rs.ok.injEq, Prod.mk.injEq] at hrun <;> exact hrun.1
            rw [← this]
            exact h8.trans h9
        obtain ⟨more, hmore⟩ := hext
        refine ⟨rtm, ?_, ?_, ?_⟩
        · unfold record
          rw [hs]
          simp only
          rw [h4]
        · rw [h5, loggedLists_append, hll, List.nil_append, h7]
          rw [← hmore, hits, loggedLists_append, loggedLists_append, hll, List.nil_append] at hk
          have := List.prefix_iff_eq_take.1 hk
          rw [List.take_append_of_le_length (by omega)] at this
          exact this.symm
        · intro ev hev
          rw [h5] at hev
          refine hq ev ?_
          rw [hits]
          obtain ⟨z, hz⟩ := h6
          rcases List.mem_append.1 hev with hev | hev
          · exact List.mem_append_left _ hev
          · exact List.mem_append_right _ (by rw [← hz]; exact List.mem_append_left _ hev)
      · cases h

end Runtime
end Verif
