import Verif.Spec.ConsoleKeys
import Verif.Props.ConsoleMon
/-! Lemmas on the keys of the console. -/
namespace Verif
namespace ConsoleMon
open Clock Verif.Runtime
variable {o : Overflow}

theorem snoc_induction {α : Type} {motive : List α → Prop} (nil : motive [])
    (append_singleton : ∀ l a, motive l → motive (l ++ [a])) (l : List α) : motive l := by
  rw [← l.reverse_reverse]
  induction l.reverse with
  | nil => exact nil
  | cons a l ih => rw [List.reverse_cons]; exact append_singleton _ a ih

theorem filterMap_same {α β : Type} {f g : α → Option β} {l : List α} (h : ∀ x ∈ l, f x = g x) :
    l.filterMap f = l.filterMap g := by
  induction l with
  | nil => rfl
  | cons a l ih =>
    rw [List.filterMap_cons, List.filterMap_cons, h a (by simp), ih (fun x hx => h x (List.mem_cons_of_mem _ hx))]

theorem story_nil (pane : Bool) : story pane [] = [] := rfl

theorem story_snoc (pane : Bool) (as : List Act) (a : Act) :
    story pane (as ++ [a]) = story pane as ++ (meaning pane as a).toList := by
  have hz : (List.range (as.length + 1)).zip (as ++ [a]) = (List.range as.length).zip as ++ [(as.length, a)] := by
    rw [List.range_succ, List.zip_append (by simp)]
    rfl
  unfold story
  rw [List.length_append, List.length_singleton, hz, List.filterMap_append]
  congr 1
  · apply filterMap_same
    rintro ⟨i, x⟩ hx
    have hi : i < as.length := by
      have := (List.of_mem_zip hx).1
      simpa using this
    simp only
    rw [List.take_append_of_le_length (by omega)]
  · simp only [List.filterMap_cons, List.filterMap_nil]
    rw [List.take_append_of_le_length (by omega), List.take_length]
    cases meaning pane as a <;> rfl

theorem onScreen_snoc (pane : Bool) (as : List Act) (a : Act) :
    onScreen pane (as ++ [a]) =
      match a with | .key c _ => (menu pane c).getD (onScreen pane as) | _ => onScreen pane as := by
  unfold onScreen asked
  rw [List.filterMap_append]
  cases a with
  | key c ctrl =>
    cases h : menu pane c <;> simp [h]
  | _ => simp

theorem crun_snoc {k k' : Console} {as : List Act} {a : Act} {vs : List Shown} :
    k.run o (as ++ [a]) = .ok (k', vs) ↔
      ∃ k₁ vs₁ v, k.run o as = .ok (k₁, vs₁) ∧ k₁.step o a = .ok (k', v) ∧ vs = vs₁ ++ [v] := by
  induction as generalizing k vs with
  | nil =>
    simp only [List.nil_append, Console.run, Rs.bind_eq_ok, Rs.pure_eq, Rs.ok.injEq, Prod.mk.injEq, Prod.exists]
    constructor
    · rintro ⟨k₁, v, h, k₂, vs', ⟨rfl, rfl⟩, rfl, rfl⟩
      exact ⟨k, [], v, ⟨rfl, rfl⟩, h, rfl⟩
    · rintro ⟨k₁, vs₁, v, ⟨rfl, rfl⟩, h, rfl⟩
      exact ⟨k', v, h, k', [], ⟨rfl, rfl⟩, rfl, rfl⟩
  | cons b as ih =>
    simp only [List.cons_append, Console.run, Rs.bind_eq_ok, Rs.pure_eq, Rs.ok.injEq, Prod.mk.injEq, Prod.exists]
    constructor
    · rintro ⟨k₁, v, h, k₂, vs', h2, rfl, rfl⟩
      obtain ⟨k₃, vs₁, w, h3, h4, rfl⟩ := ih.1 h2
      exact ⟨k₃, v :: vs₁, w, ⟨k₁, v, h, k₃, vs₁, h3, rfl, rfl⟩, h4, rfl⟩
    · rintro ⟨k₃, vs₁, w, ⟨k₁, v, h, k₂, vs', h3, rfl, rfl⟩, h4, rfl⟩
      exact ⟨k₁, v, h, k', vs' ++ [w], ih.2 ⟨_, _, _, h3, h4, rfl⟩, rfl, rfl⟩

theorem key_eq {k : Console} {s : Screen} {c : Char} (hq : c ≠ 'q') :
    k.key s c = { k with
      mon := if c = 'r' ∧ s = .latency then { k.mon with stats := k.mon.stats.reset } else k.mon
      screen := if (menu k.pane c).isSome then menu k.pane c else k.screen } := by
  unfold Console.key menu
  by_cases h1 : c = '1'
  · subst h1; simp
  by_cases h2 : c = '2'
  · subst h2; simp
  by_cases h3 : c = '3'
  · subst h3; simp
  by_cases h4 : c = '4'
  · subst h4; simp
  by_cases h5 : c = '5'
  · subst h5
    cases k with
    | mk m sc pane => cases pane <;> simp
  by_cases hr : c = 'r'
  · subst hr
    by_cases hs : s = .latency <;> simp [hs]
  · simp [h1, h2, h3, h4, h5, hr, hq]

/-- While the console is up, the monitor is what the story makes of it, and the screen is the one asked for. -/
theorem console_story {n : Nat} {pane : Bool} {m₀ : Mon} (hm : Mon.new n = .ok m₀) (as : List Act) :
    ∀ {k : Console} {vs : List Shown}, Up as → Console.run o ⟨m₀, some .sysInfo, pane⟩ as = .ok (k, vs) →
      k.pane = pane ∧ k.screen = some (onScreen pane as) ∧ ∃ rs, m₀.run o (story pane as) = .ok (k.mon, rs) := by
  induction as using snoc_induction with
  | nil =>
    intro k vs _ h
    simp only [Console.run, Rs.ok.injEq, Prod.mk.injEq] at h
    obtain ⟨rfl, -⟩ := h
    exact ⟨rfl, rfl, [], rfl⟩
  | append_singleton as a ih =>
    intro k vs hu h
    obtain ⟨k₁, vs₁, v, h1, h2, -⟩ := crun_snoc.1 h
    obtain ⟨hp, hs, rs, hr⟩ := ih (fun b hb => hu b (List.mem_append_left _ hb)) h1
    have ha := hu a (by simp)
    rw [story_snoc, onScreen_snoc]
    have one : ∀ {e : Event} {m' : Mon} {r : Reply}, k₁.mon.step o e = .ok (m', r) →
        ∃ rs, m₀.run o (story pane as ++ [e]) = .ok (m', rs) := fun he =>
      ⟨_, run_append.2 ⟨_, _, _, hr, run_cons.2 ⟨_, _, _, he, rfl, rfl⟩, rfl⟩⟩
    cases a with
    | iteration msgs =>
      simp only [Console.step, Rs.bind_eq_ok, Rs.pure_eq, Rs.ok.injEq, Prod.mk.injEq, Prod.exists] at h2
      obtain ⟨m', r, h3, rfl, -⟩ := h2
      exact ⟨hp, hs, one h3⟩
    | failure t p e =>
      simp only [Console.step, Rs.bind_eq_ok, Rs.pure_eq, Rs.ok.injEq, Prod.mk.injEq, Prod.exists] at h2
      obtain ⟨m', r, h3, rfl, -⟩ := h2
      exact ⟨hp, hs, one h3⟩
    | stop =>
      simp only [Console.step, Rs.bind_eq_ok, Rs.pure_eq, Rs.ok.injEq, Prod.mk.injEq, Prod.exists] at h2
      obtain ⟨m', r, h3, rfl, -⟩ := h2
      exact ⟨hp, hs, one h3⟩
    | draw =>
      simp only [Console.step, hs, Rs.ok.injEq] at h2
      simp only [meaning]
      by_cases hd : onScreen pane as = .dag
      · rw [hd] at h2
        simp only [Console.draw, Prod.mk.injEq] at h2
        obtain ⟨rfl, -⟩ := h2
        rw [if_pos hd]
        exact ⟨hp, hs, one (e := .draw) rfl⟩
      · have hk : k = k₁ := by
          cases hx : onScreen pane as <;> rw [hx] at h2 hd <;> simp [Console.draw] at h2 hd <;> exact h2.1.symm
        subst hk
        rw [if_neg hd]
        exact ⟨hp, hs, rs, by simpa using hr⟩
    | key c ctrl =>
      have hq : c ≠ 'q' := fun hc => ha.2 ctrl (by rw [hc])
      simp only [Console.step, hs, Rs.ok.injEq, Prod.mk.injEq] at h2
      obtain ⟨h2, -⟩ := h2
      rw [key_eq hq, hp] at h2
      subst h2
      refine ⟨rfl, ?_, ?_⟩
      · cases hmn : menu pane c <;> simp [hs, hmn]
      · simp only [meaning]
        by_cases hc : c = 'r' ∧ onScreen pane as = .latency
        · rw [if_pos hc, if_pos hc]
          exact one (e := .reset) rfl
        · rw [if_neg hc, if_neg hc]
          exact ⟨rs, by simpa using hr⟩
    | fails => exact absurd rfl ha.1

/-- The flag of a console whose terminal works. -/
theorem console_quit {m₀ : Mon} {pane : Bool} (hq : m₀.quitting = false) (as : List Act) :
    ∀ {k : Console} {vs : List Shown}, Act.fails ∉ as → Console.run o ⟨m₀, some .sysInfo, pane⟩ as = .ok (k, vs) →
      (k.mon.quitting = true ↔ ∃ ctrl, Act.key 'q' ctrl ∈ as) ∧ (k.screen = none ↔ k.mon.quitting = true) := by
  induction as using snoc_induction with
  | nil =>
    intro k vs _ h
    simp only [Console.run, Rs.ok.injEq, Prod.mk.injEq] at h
    obtain ⟨rfl, -⟩ := h
    simp [hq]
  | append_singleton as a ih =>
    intro k vs hf h
    obtain ⟨k₁, vs₁, v, h1, h2, -⟩ := crun_snoc.1 h
    obtain ⟨i1, i2⟩ := ih (fun hb => hf (List.mem_append_left _ hb)) h1
    have keep : ∀ {e : Event} {m' : Mon} {r : Reply}, k₁.mon.step o e = .ok (m', r) → e ≠ .quit →
        m'.quitting = k₁.mon.quitting := fun he hne => by
      rw [(quitting_step he).1]; simp [hne]
    cases a with
    | iteration msgs =>
      simp only [Console.step, Rs.bind_eq_ok, Rs.pure_eq, Rs.ok.injEq, Prod.mk.injEq, Prod.exists] at h2
      obtain ⟨m', r, h3, rfl, -⟩ := h2
      have := keep h3 (by simp)
      simp [this, i1, i2]
    | failure t p e =>
      simp only [Console.step, Rs.bind_eq_ok, Rs.pure_eq, Rs.ok.injEq, Prod.mk.injEq, Prod.exists] at h2
      obtain ⟨m', r, h3, rfl, -⟩ := h2
      have := keep h3 (by simp)
      simp [this, i1, i2]
    | stop =>
      simp only [Console.step, Rs.bind_eq_ok, Rs.pure_eq, Rs.ok.injEq, Prod.mk.injEq, Prod.exists] at h2
      obtain ⟨m', r, h3, rfl, -⟩ := h2
      have := keep h3 (by simp)
      simp [this, i1, i2]
    | draw =>
      have hk : k.mon.quitting = k₁.mon.quitting ∧ k.screen = k₁.screen := by
        cases hs : k₁.screen with
        | none =>
          simp only [Console.step, hs, Rs.ok.injEq, Prod.mk.injEq] at h2
          rw [← h2.1]; exact ⟨rfl, hs⟩
        | some s =>
          simp only [Console.step, hs, Rs.ok.injEq] at h2
          cases s <;> simp only [Console.draw, Prod.mk.injEq] at h2 <;> rw [← h2.1] <;> exact ⟨rfl, hs⟩
      rw [hk.1, hk.2]
      simp [i1, i2]
    | key c ctrl =>
      cases hs : k₁.screen with
      | none =>
        simp only [Console.step, hs, Rs.ok.injEq, Prod.mk.injEq] at h2
        obtain ⟨rfl, -⟩ := h2
        have hq1 := i2.1 hs
        refine ⟨⟨fun _ => ?_, fun _ => hq1⟩, i2⟩
        obtain ⟨c', hc'⟩ := i1.1 hq1
        exact ⟨c', List.mem_append_left _ hc'⟩
      | some s =>
        simp only [Console.step, hs, Rs.ok.injEq, Prod.mk.injEq] at h2
        obtain ⟨h2, -⟩ := h2
        by_cases hc : c = 'q'
        · subst hc
          have hk : k.mon.quitting = true ∧ k.screen = none := by rw [← h2]; simp [Console.key]
          exact ⟨⟨fun _ => ⟨ctrl, by simp⟩, fun _ => hk.1⟩, ⟨fun _ => hk.1, fun _ => hk.2⟩⟩
        · rw [key_eq hc] at h2
          have hk : k.mon.quitting = k₁.mon.quitting := by
            rw [← h2]; simp only; split <;> rfl
          have hk' : k.screen ≠ none := by
            rw [← h2]; simp only [hs]; cases menu k₁.pane c <;> simp
          have h0 : k₁.mon.quitting ≠ true := fun hx => by rw [i2.2 hx] at hs; cases hs
          rw [hk]
          refine ⟨⟨fun hx => absurd hx h0, ?_⟩, ⟨fun hx => absurd hx hk', fun hx => absurd hx h0⟩⟩
          rintro ⟨c', hc'⟩
          rcases List.mem_append.1 hc' with hc' | hc'
          · exact i1.2 ⟨c', hc'⟩
          · simp only [List.mem_singleton, Act.key.injEq] at hc'
            exact absurd hc'.1.symm hc
    | fails => exact absurd (by simp) hf

/-- Once its terminal has failed, nothing reaches a console but the calls of the application. -/
theorem console_dead (as : List Act) : ∀ {k k' : Console} {vs : List Shown}, k.screen = none →
    k.run o as = .ok (k', vs) → k'.screen = none ∧ k'.mon.quitting = k.mon.quitting := by
  induction as with
  | nil =>
    intro k k' vs hs h
    simp only [Console.run, Rs.ok.injEq, Prod.mk.injEq] at h
    obtain ⟨rfl, -⟩ := h
    exact ⟨hs, rfl⟩
  | cons a as ih =>
    intro k k' vs hs h
    simp only [Console.run, Rs.bind_eq_ok, Rs.pure_eq, Rs.ok.injEq, Prod.mk.injEq, Prod.exists] at h
    obtain ⟨k₁, v, h1, k₂, vs', h2, rfl, -⟩ := h
    have hk : k₁.screen = none ∧ k₁.mon.quitting = k.mon.quitting := by
      cases a with
      | iteration msgs =>
        simp only [Console.step, Rs.bind_eq_ok, Rs.pure_eq, Rs.ok.injEq, Prod.mk.injEq, Prod.exists] at h1
        obtain ⟨m', r, h3, rfl, -⟩ := h1
        exact ⟨hs, by rw [(quitting_step h3).1]; simp⟩
      | failure t p e =>
        simp only [Console.step, Rs.bind_eq_ok, Rs.pure_eq, Rs.ok.injEq, Prod.mk.injEq, Prod.exists] at h1
        obtain ⟨m', r, h3, rfl, -⟩ := h1
        exact ⟨hs, by rw [(quitting_step h3).1]; simp⟩
      | stop =>
        simp only [Console.step, Rs.bind_eq_ok, Rs.pure_eq, Rs.ok.injEq, Prod.mk.injEq, Prod.exists] at h1
        obtain ⟨m', r, h3, rfl, -⟩ := h1
        exact ⟨hs, by rw [(quitting_step h3).1]; simp⟩
      | draw => simp only [Console.step, hs, Rs.ok.injEq, Prod.mk.injEq] at h1; rw [← h1.1]; exact ⟨hs, rfl⟩
      | key c ctrl => simp only [Console.step, hs, Rs.ok.injEq, Prod.mk.injEq] at h1; rw [← h1.1]; exact ⟨hs, rfl⟩
      | fails => simp only [Console.step, Rs.ok.injEq, Prod.mk.injEq] at h1; rw [← h1.1]; exact ⟨rfl, rfl⟩
    obtain ⟨h3, h4⟩ := ih hk.1 h2
    exact ⟨h3, h4.trans hk.2⟩

end ConsoleMon
end Verif
