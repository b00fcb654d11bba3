import Verif.Spec.LogRuntime
/-! Threads that log text lines. -/
namespace Verif
namespace LogRt

section
variable {answer : Nat → List LogEntry → LogEntry → Answer}

/-- The entries of a thread handed over so far, in order. -/
def Sys.of (s : Sys) (th : Nat) : List LogEntry := (s.out.filter (fun o => o.2.1 == th)).map (·.2.2)

def Sys.clock (s : Sys) : Option Nat := s.writer.map (·.1)

/-- What one action does to the output. -/
theorem step_out (s : Sys) (a : Act) :
    (s.step answer a).1.out = s.out ∨
    ∃ th e f, a = .write th ∧ s.pending th = some e ∧ (s.step answer a).1.out = s.out ++ [(f, th, e)] := by
  cases a with
  | init c w =>
    left
    unfold Sys.step
    cases s.writer with
    | none => rfl
    | some p => simp only; split <;> rfl
  | drop =>
    left
    unfold Sys.step
    cases s.writer with
    | none => rfl
    | some p => simp only; split <;> rfl
  | stamp th e now =>
    left
    unfold Sys.step
    cases s.writer <;> rfl
  | write th =>
    cases hp : s.pending th with
    | none => left; simp [Sys.step, hp]
    | some e =>
      cases hw : s.writer with
      | none => left; simp [Sys.step, hp, hw]
      | some p =>
        obtain ⟨c, d⟩ := p
        right
        simp only [Sys.step, hp, hw]
        by_cases hpo : s.poisoned = true
        · exact ⟨th, e, .panicked, rfl, hp, by simp [hpo]⟩
        · cases d with
          | none => exact ⟨th, e, .cut, rfl, hp, by simp [hpo]⟩
          | some w =>
            cases ha : answer w (s.file w) e with
            | recorded => exact ⟨th, e, .file w, rfl, hp, by simp [hpo, ha]⟩
            | error => exact ⟨th, e, .failed, rfl, hp, by simp [hpo, ha]⟩
            | panic => exact ⟨th, e, .panicked, rfl, hp, by simp [hpo, ha]⟩

/-- The clock is that of the first `init`. -/
theorem step_clock (s : Sys) (a : Act) :
    (s.step answer a).1.clock = match s.clock, a with | none, .init c _ => some c | k, _ => k := by
  cases a with
  | init c w =>
    unfold Sys.step Sys.clock
    cases hw : s.writer with
    | none => rfl
    | some p => simp only; split <;> simp [hw]
  | drop =>
    unfold Sys.step Sys.clock
    cases hw : s.writer with
    | none => simp [hw]
    | some p => simp only; split <;> simp [hw]
  | stamp th e now =>
    unfold Sys.step Sys.clock
    cases hw : s.writer <;> simp [hw]
  | write th =>
    unfold Sys.step Sys.clock
    cases hp : s.pending th with
    | none => cases hw : s.writer <;> simp [hp, hw]
    | some e =>
      cases hw : s.writer with
      | none => simp [hp, hw]
      | some p =>
        obtain ⟨c, d⟩ := p
        by_cases hpo : s.poisoned = true
        · simp [hp, hpo]
        · cases d with
          | none => simp [hp, hpo]
          | some w => cases ha : answer w (s.file w) e <;> simp [hp, hpo, ha]

/-- The calls under way. -/
theorem step_pending (s : Sys) (a : Act) (j : Nat) :
    (s.step answer a).1.pending j =
      match a, s.clock with
      | .stamp th e now, some c => if j = th then some { e with time := now c } else s.pending j
      | .write th, some _ => if j = th then none else s.pending j
      | _, _ => s.pending j := by
  cases a with
  | init c w =>
    unfold Sys.step
    cases hw : s.writer with
    | none => rfl
    | some p => simp only; split <;> rfl
  | drop =>
    unfold Sys.step
    cases hw : s.writer with
    | none => rfl
    | some p => simp only; split <;> rfl
  | stamp th e now =>
    unfold Sys.step Sys.clock
    cases hw : s.writer with
    | none => simp
    | some p => simp [Sys.setPending]
  | write th =>
    unfold Sys.step Sys.clock
    cases hw : s.writer with
    | none => cases hp : s.pending th <;> simp [hp]
    | some p =>
      obtain ⟨c, d⟩ := p
      cases hp : s.pending th with
      | none =>
        simp only [hp, Option.map_some]
        split
        · rename_i h; rw [h, hp]
        · rfl
      | some e =>
        by_cases hpo : s.poisoned = true
        · simp [hp, hpo, Sys.setPending]
        · cases d with
          | none => simp [hp, hpo, Sys.setPending]
          | some w => cases ha : answer w (s.file w) e <;> simp [hp, hpo, ha, Sys.setPending]

theorem steps_append (as bs : List Act) : ∀ s : Sys,
    (s.steps answer (as ++ bs)).1 = ((s.steps answer as).1.steps answer bs).1 := by
  induction as with
  | nil => intro s; rfl
  | cons a as ih => intro s; simp only [List.cons_append, Sys.steps]; exact ih _

/-- Only grows. -/
theorem steps_prefix (as : List Act) : ∀ s : Sys, s.out <+: (s.steps answer as).1.out := by
  induction as with
  | nil => intro s; exact List.prefix_refl _
  | cons a as ih =>
    intro s
    refine List.IsPrefix.trans ?_ (ih (s.step answer a).1)
    rcases step_out (answer := answer) s a with h | ⟨th, e, f, _, _, h⟩
    · rw [h]; exact List.prefix_refl _
    · rw [h]; exact List.prefix_append _ _

/-- The calls of a thread, one after the other: handed over, or under way. -/
theorem steps_calls (th : Nat) (as : List Act) : ∀ (s : Sys) (busy : List Nat), Sequential busy as →
    (∀ j, s.pending j ≠ none → j ∈ busy) → (s.clock = none → ∀ j, s.pending j = none) →
    (s.steps answer as).1.of th ++ ((s.steps answer as).1.pending th).toList =
      s.of th ++ (s.pending th).toList ++ callsOf th s.clock as := by
  induction as with
  | nil => intro s busy _ _ _; simp [Sys.steps, callsOf]
  | cons a as ih =>
    intro s busy hseq hbusy hnone
    simp only [Sys.steps]
    have hc := step_clock (answer := answer) s a
    have hp := step_pending (answer := answer) s a
    have ho := step_out (answer := answer) s a
    have hmain : ∀ busy', Sequential busy' as →
        (∀ j, (s.step answer a).1.pending j ≠ none → j ∈ busy') →
        (s.step answer a).1.of th ++ ((s.step answer a).1.pending th).toList ++
          callsOf th (s.step answer a).1.clock as =
          s.of th ++ (s.pending th).toList ++ callsOf th s.clock (a :: as) →
        ((s.step answer a).1.steps answer as).1.of th ++
          (((s.step answer a).1.steps answer as).1.pending th).toList =
          s.of th ++ (s.pending th).toList ++ callsOf th s.clock (a :: as) := by
      intro busy' h1 h2 h3
      rw [ih _ busy' h1 h2 ?_, h3]
      intro hn j
      rw [hc] at hn
      have hs : s.clock = none := by
        cases h : s.clock with
        | none => rfl
        | some k => rw [h] at hn; cases a <;> simp at hn
      rw [hp j, hs]
      cases a <;> exact hnone hs j
    have hof : (s.step answer a).1.out = s.out → (s.step answer a).1.of th = s.of th := by
      intro h; unfold Sys.of; rw [h]
    cases a with
    | init c w =>
      refine hmain busy hseq (fun j => by rw [hp j]; exact hbusy j) ?_
      rw [hp th, hc, hof (by rcases ho with h | ⟨_, _, _, h, _⟩ <;> simp_all)]
      cases s.clock <;> rfl
    | drop =>
      refine hmain busy hseq (fun j => by rw [hp j]; exact hbusy j) ?_
      rw [hp th, hc, hof (by rcases ho with h | ⟨_, _, _, h, _⟩ <;> simp_all)]
      cases s.clock <;> rfl
    | stamp t e now =>
      refine hmain (t :: busy) hseq.2 (fun j => ?_) ?_
      · rw [hp j]
        cases hk : s.clock with
        | none => intro h; exact List.mem_cons_of_mem _ (hbusy j h)
        | some k =>
          simp only
          split
          · rename_i h; intro _; rw [h]; simp
          · intro h; exact List.mem_cons_of_mem _ (hbusy j h)
      · rw [hp th, hc, hof (by rcases ho with h | ⟨_, _, _, h, _⟩ <;> simp_all)]
        have ht : s.pending t = none := by
          cases h : s.pending t with
          | none => rfl
          | some o => exact absurd (hbusy t (by simp [h])) hseq.1
        cases hk : s.clock with
        | none => rfl
        | some k =>
          simp only [callsOf]
          by_cases h : th = t
          · subst h; simp [ht]
          · simp [h, Ne.symm h]
    | write t =>
      refine hmain (busy.filter (· != t)) hseq.2 (fun j => ?_) ?_
      · rw [hp j]
        cases hk : s.clock with
        | none => intro h; exact absurd (hnone hk j) h
        | some k =>
          simp only
          split
          · intro h; exact absurd rfl h
          · rename_i hj; intro h; simp [hbusy j h, hj]
      · rw [hp th, hc]
        have hcalls : callsOf th s.clock (.write t :: as) = callsOf th s.clock as := by
          cases s.clock <;> rfl
        rw [hcalls]
        cases hk : s.clock with
        | none =>
          have h0 := hnone hk
          rw [hof (by
            rcases ho with h | ⟨t', e, f, ht, h, _⟩
            · exact h
            · rw [h0] at h; cases h)]
        | some k =>
          simp only
          rcases ho with h | ⟨t', e, f, ht, hpe, h⟩
          · -- nothing was pending
            rw [hof h]
            by_cases htt : th = t
            · subst htt
              have : s.pending th = none := by
                cases hx : s.pending th with
                | none => rfl
                | some e =>
                  exfalso
                  obtain ⟨⟨c', d⟩, hw⟩ : ∃ p, s.writer = some p := by
                    cases hw : s.writer with
                    | none => simp [Sys.clock, hw] at hk
                    | some p => exact ⟨p, rfl⟩
                  simp only [Sys.step, hx, hw] at h
                  by_cases hpo : s.poisoned = true
                  · simp [hpo] at h
                  · cases d with
                    | none => simp [hpo] at h
                    | some w => cases ha : answer w (s.file w) e <;> simp [hpo, ha] at h
              simp [this]
            · simp [htt]
          · obtain rfl : t = t' := by simpa using ht
            by_cases htt : th = t
            · subst htt
              simp [Sys.of, h, hpe]
            · simp [Sys.of, h, htt, Ne.symm htt]

/-- Times seen so far. -/
structure Before (lo : UInt64) (s : Sys) : Prop where
  out : ∀ o ∈ s.out, o.2.2.time ≤ lo
  pending : ∀ j e, s.pending j = some e → e.time ≤ lo

theorem forward_cons {s : Sys} {lo : UInt64} {a : Act} {as : List Act} (hf : Forward s.clock lo (a :: as))
    (hb : Before lo s) :
    ∃ lo', lo ≤ lo' ∧ Before lo' (s.step answer a).1 ∧ Forward (s.step answer a).1.clock lo' as ∧
      ∀ j e, (s.step answer a).1.pending j = some e → s.pending j = some e ∨ lo ≤ e.time := by
  have hc := step_clock (answer := answer) s a
  have hp := step_pending (answer := answer) s a
  have hout : ∀ lo', lo ≤ lo' → ∀ o ∈ (s.step answer a).1.out, o.2.2.time ≤ lo' := by
    intro lo' hl o ho
    rcases step_out (answer := answer) s a with h | ⟨th, e, f, _, hpe, h⟩
    · rw [h] at ho; exact UInt64.le_trans (hb.out o ho) hl
    · rw [h] at ho
      rcases List.mem_append.1 ho with ho | ho
      · exact UInt64.le_trans (hb.out o ho) hl
      · obtain rfl : o = (f, th, e) := by simpa using ho
        exact UInt64.le_trans (hb.pending th e hpe) hl
  have hsame : Forward (s.step answer a).1.clock lo as →
      (∀ j e, (s.step answer a).1.pending j = some e → s.pending j = some e) →
      ∃ lo', lo ≤ lo' ∧ Before lo' (s.step answer a).1 ∧ Forward (s.step answer a).1.clock lo' as ∧
      ∀ j e, (s.step answer a).1.pending j = some e → s.pending j = some e ∨ lo ≤ e.time := by
    intro h1 h2
    exact ⟨lo, UInt64.le_refl _, ⟨hout lo (UInt64.le_refl _), fun j e h => hb.pending j e (h2 j e h)⟩, h1,
      fun j e h => .inl (h2 j e h)⟩
  cases a with
  | init c w =>
    refine hsame ?_ (fun j e h => by rw [hp j] at h; exact h)
    rw [hc]
    cases hk : s.clock with
    | none => rw [hk] at hf; exact hf
    | some k => rw [hk] at hf; exact hf
  | drop =>
    refine hsame ?_ (fun j e h => by rw [hp j] at h; exact h)
    rw [hc]
    cases hk : s.clock with
    | none => rw [hk] at hf; exact hf
    | some k => rw [hk] at hf; exact hf
  | write t =>
    refine hsame ?_ (fun j e h => ?_)
    · rw [hc]
      cases hk : s.clock with
      | none => rw [hk] at hf; exact hf
      | some k => rw [hk] at hf; exact hf
    · rw [hp j] at h
      cases hk : s.clock with
      | none => rw [hk] at h; exact h
      | some k =>
        rw [hk] at h
        simp only at h
        split at h
        · cases h
        · exact h
  | stamp t e0 now =>
    cases hk : s.clock with
    | none =>
      refine hsame ?_ (fun j e h => by rw [hp j, hk] at h; exact h)
      rw [hc, hk]
      rw [hk] at hf; exact hf
    | some k =>
      rw [hk] at hf
      obtain ⟨h1, h2⟩ := hf
      have hpp : ∀ j e, (s.step answer (.stamp t e0 now)).1.pending j = some e →
          s.pending j = some e ∨ e.time = now k := by
        intro j e h
        rw [hp j, hk] at h
        simp only at h
        split at h
        · right; obtain rfl := Option.some.inj h; rfl
        · left; exact h
      refine ⟨now k, h1, ⟨hout _ h1, fun j e h => ?_⟩, by rw [hc, hk]; exact h2, fun j e h => ?_⟩
      · rcases hpp j e h with h | h
        · exact UInt64.le_trans (hb.pending j e h) h1
        · rw [h]; exact UInt64.le_refl _
      · rcases hpp j e h with h | h
        · exact .inl h
        · right; rw [h]; exact h1

/-- After some actions: times so far are before those of what follows. -/
theorem forward_split (as bs : List Act) : ∀ (s : Sys) (lo : UInt64), Forward s.clock lo (as ++ bs) → Before lo s →
    ∃ lo', Before lo' (s.steps answer as).1 ∧ Forward (s.steps answer as).1.clock lo' bs := by
  induction as with
  | nil => intro s lo hf hb; exact ⟨lo, hb, hf⟩
  | cons a as ih =>
    intro s lo hf hb
    obtain ⟨lo', _, h1, h2, _⟩ := forward_cons (answer := answer) hf hb
    exact ih _ lo' h2 h1

/-- What is handed over later was under way, or is not earlier. -/
theorem forward_new (as : List Act) : ∀ (s : Sys) (lo : UInt64), Forward s.clock lo as → Before lo s →
    ∃ new, (s.steps answer as).1.out = s.out ++ new ∧
      ∀ o ∈ new, s.pending o.2.1 = some o.2.2 ∨ lo ≤ o.2.2.time := by
  induction as with
  | nil => intro s lo _ _; exact ⟨[], by simp [Sys.steps], by simp⟩
  | cons a as ih =>
    intro s lo hf hb
    obtain ⟨lo', h0, h1, h2, h3⟩ := forward_cons (answer := answer) hf hb
    obtain ⟨new, h4, h5⟩ := ih _ lo' h2 h1
    have h6 : ∀ o ∈ new, s.pending o.2.1 = some o.2.2 ∨ lo ≤ o.2.2.time := by
      intro o ho
      rcases h5 o ho with h | h
      · exact h3 _ _ h
      · exact .inr (UInt64.le_trans h0 h)
    simp only [Sys.steps]
    rcases step_out (answer := answer) s a with h | ⟨th, e, f, _, hpe, h⟩
    · exact ⟨new, by rw [h4, h], h6⟩
    · refine ⟨(f, th, e) :: new, by rw [h4, h]; simp, ?_⟩
      intro o ho
      rcases List.mem_cons.1 ho with rfl | ho
      · exact .inl hpe
      · exact h6 o ho

/-- The calls of a thread are in the order of their times. -/
theorem calls_order (th : Nat) (as : List Act) : ∀ (clock : Option Nat) (lo : UInt64), Forward clock lo as →
    InOrder (callsOf th clock as) ∧ ∀ e ∈ callsOf th clock as, lo ≤ e.time := by
  induction as with
  | nil => intro clock lo _; simp [callsOf, InOrder]
  | cons a as ih =>
    intro clock lo hf
    cases clock with
    | none =>
      cases a with
      | init c w => exact ih _ _ hf
      | drop => exact ih _ _ hf
      | stamp t e now => exact ih _ _ hf
      | write t => exact ih _ _ hf
    | some c =>
      cases a with
      | init c w => exact ih _ _ hf
      | drop => exact ih _ _ hf
      | write t => exact ih _ _ hf
      | stamp t e now =>
        obtain ⟨h1, h2⟩ := hf
        obtain ⟨h3, h4⟩ := ih _ _ h2
        have h5 : ∀ e ∈ callsOf th (some c) as, lo ≤ e.time := fun e he => UInt64.le_trans h1 (h4 e he)
        simp only [callsOf]
        split
        · refine ⟨?_, ?_⟩
          · simp only [InOrder, List.cons_append, List.nil_append, List.pairwise_cons]
            exact ⟨h4, h3⟩
          · intro x hx
            simp only [List.cons_append, List.nil_append, List.mem_cons] at hx
            rcases hx with rfl | hx
            · exact h1
            · exact h5 x hx
        · exact ⟨h3, h5⟩

/-- A destination that is there, works and stays. -/
theorem steady_steps {c w : Nat} (hans : ∀ l e, answer w l e = .recorded) (as : List Act) : ∀ s : Sys,
    s.writer = some (c, some w) → s.poisoned = false → Steady as →
    (s.steps answer as).1.writer = some (c, some w) ∧ (s.steps answer as).1.poisoned = false ∧
    (∀ r ∈ (s.steps answer as).2, r = .done) ∧
    ∃ new, (s.steps answer as).1.out = s.out ++ new ∧ ∀ o ∈ new, o.1 = .file w := by
  induction as with
  | nil => intro s h1 h2 _; exact ⟨h1, h2, by simp [Sys.steps], [], by simp [Sys.steps], by simp⟩
  | cons a as ih =>
    intro s h1 h2 hst
    have hst' : Steady as := fun a ha => hst a (List.mem_cons_of_mem _ ha)
    have hone : (s.step answer a).1.writer = some (c, some w) ∧ (s.step answer a).1.poisoned = false ∧
        (s.step answer a).2 = .done ∧
        ∃ new, (s.step answer a).1.out = s.out ++ new ∧ ∀ o ∈ new, o.1 = .file w := by
      cases a with
      | init c' w' => exact absurd rfl ((hst _ (by simp)).1 c' w')
      | drop => exact absurd rfl (hst _ (by simp)).2
      | stamp t e now =>
        exact ⟨by simp [Sys.step, h1], by simp [Sys.step, h1, h2], by simp [Sys.step, h1], [],
          by simp [Sys.step, h1], by simp⟩
      | write t =>
        cases hp : s.pending t with
        | none => exact ⟨by simp [Sys.step, hp, h1], by simp [Sys.step, hp, h2], by simp [Sys.step, hp], [],
            by simp [Sys.step, hp], by simp⟩
        | some e => exact ⟨by simp [Sys.step, hp, h1, h2, hans], by simp [Sys.step, hp, h1, h2, hans],
            by simp [Sys.step, hp, h1, h2, hans], [(.file w, t, e)], by simp [Sys.step, hp, h1, h2, hans], by simp⟩
    obtain ⟨g1, g2, g3, n1, g4, g5⟩ := hone
    obtain ⟨k1, k2, k3, n2, k4, k5⟩ := ih _ g1 g2 hst'
    simp only [Sys.steps]
    refine ⟨k1, k2, ?_, n1 ++ n2, by rw [k4, g4, List.append_assoc], ?_⟩
    · intro r hr
      rcases List.mem_cons.1 hr with rfl | hr
      · exact g3
      · exact k3 r hr
    · intro o ho
      rcases List.mem_append.1 ho with ho | ho
      · exact g5 o ho
      · exact k5 o ho

/-- A poisoned lock. -/
theorem poisoned_steps (as : List Act) : ∀ s : Sys, s.writer.isSome → s.poisoned = true →
    (s.steps answer as).1.writer = s.writer ∧ (s.steps answer as).1.poisoned = true ∧
    ∃ new, (s.steps answer as).1.out = s.out ++ new ∧ ∀ o ∈ new, o.1 = .panicked := by
  induction as with
  | nil => intro s _ h2; exact ⟨rfl, h2, [], by simp [Sys.steps], by simp⟩
  | cons a as ih =>
    intro s h1 h2
    obtain ⟨⟨c, d⟩, hw⟩ := Option.isSome_iff_exists.1 h1
    have hone : (s.step answer a).1.writer = s.writer ∧ (s.step answer a).1.poisoned = true ∧
        ∃ new, (s.step answer a).1.out = s.out ++ new ∧ ∀ o ∈ new, o.1 = .panicked := by
      cases a with
      | init c' w' => exact ⟨by simp [Sys.step, hw, h2], by simp [Sys.step, hw, h2], [], by simp [Sys.step, hw, h2], by simp⟩
      | drop => exact ⟨by simp [Sys.step, hw, h2], by simp [Sys.step, hw, h2], [], by simp [Sys.step, hw, h2], by simp⟩
      | stamp t e now => exact ⟨by simp [Sys.step, hw], by simp [Sys.step, hw, h2], [], by simp [Sys.step, hw], by simp⟩
      | write t =>
        cases hp : s.pending t with
        | none => exact ⟨by simp [Sys.step, hp], by simp [Sys.step, hp, h2], [], by simp [Sys.step, hp], by simp⟩
        | some e => exact ⟨by simp [Sys.step, hp, hw, h2], by simp [Sys.step, hp, hw, h2], [(.panicked, t, e)],
            by simp [Sys.step, hp, hw, h2], by simp⟩
    obtain ⟨g1, g2, n1, g4, g5⟩ := hone
    obtain ⟨k1, k2, n2, k4, k5⟩ := ih _ (by rw [g1]; exact h1) g2
    simp only [Sys.steps]
    refine ⟨by rw [k1, g1], k2, n1 ++ n2, by rw [k4, g4, List.append_assoc], ?_⟩
    intro o ho
    rcases List.mem_append.1 ho with ho | ho
    · exact g5 o ho
    · exact k5 o ho

end

end LogRt
end Verif
