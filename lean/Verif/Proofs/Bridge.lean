import Verif.Spec.Bridge
/-! Lemmas for `Props/Bridge`. -/
namespace Verif
namespace Bridge
open Clock
variable {P : Type}

theorem setSrc_self (f : Nat → Src P) (i : Nat) (s : Src P) : setSrc f i s i = s := by simp [setSrc]
theorem setSrc_other (f : Nat → Src P) (i j : Nat) (s : Src P) (h : i ≠ j) : setSrc f i s j = f j := by
  simp [setSrc, Ne.symm h]

/-- One call of a source. -/
theorem process_told (s : Src P) (out : Msg P) :
    (s.process out).1.on = s.on ∧
    ((∃ m, s.on = true ∧ s.queue = m :: (s.process out).1.queue ∧ (s.process out).2 = answerTo m out) ∨
      ((s.process out).1.queue = s.queue ∧ (s.on = true → s.queue = []) ∧
        ((s.process out).2 = .failed ∨ (s.process out).2 = .message out))) := by
  obtain ⟨on, q⟩ := s
  cases on with
  | false => simp [Src.process]
  | true =>
    cases q with
    | nil => simp [Src.process]
    | cons m q =>
      obtain ⟨pl, md⟩ := m
      refine ⟨?_, .inl ⟨⟨pl, md⟩, rfl, ?_, ?_⟩⟩ <;> cases pl <;> rfl

theorem sublist_run (cap i : Nat) (es : List (Event P)) (n : Net P) :
    ∃ l, Pointwise Told (answers i es (n.run cap es).2) l ∧
      List.Sublist (l.filterMap id) ((n.srcs i).queue ++ heard i (n.on, (n.srcs i).on) es) := by
  induction es generalizing n with
  | nil => exact ⟨[], .nil, List.nil_sublist _⟩
  | cons e es ih =>
    have ih' := ih (n.step cap e).1
    simp only [Net.run]
    cases e with
    | sinkStart => simpa only [answers, heard, Net.step] using ih'
    | sinkStop => simpa only [answers, heard, Net.step] using ih'
    | sinkProcess m =>
      obtain ⟨l, h1, h2⟩ := ih'
      refine ⟨l, h1, h2.trans ?_⟩
      cases hn : n.on with
      | false => simp [Net.step, hn, heard]
      | true =>
        cases hs : (n.srcs i).on with
        | false => simp [Net.step, hn, heard, Src.deliver, hs]
        | true =>
          simp only [Net.step, hn, heard, Src.deliver, hs, Bool.and_self, if_true, Bool.true_eq_false, if_false]
          have := (List.drop_sublist (((n.srcs i).queue ++ [m]).length - cap) ((n.srcs i).queue ++ [m])).append
            (List.Sublist.refl (heard i (true, true) es))
          simpa using this
    | srcStart j =>
      obtain ⟨l, h1, h2⟩ := ih'
      refine ⟨l, h1, h2.trans ?_⟩
      by_cases h : j = i
      · subst h
        simp only [Net.step, setSrc_self, List.nil_append, heard, if_true]
        exact List.sublist_append_right _ _
      · simp [Net.step, setSrc_other _ _ _ _ h, heard, h]
    | srcStop j =>
      obtain ⟨l, h1, h2⟩ := ih'
      refine ⟨l, h1, h2.trans ?_⟩
      by_cases h : j = i
      · subst h
        simp only [Net.step, setSrc_self, List.nil_append, heard, if_true]
        exact List.sublist_append_right _ _
      · simp [Net.step, setSrc_other _ _ _ _ h, heard, h]
    | srcProcess j out =>
      by_cases h : j = i
      · subst h
        obtain ⟨l, h1, h2⟩ := ih'
        simp only [Net.step, setSrc_self] at h1 h2
        obtain ⟨hon, ht⟩ := process_told (n.srcs j) out
        rw [hon] at h2
        simp only [answers, heard, Net.step, if_true]
        rcases ht with ⟨m, ho, hq, ha⟩ | ⟨hq, -, ha⟩
        · refine ⟨some m :: l, .cons ha h1, ?_⟩
          rw [hq]
          simpa using h2
        · refine ⟨none :: l, .cons ha h1, ?_⟩
          rw [hq] at h2
          simpa using h2
      · simpa [Net.step, setSrc_other _ _ _ _ h, answers, heard, h] using ih'

theorem complete_run (cap i : Nat) (es : List (Event P)) (n : Net P) (b : Nat)
    (hs : ∀ e ∈ es, e ≠ .srcStart i ∧ e ≠ .srcStop i) (hon : (n.srcs i).on = true)
    (hb : backlog cap i (n.on, true) (n.srcs i).queue.length es = some b) :
    ∃ l rest, Pointwise Told (answers i es (n.run cap es).2) l ∧
      (n.srcs i).queue ++ heard i (n.on, true) es = l.filterMap id ++ rest ∧ rest.length = b := by
  induction es generalizing n with
  | nil =>
    simp only [backlog, Option.some.injEq] at hb
    exact ⟨[], (n.srcs i).queue, .nil, by simp [heard], hb⟩
  | cons e es ih =>
    have hs' : ∀ e ∈ es, e ≠ .srcStart i ∧ e ≠ .srcStop i := fun e he => hs e (by simp [he])
    have ih' := ih (n.step cap e).1 hs'
    simp only [Net.run]
    cases e with
    | sinkStart => exact ih' hon hb
    | sinkStop => exact ih' hon hb
    | sinkProcess m =>
      cases hn : n.on with
      | false =>
        rw [hn] at hb
        simp only [Net.step, hn, if_true, backlog, heard, Bool.false_and, Bool.false_eq_true, if_false, answers] at *
        exact ih' hon hb
      | true =>
        rw [hn] at hb
        simp only [backlog, Bool.and_self, if_true] at hb
        split at hb
        · rename_i hlt
          simp only [Net.step, hn, Src.deliver, hon, if_true, Bool.true_eq_false, if_false, heard, answers,
            Bool.and_self, List.length_append, List.length_cons, List.length_nil, List.length_drop] at *
          have h0 : (n.srcs i).queue.length + (0 + 1) - cap = 0 := by omega
          rw [h0] at ih'
          simp only [List.drop_zero, Nat.sub_zero, Nat.zero_add] at ih'
          obtain ⟨l, rest, h1, h2, h3⟩ := ih' trivial hb
          exact ⟨l, rest, h1, by rw [← h2]; simp, h3⟩
        · cases hb
    | srcStart j =>
      have h : j ≠ i := fun h => (hs _ (List.mem_cons_self ..)).1 (by rw [h])
      simp only [Net.step, setSrc_other _ _ _ _ h, answers, heard, h, if_false, backlog] at *
      exact ih' hon hb
    | srcStop j =>
      have h : j ≠ i := fun h => (hs _ (List.mem_cons_self ..)).2 (by rw [h])
      simp only [Net.step, setSrc_other _ _ _ _ h, answers, heard, h, if_false, backlog] at *
      exact ih' hon hb
    | srcProcess j out =>
      by_cases h : j = i
      · subst h
        obtain ⟨ho, ht⟩ := process_told (n.srcs j) out
        simp only [Net.step, setSrc_self, answers, heard, if_true, backlog] at *
        rcases ht with ⟨m, -, hq, ha⟩ | ⟨hq, hne, ha⟩
        · have hl : (n.srcs j).queue.length - 1 = ((n.srcs j).process out).1.queue.length := by
            have := congrArg List.length hq
            simp only [List.length_cons] at this
            omega
          rw [hl] at hb
          obtain ⟨l, rest, h1, h2, h3⟩ := ih' (ho.trans hon) hb
          refine ⟨some m :: l, rest, .cons ha h1, ?_, h3⟩
          rw [hq]
          simp only [List.filterMap_cons, id_eq, List.cons_append]
          rw [← h2]
        · have hl : (n.srcs j).queue.length - 1 = ((n.srcs j).process out).1.queue.length := by
            rw [hq, hne hon]; rfl
          rw [hl] at hb
          obtain ⟨l, rest, h1, h2, h3⟩ := ih' (ho.trans hon) hb
          refine ⟨none :: l, rest, .cons ha h1, ?_, h3⟩
          rw [hq] at h2
          simpa using h2
      · simp only [Net.step, setSrc_other _ _ _ _ h, answers, heard, h, if_false, backlog] at *
        exact ih' hon hb

end Bridge
end Verif
