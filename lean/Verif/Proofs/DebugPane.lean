import Verif.Spec.DebugPane
import Verif.Proofs.ConsoleMon
/-! Lemmas for C109. -/
namespace Verif
namespace ConsoleMon

theorem message_eq (r : LogRecord) : r.message = shownAs r := by
  obtain ⟨t, l, x⟩ := r
  cases l <;> simp [LogRecord.message, shownAs, Level.enabled, Level.name, String.append_assoc]

theorem paneRun_append {s : Pane} (ms ms' : List PaneMove) :
    s.run (ms ++ ms') = (s.run ms).bind (fun s' => s'.run ms') := by
  induction ms generalizing s with
  | nil => rfl
  | cons m ms ih =>
    simp only [List.cons_append, Pane.run]
    cases s.step m with
    | none => rfl
    | some s' => exact ih

@[simp] theorem ofThread_append (t : Nat) (l l' : List (Nat × String)) :
    ofThread t (l ++ l') = ofThread t l ++ ofThread t l' := by simp [ofThread]

@[simp] theorem ofThread_nil (t : Nat) : ofThread t [] = [] := rfl

theorem ofThread_cons (t : Nat) (m : Nat × String) (l : List (Nat × String)) :
    ofThread t (m :: l) = ofThread t [m] ++ ofThread t l := ofThread_append t [m] l

/-- What holds at all times. -/
structure Inv (lines : List (List LogRecord)) (height rows : Nat) (s : Pane) : Prop where
  size : s.queue.length ≤ channelSize
  len : s.todo.length = lines.length
  flow : ∀ t ls, lines[t]? = some ls → ∃ rest, s.todo[t]? = some rest ∧
    ls.filterMap shownAs = ofThread t s.received ++ ofThread t s.lost ++ ofThread t s.queue ++
      ofThread t s.printed ++ rest.filterMap shownAs
  lost : s.lost.length ≤ channelSize
  here : s.ui ≠ .gone → s.lost = [] ∧ s.printed = []
  gone : s.ui = .gone → s.queue = []

theorem inv_start (lines : List (List LogRecord)) (height rows : Nat) :
    Inv lines height rows (Pane.start height rows lines) := by
  refine ⟨by simp [Pane.start], rfl, ?_, by simp [Pane.start], by simp [Pane.start], by simp [Pane.start]⟩
  intro t ls h
  exact ⟨ls, h, by simp [Pane.start]⟩

theorem inv_step {lines : List (List LogRecord)} {height rows : Nat} {s s' : Pane} {m : PaneMove}
    (h : Inv lines height rows s) (hs : s.step m = some s') : Inv lines height rows s' := by
  cases m with
  | send t =>
    simp only [Pane.step, Pane.send] at hs
    split at hs
    · rename_i r rs htodo
      have hlt := (List.getElem?_eq_some_iff.1 htodo).1
      cases hm : r.message with
      | none =>
        rw [hm] at hs
        simp only [Option.some.injEq] at hs
        subst hs
        refine ⟨h.size, by simp [h.len], ?_, h.lost, h.here, h.gone⟩
        intro t' ls hls
        obtain ⟨rest, h1, h2⟩ := h.flow t' ls hls
        by_cases ht : t' = t
        · subst ht
          rw [htodo] at h1; injection h1 with h1; subst h1
          refine ⟨rs, List.getElem?_set_self hlt, ?_⟩
          rw [h2]
          rw [message_eq] at hm
          simp [hm]
        · exact ⟨rest, by simp only; rw [List.getElem?_set_ne (Ne.symm ht)]; exact h1, h2⟩
      | some m =>
        rw [hm] at hs
        rw [message_eq] at hm
        simp only [Pane.push] at hs
        split at hs
        · rename_i hui
          simp only [Option.some.injEq] at hs
          subst hs
          refine ⟨h.size, by simp [h.len], ?_, h.lost, fun k => absurd hui k, h.gone⟩
          intro t' ls hls
          obtain ⟨rest, h1, h2⟩ := h.flow t' ls hls
          by_cases ht : t' = t
          · subst ht
            rw [htodo] at h1; injection h1 with h1; subst h1
            refine ⟨rs, List.getElem?_set_self hlt, ?_⟩
            rw [h2]
            simp [hm, ofThread]
          · refine ⟨rest, by simp only; rw [List.getElem?_set_ne (Ne.symm ht)]; exact h1, ?_⟩
            rw [h2]
            simp [ofThread, Ne.symm ht]
        · rename_i hui
          split at hs
          · rename_i hq
            simp only [Option.some.injEq] at hs
            subst hs
            obtain ⟨hl, hp⟩ := h.here hui
            refine ⟨by simp; omega, by simp [h.len], ?_, h.lost, fun _ => ⟨hl, hp⟩, fun k => absurd k hui⟩
            intro t' ls hls
            obtain ⟨rest, h1, h2⟩ := h.flow t' ls hls
            rw [hp] at h2
            by_cases ht : t' = t
            · subst ht
              rw [htodo] at h1; injection h1 with h1; subst h1
              refine ⟨rs, List.getElem?_set_self hlt, ?_⟩
              simp only [hp]
              rw [h2]
              simp [hm, ofThread]
            · refine ⟨rest, by simp only; rw [List.getElem?_set_ne (Ne.symm ht)]; exact h1, ?_⟩
              simp only [hp]
              rw [h2]
              simp [ofThread, Ne.symm ht]
          · simp at hs
    · simp at hs
  | stderr e =>
    simp only [Pane.step] at hs
    split at hs
    · simp only [Option.some.injEq] at hs; subst hs
      exact ⟨h.size, h.len, h.flow, h.lost, h.here, h.gone⟩
    · simp at hs
  | begin =>
    simp only [Pane.step] at hs
    split at hs
    · rename_i hu
      simp only [Option.some.injEq] at hs; subst hs
      exact ⟨h.size, h.len, h.flow, h.lost, fun _ => h.here (by rw [hu]; simp), fun k => by simp at k⟩
    · simp at hs
  | receive =>
    simp only [Pane.step] at hs
    split at hs
    · rename_i m q hu hq
      simp only [Option.some.injEq] at hs; subst hs
      have hsz := h.size
      rw [hq] at hsz
      obtain ⟨hl, hp⟩ := h.here (by rw [hu]; simp)
      refine ⟨by simp only [List.length_cons] at hsz; simp only; omega, h.len, ?_, h.lost, fun _ => ⟨hl, hp⟩,
        fun k => by rw [hu] at k; simp at k⟩
      intro t ls hls
      obtain ⟨rest, h1, h2⟩ := h.flow t ls hls
      refine ⟨rest, h1, ?_⟩
      rw [h2, hl, hq, ofThread_cons t m q]
      simp
    · simp at hs
  | finish =>
    simp only [Pane.step] at hs
    split at hs
    · rename_i hu
      simp only [Option.some.injEq] at hs; subst hs
      exact ⟨h.size, h.len, h.flow, h.lost, fun _ => h.here (by rw [hu.1]; simp), fun k => by simp at k⟩
    · simp at hs
  | resize n =>
    simp only [Pane.step] at hs
    split at hs
    · simp only [Option.some.injEq] at hs; subst hs
      exact ⟨h.size, h.len, h.flow, h.lost, h.here, h.gone⟩
    · simp at hs
  | quit =>
    simp only [Pane.step] at hs
    split at hs
    · rename_i hu
      simp only [Option.some.injEq] at hs; subst hs
      obtain ⟨hl, hp⟩ := h.here (by rw [hu]; simp)
      refine ⟨by simp, h.len, ?_, h.size, fun k => absurd rfl k, fun _ => rfl⟩
      intro t ls hls
      obtain ⟨rest, h1, h2⟩ := h.flow t ls hls
      refine ⟨rest, h1, ?_⟩
      rw [h2, hl]
      simp
    · simp at hs

theorem inv_run {lines : List (List LogRecord)} {height rows : Nat} {s s' : Pane} {ms : List PaneMove}
    (h : Inv lines height rows s) (hs : s.run ms = some s') : Inv lines height rows s' := by
  induction ms generalizing s with
  | nil => simp only [Pane.run, Option.some.injEq] at hs; exact hs ▸ h
  | cons m ms ih =>
    simp only [Pane.run] at hs
    split at hs
    · simp at hs
    · rename_i s1 h1; exact ih (inv_step h h1) hs

/-- The pane is the result of its events: the messages received, in order, among other things. -/
theorem log_events {s s' : Pane} {ms : List PaneMove} {es0 : List PaneEvent} {rows : Nat}
    (h0 : s.log = DebugLog.run rows es0) (hs : s.run ms = some s') :
    ∃ es, s'.log = DebugLog.run rows (es0 ++ es) ∧
      s'.received.map Prod.snd = s.received.map Prod.snd ++
        es.filterMap lineOf ∧
      es.filterMap stderrOf =
        ms.filterMap stderrAt ∧
      ((∀ n, PaneMove.resize n ∉ ms) → (∀ n, PaneEvent.resize n ∉ es) ∧ s'.height = s.height) := by
  induction ms generalizing s es0 with
  | nil =>
    simp only [Pane.run, Option.some.injEq] at hs
    subst hs
    exact ⟨[], by simpa using h0, by simp, by simp, by simp⟩
  | cons m ms ih =>
    simp only [Pane.run] at hs
    split at hs
    · simp at hs
    · rename_i s1 h1
      have one : ∀ e : PaneEvent, DebugLog.run rows (es0 ++ [e]) = (DebugLog.run rows es0).step e := by
        intro e; simp [DebugLog.run]
      have same : s1.log = s.log → s1.received = s.received →
          (∀ n, m ≠ PaneMove.resize n → s1.height = s.height) → (∀ x, m ≠ .stderr x) → (∀ n, m ≠ .resize n) →
          ∃ es, s'.log = DebugLog.run rows (es0 ++ es) ∧
            s'.received.map Prod.snd = s.received.map Prod.snd ++
              es.filterMap lineOf ∧
            es.filterMap stderrOf =
              (m :: ms).filterMap stderrAt ∧
            ((∀ n, PaneMove.resize n ∉ m :: ms) → (∀ n, PaneEvent.resize n ∉ es) ∧ s'.height = s.height) := by
        intro e1 e2 e3 e4 e5
        obtain ⟨es, k1, k2, k3, k4⟩ := ih (es0 := es0) (by rw [e1]; exact h0) hs
        refine ⟨es, k1, by rw [k2, e2], ?_, ?_⟩
        · rw [k3]
          cases m with
          | stderr x => exact absurd rfl (e4 x)
          | _ => rfl
        · intro hn
          obtain ⟨a1, a2⟩ := k4 (fun n hm => hn n (List.mem_cons_of_mem _ hm))
          exact ⟨a1, by rw [a2, e3 0 (e5 0)]⟩
      cases m with
      | send t =>
        refine same ?_ ?_ ?_ (by simp) (by simp)
        all_goals
          simp only [Pane.step, Pane.send] at h1
          split at h1
          · split at h1
            · simp only [Option.some.injEq] at h1; subst h1; simp
            · simp only [Pane.push] at h1
              split at h1
              · simp only [Option.some.injEq] at h1; subst h1; simp
              · split at h1
                · simp only [Option.some.injEq] at h1; subst h1; simp
                · simp at h1
          · simp at h1
      | stderr e =>
        simp only [Pane.step] at h1
        split at h1
        · simp only [Option.some.injEq] at h1; subst h1
          obtain ⟨es, k1, k2, k3, k4⟩ := ih (es0 := es0 ++ [.stderr e])
            (by simp only [one, DebugLog.step]; rw [h0]) hs
          refine ⟨.stderr e :: es, by simpa using k1, by simpa [lineOf, List.filterMap_cons] using k2,
            by simpa [stderrOf, stderrAt, List.filterMap_cons] using k3, ?_⟩
          intro hn
          obtain ⟨a1, a2⟩ := k4 (fun n hm => hn n (List.mem_cons_of_mem _ hm))
          exact ⟨by simpa using a1, a2⟩
        · simp at h1
      | begin =>
        simp only [Pane.step] at h1
        split at h1
        · simp only [Option.some.injEq] at h1; subst h1
          exact same rfl rfl (fun _ _ => rfl) (by simp) (by simp)
        · simp at h1
      | receive =>
        simp only [Pane.step] at h1
        split at h1
        · rename_i x q hu hq
          simp only [Option.some.injEq] at h1; subst h1
          obtain ⟨es, k1, k2, k3, k4⟩ := ih (es0 := es0 ++ [.line x.2])
            (by simp only [one, DebugLog.step]; rw [h0]) hs
          refine ⟨.line x.2 :: es, by simpa using k1, by simpa [lineOf, List.filterMap_cons] using k2,
            by simpa [stderrOf, stderrAt, List.filterMap_cons] using k3, ?_⟩
          intro hn
          obtain ⟨a1, a2⟩ := k4 (fun n hm => hn n (List.mem_cons_of_mem _ hm))
          exact ⟨by simpa using a1, a2⟩
        · simp at h1
      | finish =>
        simp only [Pane.step] at h1
        split at h1
        · simp only [Option.some.injEq] at h1; subst h1
          exact same rfl rfl (fun _ _ => rfl) (by simp) (by simp)
        · simp at h1
      | resize n =>
        simp only [Pane.step] at h1
        split at h1
        · simp only [Option.some.injEq] at h1; subst h1
          obtain ⟨es, k1, k2, k3, k4⟩ := ih (es0 := es0 ++ [.resize n])
            (by simp only [one, DebugLog.step]; rw [h0]) hs
          refine ⟨.resize n :: es, by simpa using k1, by simpa [lineOf, List.filterMap_cons] using k2,
            by simpa [stderrOf, stderrAt, List.filterMap_cons] using k3, ?_⟩
          intro hn
          exact absurd (List.mem_cons_self ..) (hn n)
        · simp at h1
      | quit =>
        simp only [Pane.step] at h1
        split at h1
        · simp only [Option.some.injEq] at h1; subst h1
          exact same rfl rfl (fun _ _ => rfl) (by simp) (by simp)
        · simp at h1

theorem drain_run (q : List (Nat × String)) : ∀ s : Pane, s.ui = .draining → s.queue = q →
    ∃ s', s.run (List.replicate q.length .receive ++ [.finish]) = some s' ∧ s'.ui = .idle ∧ s'.queue = [] ∧
      s'.todo = s.todo ∧ s'.received = s.received ++ q ∧ s'.printed = s.printed ∧ s'.lost = s.lost := by
  induction q with
  | nil =>
    intro s hu hq
    exact ⟨{ s with ui := .idle }, by simp [Pane.run, Pane.step, hu, hq], rfl, hq, rfl, by simp, rfl, rfl⟩
  | cons m q ih =>
    intro s hu hq
    obtain ⟨s', h1, h2, h3, h4, h5, h6, h7⟩ := ih
      { s with queue := q, log := s.log.receive m.2, received := s.received ++ [m] } hu rfl
    refine ⟨s', ?_, h2, h3, h4, by simpa using h5, h6, h7⟩
    simp only [List.length_cons, List.replicate_succ, List.cons_append, Pane.run, Pane.step, hu, hq]
    simp only [hu] at h1
    exact h1

theorem fill_run (r : LogRecord) (m : String) (hm : r.message = some m) (k : Nat) :
    ∀ s : Pane, s.ui ≠ .gone → s.todo = [List.replicate (k + 1) r] → s.queue.length + k ≤ channelSize →
      ∃ s', s.run (List.replicate k (.send 0)) = some s' ∧ s'.ui = s.ui ∧ s'.todo = [[r]] ∧
        s'.queue.length = s.queue.length + k := by
  induction k with
  | zero => intro s _ ht _; exact ⟨s, rfl, rfl, ht, rfl⟩
  | succ k ih =>
    intro s hu ht hq
    have hstep : s.step (.send 0) = some { s with todo := [List.replicate (k + 1) r], queue := s.queue ++ [(0, m)] } := by
      simp only [Pane.step, Pane.send, ht]
      simp only [List.replicate_succ, List.getElem?_cons_zero, hm, List.set_cons_zero, Pane.push]
      cases hui : s.ui with
      | gone => exact absurd hui hu
      | idle => rw [if_pos (by omega)]
      | draining => rw [if_pos (by omega)]
    obtain ⟨s', h1, h2, h3, h4⟩ := ih
      { s with todo := [List.replicate (k + 1) r], queue := s.queue ++ [(0, m)] } hu rfl (by simp; omega)
    refine ⟨s', ?_, h2, h3, by rw [h4]; simp; omega⟩
    simp only [List.replicate_succ, Pane.run, hstep]
    exact h1

theorem waits_run (r : LogRecord) (m : String) (hm : r.message = some m) (height rows n : Nat)
    (hn : channelSize = n) :
    ∃ s, (Pane.start height rows [List.replicate (n + 1) r]).run (List.replicate n (.send 0)) = some s ∧
      s.todo = [[r]] ∧ s.step (.send 0) = none := by
  obtain ⟨s, h1, h2, h3, h4⟩ := fill_run r m hm n (Pane.start height rows [List.replicate (n + 1) r])
    (by simp [Pane.start]) rfl (by simp [Pane.start, hn])
  refine ⟨s, h1, h3, ?_⟩
  simp only [Pane.step, Pane.send, h3, List.getElem?_cons_zero, hm, Pane.push]
  have hu : s.ui = .idle := by rw [h2]; rfl
  simp only [hu]
  rw [if_neg (by rw [h4]; simp [Pane.start, hn])]

/-- One thread that logs as fast as the pane receives. -/
theorem endless_run (r : LogRecord) (m : String) (hm : r.message = some m) (n : Nat) :
    ∀ s : Pane, s.ui = .draining → s.todo = [List.replicate n r] → s.queue.length = 1 →
      ∃ s', s.run ((List.replicate n [PaneMove.send 0, .receive]).flatten) = some s' ∧ s'.ui = .draining ∧
        s'.queue.length = 1 := by
  induction n with
  | zero => intro s hu _ hq; exact ⟨s, rfl, hu, hq⟩
  | succ n ih =>
    intro s hu ht hq
    match hq' : s.queue, hq with
    | [x], _ =>
      obtain ⟨s', h1, h2, h3⟩ := ih
        { s with todo := [List.replicate n r], queue := [(0, m)], log := s.log.receive x.2,
                 received := s.received ++ [x] } hu rfl rfl
      refine ⟨s', ?_, h2, h3⟩
      have e : (List.replicate (n + 1) [PaneMove.send 0, .receive]).flatten =
          .send 0 :: .receive :: (List.replicate n [PaneMove.send 0, .receive]).flatten := by
        simp [List.replicate_succ]
      rw [e]
      have hstep : s.step (.send 0) = some { s with todo := [List.replicate n r], queue := [x, (0, m)] } := by
        simp only [Pane.step, Pane.send, ht]
        simp [List.replicate_succ, hm, Pane.push, hu, hq', channelSize]
      simp only [Pane.run, hstep]
      simp only [Pane.step, hu]
      simp only [hu] at h1
      exact h1

end ConsoleMon
end Verif
