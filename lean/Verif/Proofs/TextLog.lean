import Verif.Proofs.ShowValue
import Verif.Props.StructuredLog
import Verif.Spec.LogRuntime
/-! Lemmas for C93: the lines printed for a log. -/
namespace Verif
open Bincode

/-- Values without braces in their texts and without empty maps fill their holes, values without braces may stand
beside named ones: the line that is rebuilt is what the call says. -/
theorem rebuild_says (fl : Floats) {n : Nat} {schedule : List Intern.Step} {entries : List (Nat × String)}
    (hp : entries.Perm ((Intern.begin n).run schedule).1.store.toString) {c : LogCall}
    (hc : c.Compiled ((Intern.begin n).run schedule).2) {line : Text} (hs : c.Says (Value.display fl) line)
    {e : LogEntry} (he : e = { c.entry with time := e.time }) :
    e.msgIndex ≠ 0 ∧ rebuildLogline (Value.display fl) showTime ((Intern.readTable entries).map String.toList) e =
      .ok (some ((if argNames c.args = [] then [] else showTime e.time ++ [':', ' ']) ++ line)) := by
  obtain ⟨-, i2, i3, -⟩ := Intern.C30_interning_partial n schedule
  have look : ∀ t ∈ c.fmt :: argNames c.args, c.intern t ≠ 0 ∧
      ((Intern.readTable entries).map String.toList)[(c.intern t).toNat]? = some t := by
    intro t ht
    have h1 := hc t ht
    refine ⟨fun h0 => (i2 _ _ h1).1 (by rw [h0]; rfl), ?_⟩
    rw [List.getElem?_map, i3 entries hp _ _ h1]
    simp
  have hto : TableOk c.intern ((Intern.readTable entries).map String.toList) c.fmt c.args :=
    ⟨(look _ (by simp)).2, fun m hm => look m (by simp [hm])⟩
  have he' : e = debugEntry c.intern e.time c.fmt c.args := by
    refine he.trans ?_
    unfold LogCall.entry
    rw [debugEntry_eq, debugEntry_eq]
  rw [he']
  refine ⟨by rw [debugEntry_eq]; exact (look _ (by simp)).1, ?_⟩
  have ht : (debugEntry c.intern e.time c.fmt c.args).time = e.time := by rw [debugEntry_eq]
  rw [ht]
  rcases hs with ⟨vs, h1, h2, rfl⟩ | ⟨ps, h1, h2, h3, h4, h5⟩
  · rw [h1] at hto ⊢
    have h0 : argNames (vs.map LogArg.anon) = [] := by
      clear h1 h2 hto
      induction vs with
      | nil => rfl
      | cons v vs ih => simpa [argNames] using ih
    rw [C34_holes_partial e.time hto fun v hv => ?_, h0]
    · rfl
    · obtain ⟨a, b⟩ := h2 v hv
      obtain ⟨a1, a2⟩ := Value.display_closed fl v a
      exact ⟨a1, b, a2⟩
  · rw [h1] at hto ⊢
    refine C34_pieces_partial e.time hto h2 h3 ?_ h5
    have : ∀ {l : List LogArg}, (∀ v, .anon v ∈ l → v.Bare) → ∀ a ∈ anonTexts (Value.display fl) l, Braceless a := by
      intro l
      induction l with
      | nil => intro _ a ha; cases ha
      | cons x l ih =>
        intro h a ha
        cases x with
        | anon v =>
          rcases List.mem_cons.1 ha with rfl | ha
          · exact Value.display_bare fl v (h v (by simp))
          · exact ih (fun v hv => h v (by simp [hv])) a ha
        | named m v => exact ih (fun v hv => h v (by simp [hv])) a ha
    exact this h4

namespace LogRt
variable {answer : Nat → List LogEntry → LogEntry → Answer}

/-- What holds of everything logged, at whatever time, holds of everything recorded. -/
theorem steps_all {P : LogEntry → Prop} (acts : List Act) :
    ∀ (s : Sys), (∀ th e now, Act.stamp th e now ∈ acts → ∀ t, P { e with time := t }) →
      (∀ o ∈ s.out, P o.2.2) → (∀ th e, s.pending th = some e → P e) →
      ∀ o ∈ (s.steps answer acts).1.out, P o.2.2 := by
  induction acts with
  | nil => intro s _ h _; exact h
  | cons a as ih =>
    intro s h ho hp
    simp only [Sys.steps]
    have hrest : ∀ th e now, Act.stamp th e now ∈ as → ∀ t, P { e with time := t } :=
      fun th e now hm => h th e now (by simp [hm])
    cases a with
    | init c w =>
      refine ih _ hrest ?_ ?_ <;> simp only [Sys.step] <;> (repeat' split) <;> assumption
    | drop =>
      refine ih _ hrest ?_ ?_ <;> simp only [Sys.step] <;> (repeat' split) <;> assumption
    | stamp th e now =>
      refine ih _ hrest ?_ ?_
      · simp only [Sys.step]; split <;> exact ho
      · simp only [Sys.step]
        split
        · exact hp
        · intro th' e' he'
          simp only [Sys.setPending] at he'
          split at he'
          · cases he'; exact h th e now (by simp) _
          · exact hp th' e' he'
    | write th =>
      cases hq : s.pending th with
      | none => simp only [Sys.step, hq]; exact ih _ hrest ho hp
      | some e =>
        have hpe := hp th e hq
        have hpend : ∀ th' e', s.setPending th none th' = some e' → P e' := by
          intro th' e' he'
          simp only [Sys.setPending] at he'
          split at he'
          · cases he'
          · exact hp th' e' he'
        have hout : ∀ f, ∀ o ∈ s.out ++ [(f, th, e)], P o.2.2 := by
          intro f o hm
          rcases List.mem_append.1 hm with hm | hm
          · exact ho o hm
          · rw [List.mem_singleton.1 hm]; exact hpe
        cases hw : s.writer with
        | none => simp only [Sys.step, hq, hw]; exact ih _ hrest ho hp
        | some d =>
          refine ih _ hrest ?_ ?_ <;> simp only [Sys.step, hq, hw] <;> (repeat' split) <;>
            first | exact hout _ | exact hpend

end LogRt

theorem textLines_says (fl : Floats) {n : Nat} {schedule : List Intern.Step} {entries : List (Nat × String)}
    (hp : entries.Perm ((Intern.begin n).run schedule).1.store.toString) {acts : List LogRt.Act} (l : List LogEntry)
    (h : ∀ e ∈ l, ∃ (th : Nat) (c : LogCall) (now : Nat → UInt64) (line : Text), .stamp th c.entry now ∈ acts ∧
      e = { c.entry with time := e.time } ∧ c.Compiled ((Intern.begin n).run schedule).2 ∧
      c.Says (Value.display fl) line) :
    ∃ lines, textLines (Value.display fl) showTime ((Intern.readTable entries).map String.toList) true l =
      .done lines true ∧ Pointwise (LineOf fl acts) l lines := by
  induction l with
  | nil => exact ⟨[], rfl, .nil⟩
  | cons e l ih =>
    obtain ⟨lines, h1, h2⟩ := ih fun e he => h e (by simp [he])
    obtain ⟨th, c, now, line, h3, h4, h5, h6⟩ := h e (by simp)
    obtain ⟨h7, h8⟩ := rebuild_says fl hp h5 h6 h4
    refine ⟨_, ?_, .cons ⟨th, c, now, line, h3, h4, h6, rfl⟩ h2⟩
    simp only [textLines, if_neg h7, h8, h1, TextDump.cons]

/-- What is recorded are the entries of the calls that were made. -/
theorem recorded_says (fl : Floats) {n : Nat} {schedule : List Intern.Step}
    {answer : Nat → List LogEntry → LogEntry → LogRt.Answer} {acts : List LogRt.Act} {w : Nat}
    (hcalls : ∀ th e now, LogRt.Act.stamp th e now ∈ acts → ∃ (c : LogCall) (line : Text), e = c.entry ∧ c.entry.Legal ∧
      c.Compiled ((Intern.begin n).run schedule).2 ∧ c.Says (Value.display fl) line) :
    ∀ e ∈ (LogRt.Sys.new.steps answer acts).1.file w, e.Legal ∧
      ∃ (th : Nat) (c : LogCall) (now : Nat → UInt64) (line : Text), LogRt.Act.stamp th c.entry now ∈ acts ∧
      e = { c.entry with time := e.time } ∧ c.Compiled ((Intern.begin n).run schedule).2 ∧
      c.Says (Value.display fl) line := by
  intro e he
  unfold LogRt.Sys.file at he
  obtain ⟨o, ho, ho'⟩ := List.mem_filterMap.1 he
  split at ho'
  · cases ho'
    refine LogRt.steps_all (answer := answer) (P := fun e => e.Legal ∧
      ∃ (th : Nat) (c : LogCall) (now : Nat → UInt64) (line : Text), LogRt.Act.stamp th c.entry now ∈ acts ∧
      e = { c.entry with time := e.time } ∧ c.Compiled ((Intern.begin n).run schedule).2 ∧
      c.Says (Value.display fl) line) acts .new ?_ (by simp [LogRt.Sys.new]) (by simp [LogRt.Sys.new]) o ho
    intro th e now hm t
    obtain ⟨c, line, rfl, h1, h2, h3⟩ := hcalls th e now hm
    exact ⟨⟨h1.names, h1.params, h1.values⟩, th, c, now, line, hm, rfl, h2, h3⟩
  · cases ho'

end Verif
