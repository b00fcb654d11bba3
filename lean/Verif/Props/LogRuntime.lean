import Verif.Proofs.LogRuntime
import Verif.Props.UnifiedLogConc
import Verif.Props.StructuredLog
/-!
C61: text lines logged by several threads.
-/
namespace Verif
namespace LogRt
open Bincode

variable {answer : Nat → List LogEntry → LogEntry → Answer}

/-- Any history of a process, with loggers set up and dropped at any time and destinations that
record, refuse or panic.  The entries a thread handed over, followed by that of its call under way if
there is one, are exactly those of its calls, in order, unchanged but for the time, which is what the
clock showed at the call: every call has one fate. -/
theorem C61_calls {acts : List Act} (hseq : Sequential [] acts) (th : Nat) :
    let s := (Sys.new.steps answer acts).1
    (s.out.filter (fun o => o.2.1 == th)).map (·.2.2) ++ (s.pending th).toList = callsOf th none acts := by
  have := steps_calls (answer := answer) th acts Sys.new [] hseq (by simp [Sys.new]) (by simp [Sys.new])
  simpa [Sys.of, Sys.new, Sys.clock] using this

/-- When the clock does not go backwards, the lines of a thread are in the order of their times in
every destination. -/
theorem C61_thread_times {acts : List Act} (hseq : Sequential [] acts) (hf : Forward none 0 acts) (th w : Nat) :
    let s := (Sys.new.steps answer acts).1
    InOrder ((s.out.filter (fun o => o.1 == .file w && o.2.1 == th)).map (·.2.2)) := by
  have h1 := C61_calls (answer := answer) hseq th
  have h2 := (calls_order th acts none 0 hf).1
  simp only at h1 ⊢
  rw [← h1] at h2
  refine List.Pairwise.sublist ?_ ((List.pairwise_append.1 h2).1)
  rw [← List.filter_filter]
  exact List.Sublist.map _ List.filter_sublist

/-- While a working destination is set, whatever happened before: every call of every thread succeeds
and its entry goes to that destination, those of a thread in the order of its calls; only the entry of
a call under way is not there yet. -/
theorem C61_recorded {c w : Nat} (hans : ∀ l e, answer w l e = .recorded) {before acts : List Act}
    (hseq : Sequential [] (before ++ acts))
    (hw : (Sys.new.steps answer before).1.writer = some (c, some w))
    (hp : (Sys.new.steps answer before).1.poisoned = false) (hs : Steady acts) :
    let s := (Sys.new.steps answer before).1
    let r := s.steps answer acts
    (∀ x ∈ r.2, x = .done) ∧ ∃ new, r.1.out = s.out ++ new ∧ (∀ o ∈ new, o.1 = .file w) ∧
      r.1.file w = s.file w ++ new.map (·.2.2) ∧
      ∀ th, (new.filter (fun o => o.2.1 == th)).map (·.2.2) ++ (r.1.pending th).toList =
        (s.pending th).toList ++ callsOf th (some c) acts := by
  obtain ⟨_, _, h3, new, h4, h5⟩ := steady_steps hans acts _ hw hp hs
  refine ⟨h3, new, h4, h5, ?_, fun th => ?_⟩
  · unfold Sys.file
    rw [h4, List.filterMap_append]
    congr 1
    clear h4
    induction new with
    | nil => rfl
    | cons o l ih => simp [h5 o (by simp), ih (fun o ho => h5 o (by simp [ho]))]
  · -- the calls of the whole history, without those before
    have hbefore : Sequential [] before ∧ ∃ busy, Sequential busy acts ∧
        ∀ j, (Sys.new.steps answer before).1.pending j ≠ none → j ∈ busy := by
      have key : ∀ (as : List Act) (s : Sys) (busy : List Nat), Sequential busy (as ++ acts) →
          (∀ j, s.pending j ≠ none → j ∈ busy) → (s.clock = none → ∀ j, s.pending j = none) →
          Sequential busy as ∧ ∃ busy', Sequential busy' acts ∧
            ∀ j, (s.steps answer as).1.pending j ≠ none → j ∈ busy' := by
        intro as
        induction as with
        | nil => intro s busy h1 h2 _; exact ⟨trivial, busy, h1, h2⟩
        | cons a as ih =>
          intro s busy h1 h2 hn
          have hpd := step_pending (answer := answer) s a
          have hn' : (s.step answer a).1.clock = none → ∀ j, (s.step answer a).1.pending j = none := by
            intro hc j
            rw [step_clock] at hc
            have hsn : s.clock = none := by
              cases h : s.clock with
              | none => rfl
              | some k => rw [h] at hc; cases a <;> simp at hc
            rw [hpd j, hsn]
            cases a <;> exact hn hsn j
          cases a with
          | init c' w' =>
            obtain ⟨g1, g2⟩ := ih (s.step answer (.init c' w')).1 busy h1 (fun j => by rw [hpd j]; exact h2 j) hn'
            exact ⟨g1, g2⟩
          | drop =>
            obtain ⟨g1, g2⟩ := ih (s.step answer .drop).1 busy h1 (fun j => by rw [hpd j]; exact h2 j) hn'
            exact ⟨g1, g2⟩
          | stamp t e now =>
            obtain ⟨g1, g2⟩ := ih (s.step answer (.stamp t e now)).1 (t :: busy) h1.2 (fun j => by
              rw [hpd j]
              cases hk : s.clock with
              | none => intro h; exact List.mem_cons_of_mem _ (h2 j h)
              | some k =>
                simp only
                split
                · rename_i h; intro _; rw [h]; simp
                · intro h; exact List.mem_cons_of_mem _ (h2 j h)) hn'
            exact ⟨⟨h1.1, g1⟩, g2⟩
          | write t =>
            obtain ⟨g1, g2⟩ := ih (s.step answer (.write t)).1 (busy.filter (· != t)) h1.2 (fun j => by
              rw [hpd j]
              cases hk : s.clock with
              | none => intro h; exact absurd (hn hk j) h
              | some k =>
                simp only
                split
                · intro h; exact absurd rfl h
                · rename_i hj; intro h; simp [h2 j h, hj]) hn'
            exact ⟨⟨h1.1, g1⟩, g2⟩
      exact key before Sys.new [] hseq (by simp [Sys.new]) (by simp [Sys.new])
    obtain ⟨_, busy, hb1, hb2⟩ := hbefore
    have hck : (Sys.new.steps answer before).1.clock = some c := by simp [Sys.clock, hw]
    have := steps_calls (answer := answer) th acts _ busy hb1 hb2 (by simp [hck])
    rw [hck] at this
    simp only [Sys.of, h4, List.filter_append, List.map_append, List.append_assoc] at this
    exact List.append_cancel_left this

/-- Calls in the order of real time: cut any history at any point.  What is handed over after that
point comes after what was handed over before, and an entry whose call begins after that point is not
earlier than any of those before: only calls under way at the same time can be out of order. -/
theorem C61_real_time {before after : List Act} (hf : Forward none 0 (before ++ after)) :
    let s := (Sys.new.steps answer before).1
    ∃ new, (Sys.new.steps answer (before ++ after)).1.out = s.out ++ new ∧
      ∀ o ∈ new, s.pending o.2.1 = some o.2.2 ∨ ∀ o' ∈ s.out, o'.2.2.time ≤ o.2.2.time := by
  obtain ⟨lo, h1, h2⟩ := forward_split (answer := answer) before after Sys.new 0 hf
    ⟨by simp [Sys.new], by simp [Sys.new]⟩
  obtain ⟨new, h3, h4⟩ := forward_new (answer := answer) after _ lo h2 h1
  refine ⟨new, by rw [steps_append]; exact h3, fun o ho => ?_⟩
  rcases h4 o ho with h | h
  · exact .inl h
  · exact .inr fun o' ho' => UInt64.le_trans (h1.out o' ho') h

def demoLine (k : UInt32) : LogEntry := ⟨0, k, [], []⟩

/-- Two threads log; thread 2 reads the clock first and gets the lock last. -/
def demoThreads : List Act :=
  [.init 0 7, .stamp 1 (demoLine 1) (fun _ => 10), .write 1, .stamp 2 (demoLine 2) (fun _ => 20),
    .stamp 1 (demoLine 3) (fun _ => 30), .write 1, .write 2, .stamp 2 (demoLine 4) (fun _ => 40)]

example : Sequential [] demoThreads ∧ Forward none 0 demoThreads ∧
    callsOf 2 none demoThreads = [⟨20, 2, [], []⟩, ⟨40, 4, [], []⟩] ∧
    (Sys.new.steps (fun _ _ _ => .recorded) (demoThreads.take 1)).1.writer = some (0, some 7) ∧
    Steady (demoThreads.drop 1) := by
  refine ⟨by simp [demoThreads, Sequential], ?_, rfl, rfl, ?_⟩
  · simp only [demoThreads, Forward]; decide
  · intro a ha
    simp [demoThreads] at ha
    rcases ha with h | h | h | h | h | h | h <;> subst h <;> simp

/-- "The lines of the log are in the order of their times": refuted by these threads, although the
clock does not go backwards. -/
theorem C61_order_violated :
    ∃ acts, Sequential [] acts ∧ Forward none 0 acts ∧
      ((Sys.new.steps (fun _ _ _ => .recorded) acts).1.file 7).map (·.time) = [10, 30, 20] := by
  refine ⟨demoThreads, by simp [demoThreads, Sequential], ?_, by rfl⟩
  simp only [demoThreads, Forward]; decide

/-- "What is logged while a logger exists is recorded": refuted.  A second logger is set up, then the
first one is dropped: the lines logged with the second one are cut.  And the clock given to the second
logger is never read. -/
theorem C61_two_loggers_violated :
    let r := Sys.new.steps (fun _ _ _ => .recorded)
      [.init 0 7, .init 1 8, .stamp 1 (demoLine 1) (fun c => if c = 0 then 10 else 1000), .write 1,
        .drop, .stamp 1 (demoLine 2) (fun c => if c = 0 then 20 else 2000), .write 1]
    r.1.out = [(.file 8, 1, ⟨10, 1, [], []⟩), (.cut, 1, ⟨20, 2, [], []⟩)] ∧ r.2 = List.replicate 7 .done :=
  ⟨rfl, rfl⟩

/-- "A line that cannot be recorded does not prevent others": refuted.  Once a destination has
panicked on an entry (for the stream of a unified log, one larger than a section) every later call,
of any thread, panics, a new logger cannot be set up, and nothing is recorded any more. -/
theorem C61_panic_violated {before : List Act} (hw : (Sys.new.steps answer before).1.writer.isSome)
    (hp : (Sys.new.steps answer before).1.poisoned = true) (after : List Act) :
    let s := (Sys.new.steps answer before).1
    let r := (s.steps answer after).1
    (∃ new, r.out = s.out ++ new ∧ ∀ o ∈ new, o.1 = .panicked) ∧ (∀ w, r.file w = s.file w) ∧
      (∀ c w, (r.step answer (.init c w)).2 = .panicked) ∧
      ∀ th e, r.pending th = some e → (r.step answer (.write th)).2 = .panicked := by
  obtain ⟨h1, h2, new, h3, h4⟩ := poisoned_steps (answer := answer) after _ hw hp
  obtain ⟨⟨c0, d⟩, hsome⟩ := Option.isSome_iff_exists.1 hw
  rw [hsome] at h1
  refine ⟨⟨new, h3, h4⟩, fun w => ?_, fun c w => ?_, fun th e hpe => ?_⟩
  · unfold Sys.file
    rw [h3, List.filterMap_append]
    have : new.filterMap (fun o => if o.1 = .file w then some o.2.2 else none) = [] := by
      rw [List.filterMap_eq_nil_iff]
      intro o ho
      simp [h4 o ho]
    rw [this, List.append_nil]
  · simp [Sys.step, h1, h2]
  · simp [Sys.step, hpe, h1, h2]

/-- A destination that panics on the second line. -/
def demoAnswer (_ : Nat) (l : List LogEntry) (_ : LogEntry) : Answer := if l.length = 1 then .panic else .recorded

example : (Sys.new.steps demoAnswer (demoThreads.take 6)).1.poisoned = true ∧
    (Sys.new.steps demoAnswer (demoThreads.take 6)).1.writer.isSome ∧
    (Sys.new.steps demoAnswer demoThreads).2 =
      [.done, .done, .done, .done, .done, .panicked, .panicked, .done] :=
  ⟨rfl, rfl, rfl⟩

/-- From the threads to the tool that reads the log.  Whatever the threads do, the lines recorded by a
destination that is the text stream of a unified log, which other threads use too, in any
interleaving, are those obtained by reading that log, in the order in which they were handed over. -/
theorem C61_log {page slabSize : Nat} (hz : ULog.SizesOk page slabSize) {acts : List Act} {w : Nat}
    {ops : List ULog.ConcOp} (hin : ULog.Interleaved [] ops) (hover : ULog.busyAfter [] ops = [])
    (hops : ULog.HistoryOk page slabSize [] (ULog.calls ops))
    (hobj : ULog.objsOf .structuredLogLine [] (ULog.calls ops) =
      ((Sys.new.steps answer acts).1.file w).map enc)
    (hlegal : ∀ e ∈ (Sys.new.steps answer acts).1.file w, e.Legal) :
    ∃ files sections, ULog.writeConc slabSize page ops = .ok files ∧
      ULog.readLog files .structuredLogLine = .ok sections ∧
      decodeStream (dec : Dec LogEntry) (sections.flatten.length + 1) sections.flatten =
        ((Sys.new.steps answer acts).1.file w, .unexpectedEnd) := by
  obtain ⟨files, h1, h2⟩ := ULog.C60_round_trip hz hin hover hops
  obtain ⟨secs, h3, h4⟩ := h2 .structuredLogLine
  refine ⟨files, secs, h1, h3, ?_⟩
  have h5 : secs.flatten = encAll ((Sys.new.steps answer acts).1.file w) := by
    rw [h4, ← ULog.objsOf_flatten, hobj]
    generalize (Sys.new.steps answer acts).1.file w = l
    induction l with
    | nil => rfl
    | cons e l ih => simp only [List.map_cons, List.flatten_cons, encAll, ih]
  rw [h5]
  exact (C31_entries hlegal).2

/-- The lines of `demoThreads` on a log whose other stream is in use. -/
def demoLineOps : List ULog.ConcOp :=
  [.openStream .structuredLogLine 24, .openStream .copperList 32, .begin_ 0 [[10, 1, 0, 0]], .finish 0,
    .begin_ 1 [[1, 2, 3]], .begin_ 0 [[30], [3, 0, 0]], .finish 0, .begin_ 0 [[20, 2, 0, 0]], .finish 1,
    .finish 0]

example : ULog.SizesOk 16 96 ∧ ULog.Interleaved [] demoLineOps ∧ ULog.busyAfter [] demoLineOps = [] ∧
    ULog.HistoryOk 16 96 [] (ULog.calls demoLineOps) ∧
    ULog.objsOf .structuredLogLine [] (ULog.calls demoLineOps) =
      ((Sys.new.steps (fun _ _ _ => .recorded) demoThreads).1.file 7).map enc := by
  refine ⟨⟨by decide, by decide, by decide⟩, by simp [demoLineOps, ULog.Interleaved], by decide, ?_, by rfl⟩
  simp only [demoLineOps, ULog.calls, ULog.HistoryOk]
  exact ⟨by decide, by decide, by simp, ⟨by decide, by decide, by decide⟩, by decide, by decide, by simp,
    ⟨by decide, by decide, by decide⟩, by simp, by simp, by simp, by simp, trivial⟩

end LogRt
end Verif
