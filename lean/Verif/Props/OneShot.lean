import Verif.Proofs.OneShot
import Verif.Props.ExampleApps
/-!
C102: the project template, and the examples that make one iteration.
-/
namespace Verif
namespace Examples
open Clock CopperList Planner Verif.Runtime

namespace Template
open Dataflow

theorem fresh_idle (inp : Inputs) (o : Overflow) : Idle (app inp o).plan.length fresh.mgr :=
  ⟨rfl, rfl, by decide, by decide +kernel, by
    show ∀ c ∈ fresh.mgr.data, c.msgs.length = (planOf graph).length
    decide +kernel⟩

/-- The project template runs for as long as copper lists can be numbered: in every turn the task receives 42 and the
sink 43, and the log has these two. -/
theorem C102_template {inp : Inputs} (hc : Clocked inp) {o : Overflow} {n : Nat}
    (hn : n ≤ 0xFFFFFFFF ∨ o = .wrapping) :
    ∃ rt, main inp o n = .ok (rt, .running) ∧
      rt.w.st.task 0 = .source ∧ rt.w.st.task 1 = .task (List.replicate n 42) ∧
      rt.w.st.task 2 = .sink (List.replicate n 43) ∧
      (loggedLists rt.w.trace).length = n ∧
      ∀ (i : Nat) (cl : CL (List (Msg Int32))), (loggedLists rt.w.trace)[i]? = some cl →
        payloadOf (planOf graph) 0 cl = some (some 42) ∧ payloadOf (planOf graph) 1 cl = some (some 43) := by
  have ha : graph.Acyclic := ⟨id, by decide⟩
  obtain ⟨x, y, hs⟩ := exists_solution ha (⟨init, next⟩ : Tasks Task Int32)
  obtain ⟨rt, h1, h2, h3, h4⟩ := run_view (app := app inp o) (rt := fresh) (by decide) ha (by decide) (by decide)
    (by decide) (by show computePlan graph = .ok (some (planOf graph)); decide +kernel) rfl rfl (fun _ => rfl)
    (inp := { inp with quit := fun _ => false }) ⟨hc.mono, hc.bound⟩ (by decide) rfl rfl rfl (fresh_idle inp o) hs (n := n)
    hn
  have e0 : ∀ k, x k 0 = .source := by
    intro k
    induction k with
    | zero => exact hs.init 0 (by decide)
    | succ k ih =>
      have h := congrArg Prod.fst (hs.turn k 0 (by decide))
      rw [ih] at h
      exact h
  have y0 : ∀ k, y k 0 = some 42 := by
    intro k
    have h : y k 0 = (next 0 (x k 0) []).2 := congrArg Prod.snd (hs.turn k 0 (by decide))
    rw [h, e0]
    rfl
  have e1 : ∀ k, x k 1 = .task (List.replicate k 42) ∧ y k 1 = some 43 := by
    have hy : ∀ k, x k 1 = .task (List.replicate k 42) → x (k + 1) 1 = .task (List.replicate (k + 1) 42) ∧
        y k 1 = some 43 := by
      intro k ih
      have h : (x (k + 1) 1, y k 1) = next 1 (x k 1) [y k 0] := hs.turn k 1 (by decide)
      rw [ih, y0] at h
      injection h with h h'
      exact ⟨by rw [h, List.replicate_succ'], h'⟩
    have hx : ∀ k, x k 1 = .task (List.replicate k 42) := by
      intro k
      induction k with
      | zero => exact hs.init 1 (by decide)
      | succ k ih => exact (hy k ih).1
    exact fun k => ⟨hx k, (hy k (hx k)).2⟩
  have e2 : ∀ k, x k 2 = .sink (List.replicate k 43) := by
    intro k
    induction k with
    | zero => exact hs.init 2 (by decide)
    | succ k ih =>
      have h : (x (k + 1) 2, y k 2) = next 2 (x k 2) [y k 1] := hs.turn k 2 (by decide)
      rw [ih, (e1 k).2] at h
      injection h with h h'
      rw [h, List.replicate_succ']
  refine ⟨rt, h1, by rw [← e0 n]; exact h2 0 (by decide), by rw [← (e1 n).1]; exact h2 1 (by decide),
    by rw [← e2 n]; exact h2 2 (by decide), h3, fun i cl hcl => ⟨?_, ?_⟩⟩
  · rw [← y0 i]
    exact h4 i cl hcl ⟨0, 1, "crate::tasks::MyPayload"⟩ (by decide)
  · rw [← (e1 i).2]
    exact h4 i cl hcl ⟨1, 2, "crate::tasks::MyPayload"⟩ (by decide)

example : (main ticking .checked 3).map' (fun r => (r.2, r.1.w.st.task 1, r.1.w.st.task 2)) =
    .ok (.running, .task [42, 42, 42], .sink [43, 43, 43]) := by decide +kernel

end Template

namespace Once

/-- One iteration, whatever the clock says: nothing fails, and this is all that happens, in this order.  In particular
the monitor is shown the readings of the three tasks, six different readings of the clock, before the list is
logged. -/
theorem C102_once {inp : Inputs} (hc : Clocked inp) (o : Overflow) :
    ∃ rt, main inp o = .ok rt ∧ rt.w.trace = once inp ∧ rt.w.st.task 0 = .source ∧ rt.w.st.task 1 = .task ∧
      rt.w.st.task 2 = .sink := by
  obtain ⟨m, h⟩ := main_eq hc o
  exact ⟨_, h, rfl, rfl, rfl, rfl⟩

/-- A clock that advances by a millisecond each time it is read is such a clock; the monitor sees milliseconds 0 to
5. -/
example : Clocked ticking ∧ ([0, 1, 2].map (fun t => (readings ticking t).processTime)) =
    [⟨⟨⟨0⟩⟩, ⟨⟨1000000⟩⟩⟩, ⟨⟨⟨2000000⟩⟩, ⟨⟨3000000⟩⟩⟩, ⟨⟨⟨4000000⟩⟩, ⟨⟨5000000⟩⟩⟩] := by
  have e : ∀ n, (ticking.clock n).ns.toNat = min n 1000 * 1000000 := by
    intro n
    simp only [ticking, UInt64.toNat_ofNat']
    rw [Nat.mod_eq_of_lt (by omega)]
  exact ⟨⟨fun i j h => by rw [e, e]; omega, fun i => by rw [e]; omega⟩, rfl⟩

end Once
end Examples

namespace Launch
open ULog Config

/-- What a stream is given when it is opened is reported as used, up to the end of its section, whether it was in the
slab in use or in a new one. -/
theorem C102_reserved {lg lg' : Logger} {t : EntryType} {n : Nat} {st : Stream}
    (h : openStream lg t n = .ok (lg', st)) :
    ∃ start, lg'.stats.2.1.getLast? = some start ∧ lg'.stats.1 = start + n ∧ st.section_.off = start ∧
      st.section_.slab = lg'.front.suffix := by
  obtain ⟨h1, h2, h3⟩ := stream_reserved h
  exact ⟨_, h1, h2, rfl, h3⟩

/-- The sizes the example checks: with slabs of 150 MiB and sections of 100 MiB, its setup and its start succeed, and
after its copper list has been logged more than 100 MiB are in use, in one file of 150 MiB. -/
theorem C102_logging_size {C T M : Type} (page : Nat) (hp : 13 < page) (hp' : page ≤ 65535) :
    ∃ lg text, basicSetup page (some (150 * 1024 * 1024)) = .ok (lg, text) ∧
      ∃ lg' st, (∀ (ov : Overflow) (p : Parts C T M) (k : Compiled C) (c : CuConfig C) (a : App C T M) (l : Logger),
          c.logging.bind (·.sectionSizeMib) = some 100 → (start ov p k c lg).2 = .ok (.ok (a, l)) →
          l = lg' ∧ a.logger = if logs c then some st else none) ∧
        ∀ list : List Bytes, 15 + list.flatten.length ≤ 100 * 1024 * 1024 →
          ∃ lg'' st', st.log lg' list = .ok (lg'', st') ∧ 100 * 1024 * 1024 < lg''.stats.1 ∧
            lg''.stats.2.1.length = 2 ∧ lg''.stats.2.2 = 0 ∧
            lg''.files.map List.length = [150 * 1024 * 1024] := by
  have hen := enc_mainHeader_le ⟨0xB4, 0xA5, 0x50, 0xFF, UInt16.ofNat page, UInt16.ofNat page⟩
  have a1 := align_le (page := page) (by omega) (4096 * 10)
  have a2 := align_lt page (4096 * 10) (by omega)
  have a3 := align_le (page := page) (by omega) 104857600
  have a4 := align_lt page 104857600 (by omega)
  have a5 := align_lt page page (by omega)
  have a6 := align_le (page := page) (by omega) page
  have a7 := align_lt page (align page page + 4096 * 10) (by omega)
  have a8 := align_le (page := page) (by omega) (align page page + 4096 * 10)
  have e0 : Logger.new (150 * 1024 * 1024) page = .ok ⟨page, 150 * 1024 * 1024,
      [writeAt (List.replicate (150 * 1024 * 1024) 0) 0
        (Bincode.enc (⟨0xB4, 0xA5, 0x50, 0xFF, UInt16.ofNat page, UInt16.ofNat page⟩ : MainHeader))],
      ⟨0, page, [], 0⟩, []⟩ := by
    unfold Logger.new
    simp only
    rw [if_neg (by omega), if_neg (by omega)]
    rfl
  have el : (writeAt (List.replicate (150 * 1024 * 1024) 0) 0
      (Bincode.enc (⟨0xB4, 0xA5, 0x50, 0xFF, UInt16.ofNat page, UInt16.ofNat page⟩ : MainHeader))).length =
      150 * 1024 * 1024 := by
    rw [length_writeAt (by rw [List.length_replicate]; omega), List.length_replicate]
  generalize hfile : writeAt (List.replicate (150 * 1024 * 1024) 0) 0
      (Bincode.enc (⟨0xB4, 0xA5, 0x50, 0xFF, UInt16.ofNat page, UInt16.ofNat page⟩ : MainHeader)) = file0 at e0 el
  obtain ⟨f1, h1, l1, -, -, -, -, o1⟩ := openStream_ok
    (lg := ⟨page, 150 * 1024 * 1024, [file0], ⟨0, page, [], 0⟩, []⟩) (file := file0) rfl rfl .structuredLogLine
    (req := 4096 * 10) hp (by omega) (by show align page _ < _; omega) (by show align page page + align page _ ≤ _; omega)
  obtain ⟨f2, h2, l2, u2, r2, s2, p2, o2⟩ := openStream_ok
    (lg := ⟨page, 150 * 1024 * 1024, [f1], ⟨0, align page page + 4096 * 10, [align page page], 0⟩, []⟩) (file := f1)
    rfl rfl .copperList (req := 104857600) hp (by omega) (by show align page _ < _; omega)
    (by show align page (align page page + 4096 * 10) + align page _ ≤ _; omega)
  have hb : basicSetup page (some (150 * 1024 * 1024)) =
      .ok (⟨page, 150 * 1024 * 1024, [f1], ⟨0, align page page + 4096 * 10, [align page page], 0⟩, []⟩,
        ⟨.structuredLogLine, h1, 4096 * 10⟩) := by
    unfold basicSetup
    rw [show (some (150 * 1024 * 1024)).getD (1024 * 1024 * 10) = 150 * 1024 * 1024 from rfl, e0]
    exact o1
  refine ⟨_, _, hb, ⟨page, 150 * 1024 * 1024, [f2],
        ⟨0, align page (align page page + 4096 * 10) + 104857600,
          [align page page, align page (align page page + 4096 * 10)], 0⟩, []⟩, ⟨.copperList, h2, 104857600⟩, ?_, ?_⟩
  rotate_left
  · intro list hl
    have := log_ok (lg := ⟨page, 150 * 1024 * 1024, [f2],
        ⟨0, align page (align page page + 4096 * 10) + 104857600,
          [align page page, align page (align page page + 4096 * 10)], 0⟩, []⟩)
      (st := ⟨.copperList, h2, 104857600⟩) (obj := list) (by show 15 + h2.used + _ ≤ h2.req; omega)
    refine ⟨_, _, this, ?_, rfl, rfl, ?_⟩
    · show _ < align page (align page page + 4096 * 10) + 104857600
      omega
    · show List.map List.length (List.modify [f2] h2.slab _) = _
      rw [s2]
      show [(writeAt f2 (h2.off + 15 + h2.used) list.flatten).length] = _
      have p2 : h2.off = align page (align page page + 4096 * 10) := p2
      rw [length_writeAt (by omega), l2, l1, el]
  · intro ov p k c a l hc hs
    unfold start at hs
    have hn : sectionSize ov k.listSize c = .ok 104857600 := by
      unfold sectionSize
      rw [hc]
      simp only
      rw [if_pos (by decide)]
      exact congrArg _ (by decide)
    simp only [hn, Rs.ok_bind] at hs
    rw [o2] at hs
    simp only at hs
    cases ht : (createTasks p k.sim (c.nodes.map (·.config)) 0 k.tasks).2 with
    | panic => rw [ht] at hs; cases hs
    | ok r =>
      rw [ht] at hs
      cases r with
      | error e => cases hs
      | ok ts =>
        simp only at hs
        cases hm : p.monitor k.monitor c (k.tasks.map (·.id)) with
        | error e => rw [hm] at hs; cases hs
        | ok m =>
          rw [hm] at hs
          simp only at hs
          split at hs
          · cases hq : newSteps (c.nodes.map (·.config)) 0 k.tasks with
            | panic => rw [hq] at hs; cases hs
            | ok q =>
              rw [hq] at hs
              cases hs
              exact ⟨rfl, rfl⟩
          · cases hs
            exact ⟨rfl, rfl⟩

/-- Pages of four KiB; a small log shows what is reported. -/
example : (Rs.map' (fun r => r.1.stats) (match Logger.new 200 16 with
    | .panic => .panic
    | .ok lg => openStream lg .copperList 40)) = .ok (56, [16], 0) := by decide +kernel

example : ∃ lg text, basicSetup 4096 (some (150 * 1024 * 1024)) = .ok (lg, text) :=
  let ⟨lg, text, h, _⟩ := C102_logging_size (C := Nat) (T := Nat) (M := Nat) 4096 (by decide) (by decide)
  ⟨lg, text, h⟩

end Launch
end Verif
