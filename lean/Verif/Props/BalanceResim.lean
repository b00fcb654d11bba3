import Verif.Proofs.BalanceResim
import Verif.Props.BalanceBot
import Verif.Props.BalanceSim
/-!
C92: the resimulation of the balancing robot.
-/
namespace Verif
namespace BotResim
open Clock CopperList Planner Verif.Runtime Fp Bot

variable {inp inp' : Inputs}

/-- The log of a run on the hardware, whatever its sensors delivered and whichever readings failed, is resimulated to
its end, and to the same effect: the same messages of the sensors, of the two PIDs and of the merger are logged, list
by list, payload, time of validity and status, and the PIDs are left with the same state.  `inp` is what the robot
found when it was recorded; the resimulation has its own console, on which nobody presses `q`, and nothing else. -/
theorem C92_hardware (hc : Clocked inp) {n : Nat} (hn : n < 4294967295) {rt : Rt Robot Payload}
    (h : loop inp n = .ok (rt, none)) (htext : inp'.text = inp.text) (hquit : ∀ k, inp'.quit k = false) :
    (loggedLists rt.w.trace).length = n ∧
    ∃ rt', resim inp' (loggedLists rt.w.trace) = .ok (rt', none) ∧ rt'.w.st.panicked = [] ∧
      Pointwise (SameList plan) (loggedLists rt.w.trace) (loggedLists rt'.w.trace) ∧
      rt'.w.st.rodPid = rt.w.st.rodPid ∧ rt'.w.st.railPid = rt.w.st.railPid := by
  have hfine : rt.w.st.panicked = [] := by
    obtain ⟨rt2, e2, h2, h3⟩ := (C88_total hc n hn).2
    rw [h] at h2
    cases h2
    exact h3
  unfold loop at h
  generalize hs : startAll (Bot.app inp) fresh = q at h
  obtain ⟨rts, _ | e⟩ := q
  · simp only at h
    rw [← episodes_loop] at h
    obtain ⟨h1, rt', h2, h3, h4⟩ := resim_sync (rt0 := fresh) htext hquit (a := Bot.app inp) rfl rfl bot_fair bot_calm rfl
      (by intro t e s hx; cases hx) (fs := List.replicate n id)
      (by intro f hf s; rw [(List.mem_replicate.1 hf).2]; rfl) (by simpa using hn) rfl rfl rfl hs h
    obtain ⟨k1, k2, k3⟩ := mem_same h4
    exact ⟨by simpa using h1, rt', h2, k3 hfine, h3, k1, k2⟩
  · simp only [Rs.ok.injEq, Prod.mk.injEq] at h
    cases h.2

/-- The same for the log of a simulation, whatever the physics computed. -/
theorem C92_simulation {fs : List BotSim.Frame} (ht : BotSim.Timed fs) (hn : fs.length < 4294967295)
    {rt : Rt BotSim.State Payload} (h : BotSim.simulate inp fs = .ok (rt, none)) (htext : inp'.text = inp.text)
    (hquit : ∀ k, inp'.quit k = false) :
    (loggedLists rt.w.trace).length = fs.length ∧
    ∃ rt', resim inp' (loggedLists rt.w.trace) = .ok (rt', none) ∧ rt'.w.st.panicked = [] ∧
      Pointwise (SameList plan) (loggedLists rt.w.trace) (loggedLists rt'.w.trace) ∧
      rt'.w.st.rodPid = rt.w.st.robot.rodPid ∧ rt'.w.st.railPid = rt.w.st.robot.railPid := by
  have hfine : rt.w.st.robot.panicked = [] := by
    rcases BotSim.simulate_ok (inp := inp) fs ht hn with ⟨rt2, a, b, l, h1, -, h3, -⟩ | ⟨_, _, _, _, _, -, -, -, h1, -⟩
    · rw [h] at h1
      cases h1
      rw [h3]
      rfl
    · rw [h] at h1; cases h1
  unfold BotSim.simulate at h
  generalize hs : startAll (BotSim.app inp) BotSim.fresh = q at h
  obtain ⟨rts, _ | e⟩ := q
  · simp only at h
    rw [frames_episodes] at h
    obtain ⟨h1, rt', h2, h3, h4⟩ := resim_sync (rt0 := BotSim.fresh) htext hquit (a := BotSim.app inp) rfl rfl sim_fair
      sim_calm rfl (by intro t e s hx; cases hx) (fs := fs.map (fun f s => { s with frame := f }))
      (by
        intro f hf s
        obtain ⟨x, -, rfl⟩ := List.mem_map.1 hf
        rfl) (by simpa using hn) rfl rfl rfl hs h
    obtain ⟨k1, k2, k3⟩ := mem_same (s := rt.w.st.robot) h4
    exact ⟨by simpa using h1, rt', h2, k3 hfine, h3, k1, k2⟩
  · simp only [Rs.ok.injEq, Prod.mk.injEq] at h
    cases h.2

/-! ### What is not reproduced -/

/-- A run on the hardware, recorded and resimulated: what `f` sees of the lists logged by both. -/
def both {α : Type} (f : List (Msg Payload) → α) (inp : Inputs) (n : Nat) : Rs (List α × List α) :=
  match loop inp n with
  | .ok (rt, none) =>
    (resim inp (loggedLists rt.w.trace)).map' (fun x =>
      ((loggedLists rt.w.trace).map (fun cl => f cl.msgs), (loggedLists x.1.w.trace).map (fun cl => f cl.msgs)))
  | _ => .panic

/-- Nobody presses `q`, and a status is "Applied" for a command. -/
def calm : Inputs :=
  { still (fun _ => some 3100) (fun _ => false) with
    text := fun p => match p with | .motor _ => "Applied" | _ => "" }

/-- The statuses of the motor's messages are not those of a run on the hardware, in which the motor has none: the
resimulation writes there what the simulation would have written. -/
theorem C92_motor_violated :
    both (fun ms => ms[5]?.map (fun m => decide (m.md.statusTxt = "Applied"))) calm 2 =
      .ok ([some false, some false], [some false, some true]) := by
  decide +kernel

/-- When the tasks were called is not reproduced: in the resimulation all of them are called when `balpos` was. -/
theorem C92_times_violated :
    both (fun ms => ms.map (fun m => m.md.processTime.start.inner.ns)) calm 1 =
      .ok ([[0, 5000000, 7000000, 10000000, 12000000, 14000000]], [[0, 0, 0, 0, 0, 0]]) := by
  decide +kernel

/-- A log with a list in which `balpos` was not called: the resimulation panics there, whatever follows. -/
theorem C92_stops {cls post : List (CL (List (Msg Payload)))} {cl : CL (List (Msg Payload))} {m : Msg Payload}
    {rt : Rt Robot Payload} (h : resim inp cls = .ok (rt, none)) (hm : cl.msgs.head? = some m)
    (hs : m.md.processTime.start.inner.ns = 18446744073709551615) : resim inp (cls ++ cl :: post) = .panic := by
  have h0 : output cl.msgs 0 = some m := by
    rw [← hm, List.head?_eq_getElem?]; rfl
  have h1 : ∀ rt, one inp cl rt = .panic := by
    intro rt
    unfold one
    rw [h0]
    have : m.md.processTime.start.unwrap = Option.none := by
      simp [OptionCuTime.unwrap, OptionCuTime.isNone, hs, NONE_VALUE]
    simp [this]
  unfold resim at h ⊢
  generalize startAll (app inp ⟨0⟩ []) fresh = st at h ⊢
  obtain ⟨r0, e⟩ := st
  cases e with
  | some e => cases h
  | none =>
    simp only at h ⊢
    induction cls generalizing r0 with
    | nil => simp only [List.nil_append, lists, h1]
    | cons c cls ih =>
      simp only [List.cons_append, lists] at h ⊢
      generalize one inp c r0 = q at h ⊢
      match q, h with
      | .ok (r1, none), h => exact ih r1 h

/-! ### The hypotheses are met -/

theorem calm_clocked : Clocked calm :=
  ⟨(still_clocked (fun _ => some 3100) (fun _ => false)).mono, (still_clocked (fun _ => some 3100) (fun _ => false)).bound⟩

example : ∃ rt, loop calm 3 = .ok (rt, none) ∧ (loggedLists rt.w.trace).length = 3 ∧
    ∃ rt', resim calm (loggedLists rt.w.trace) = .ok (rt', none) ∧ rt'.w.st.rodPid = rt.w.st.rodPid := by
  obtain ⟨rt, h, -⟩ := (C88_total calm_clocked 3 (by decide)).1 (by decide) (fun _ _ => rfl)
  obtain ⟨h1, rt', h2, -, -, h3, -⟩ := C92_hardware (inp' := calm) calm_clocked (by decide) h rfl (fun _ => rfl)
  exact ⟨rt, h, h1, rt', h2, h3⟩

example : ∃ rt, BotSim.simulate calm BotSim.fall = .ok (rt, none) ∧
    ∃ rt', resim calm (loggedLists rt.w.trace) = .ok (rt', none) ∧ (loggedLists rt'.w.trace).length = 4 := by
  obtain ⟨rt, h, -⟩ := BotSim.C91_total (inp := calm) BotSim.fall_timed (by decide) (fun _ _ => rfl)
  obtain ⟨h1, rt', h2, -, h3, -⟩ := C92_simulation (inp' := calm) BotSim.fall_timed (by decide) h rfl (fun _ => rfl)
  exact ⟨rt, h, rt', h2, by rw [← pointwise_length h3, h1]; rfl⟩

/-- A message that was not written by a run: its times are the default ones. -/
example (post) : ∃ rt, loop calm 3 = .ok (rt, none) ∧ ∀ cl ∈ fresh.mgr.data, ∀ m ∈ cl.msgs,
    resim calm (loggedLists rt.w.trace ++
      { cl with msgs := [{ m with md := { m.md with processTime := .default } }] } :: post) = .panic := by
  obtain ⟨rt, h, -⟩ := (C88_total calm_clocked 3 (by decide)).1 (by decide) (fun _ _ => rfl)
  obtain ⟨h1, rt', h2, -⟩ := C92_hardware (inp' := calm) calm_clocked (by decide) h rfl (fun _ => rfl)
  exact ⟨rt, h, fun cl _ m _ => C92_stops h2 rfl rfl⟩

/-- A robot that drives. -/
example : both (fun ms => ms[4]?.bind (fun m => m.payload)) calm 3 =
    .ok ([none, some (.motor (.fin (-13925089 / 33554432))), some (.motor (.fin (-13925089 / 33554432)))],
      [none, some (.motor (.fin (-13925089 / 33554432))), some (.motor (.fin (-13925089 / 33554432)))]) := by
  decide +kernel

end BotResim
end Verif
