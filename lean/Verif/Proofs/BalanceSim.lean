import Verif.Spec.BalanceSim
import Verif.Proofs.BalanceBot
import Verif.Proofs.ReadingsFp
/-!
Lemmas on the simulation of the balancing robot.
-/
namespace Verif
namespace BotSim
open Clock CopperList Planner Verif.Runtime Fp Bot
variable {inp : Inputs}

/-- What a step leaves in its message. -/
structure Leaves (t : CuTime) (out : Msg Payload) (p : Option Payload) (tov : Tov) : Prop where
  payload : out.payload = p
  tov : out.md.tov = tov
  start : out.md.processTime.start = .ofTime t
  stop : out.md.processTime.stop = .ofTime t

/-- A step the simulation answers. -/
theorem step_answered (step : Step) (ins : List (Msg Payload)) (out : Msg Payload) (w : World State Payload)
    {s : State} {o : Msg Payload} (h : answer inp step.nodeId ins out w.st = (s, o, .executedBySim)) :
    ∃ w' out', processStep (env inp) step ins out w = (w', out', .next) ∧ w'.st = s ∧
      Leaves s.frame.time out' o.payload o.md.tov := by
  unfold processStep
  have hs : (env inp).sim = some ⟨answerLife, answer inp⟩ := rfl
  rw [hs]
  simp only [h, execProcess]
  exact ⟨_, _, rfl, rfl, rfl, rfl, rfl, rfl⟩

/-- A step the simulation answers with an error. -/
theorem step_errored (step : Step) (ins : List (Msg Payload)) (out : Msg Payload) (w : World State Payload)
    {s : State} {o : Msg Payload} {e : Err} (h : answer inp step.nodeId ins out w.st = (s, o, .errored e)) :
    ∃ w' out', processStep (env inp) step ins out w = (w', out', .next) ∧ w'.st = s ∧
      Leaves s.frame.time out' none o.md.tov := by
  unfold processStep
  have hs : (env inp).sim = some ⟨answerLife, answer inp⟩ := rfl
  rw [hs]
  simp only [h]
  exact ⟨_, _, rfl, rfl, rfl, rfl, rfl, rfl⟩

/-- A step left to the runtime. -/
theorem step_run (step : Step) (ins : List (Msg Payload)) (out : Msg Payload) (w : World State Payload)
    {r : Robot} {o : Msg Payload} {e : Option Err} (ha : answer inp step.nodeId ins out w.st = (w.st, out, .executeByRuntime))
    (hr : step.taskType = .regular)
    (h : (Bot.env inp).regular step.nodeId ins (out.setStart w.st.frame.time) w.st.robot = (r, o, e))
    (ho : o.md.processTime.start = (out.setStart w.st.frame.time).md.processTime.start) :
    ∃ w' out', processStep (env inp) step ins out w = (w', out', .next) ∧ w'.st = { w.st with robot := r } ∧
      Leaves w.st.frame.time out' (if e.isSome then none else o.payload) o.md.tov := by
  unfold processStep
  have hs : (env inp).sim = some ⟨answerLife, answer inp⟩ := rfl
  rw [hs]
  simp only [ha]
  have hc : callProcess (env inp) step ins (out.setStart w.st.frame.time) w.st =
      ({ w.st with robot := r }, o, e) := by
    unfold callProcess
    rw [hr]
    show onRobot _ _ = _
    rw [h]
    rfl
  have hn : ∀ s, (env inp).now s = (s, s.frame.time) := fun _ => rfl
  simp only [execProcess, World.emit, hn, if_true, hc]
  cases e with
  | none => exact ⟨_, _, rfl, rfl, rfl, rfl, ho, rfl⟩
  | some e => exact ⟨_, _, rfl, rfl, rfl, rfl, ho, rfl⟩

theorem sim_plan_cons {step : Step} {steps : List Step} {w w' : World State Payload}
    {msgs ins : List (Msg Payload)} {o : Nat} {ty : String} {out out' : Msg Payload} (h1 : step.output = some (o, ty))
    (h2 : mapRs (fun i => Rs.ofOption msgs[i.1]?) step.inputs = .ok ins) (h3 : msgs[o]? = some out)
    (h4 : processStep (env inp) step ins out w = (w', out', .next)) :
    planLoop (env inp) (step :: steps) w msgs = planLoop (env inp) steps w' (msgs.set o out') := by
  rw [planLoop, h1]
  simp only [h2, h3, h4]

theorem pidOutput_start (out : Msg Payload) (r : PidFp.Res) :
    (pidOutput inp out r).1.md.processTime.start = out.md.processTime.start := by
  cases r <;> rfl

/-- The steps of an iteration. -/
theorem steps_ok {w : World State Payload} {x0 x1 x2 x3 x4 x5 : Msg Payload} {tA tB : PidFp.Task} {rA rB : PidFp.Res}
    (hA : w.st.robot.rodPid.process (some (some w.st.frame.time.ns.toNat,
      ofInt f32 ((analog w.st.frame.yaw).toNat : Int))) = .ok (tA, rA))
    (hB : w.st.robot.railPid.process (some (some w.st.frame.time.ns.toNat,
      ofInt f32 (ticks w.st.frame.x).toInt)) = .ok (tB, rB)) :
    ∃ (w' : World State Payload) (a0 a1 a2 a3 a4 a5 : Msg Payload),
      planLoop (env inp) plan w [x0, x1, x2, x3, x4, x5] = .ok (w', [a0, a1, a2, a3, a4, a5], .next) ∧
      w'.st = { w.st with
        robot := { w.st.robot with rodPid := tA, railPid := tB }
        forces := w.st.forces ++ [forceOf (command rA rB)] } ∧
      a0.md.processTime.start = .ofTime w.st.frame.time ∧ a5.md.processTime.stop = .ofTime w.st.frame.time := by
  rw [plan_eq]
  obtain ⟨w1, a0, p1, p2, p3⟩ := step_answered (inp := inp)
    ⟨0, .source, [], some (0, "cu_ads7883_new::ADSReadingPayload")⟩ [] x0 w rfl
  -- the PID of the rod
  have hin1 : pidInput a0 = some (some w.st.frame.time.ns.toNat, ofInt f32 ((analog w.st.frame.yaw).toNat : Int)) := by
    simp only [pidInput, p3.payload, p3.tov]; rfl
  have hp1 : (Bot.env inp).regular 2 [a0] (x1.setStart w1.st.frame.time) w1.st.robot =
      ({ w1.st.robot with rodPid := tA }, pidOutput inp (x1.setStart w1.st.frame.time) rA) := by
    show balposPid inp a0 _ _ = _
    have : w1.st.robot.rodPid = w.st.robot.rodPid := by rw [p2]
    simp only [balposPid, hin1, this, hA]
  obtain ⟨w2, a1, q1, q2, q3⟩ := step_run (inp := inp)
    ⟨2, .regular, [(0, "cu_ads7883_new::ADSReadingPayload")], some (1, "cu_pid::PIDControlOutputPayload")⟩ [a0] x1 w1
    rfl rfl hp1 (pidOutput_start _ _)
  obtain ⟨w3, a2, r1, r2, r3⟩ := step_answered (inp := inp)
    ⟨1, .source, [], some (2, "cu_rp_encoder::EncoderPayload")⟩ [] x2 w2 rfl
  -- the PID of the rail
  have hf2 : w2.st.frame = w.st.frame := by rw [q2, p2]
  have hin2 : pidInput a2 = some (some w.st.frame.time.ns.toNat, ofInt f32 (ticks w.st.frame.x).toInt) := by
    simp only [pidInput, r3.payload, r3.tov, hf2]; rfl
  have hp2 : (Bot.env inp).regular 3 [a2] (x3.setStart w3.st.frame.time) w3.st.robot =
      ({ w3.st.robot with railPid := tB }, pidOutput inp (x3.setStart w3.st.frame.time) rB) := by
    show railposPid inp a2 _ _ = _
    have : w3.st.robot.railPid = w.st.robot.railPid := by rw [r2, q2, p2]
    simp only [railposPid, hin2, this, hB]
  obtain ⟨w4, a3, s1, s2, s3⟩ := step_run (inp := inp)
    ⟨3, .regular, [(2, "cu_rp_encoder::EncoderPayload")], some (3, "cu_pid::PIDControlOutputPayload")⟩ [a2] x3 w3
    rfl rfl hp2 (pidOutput_start _ _)
  -- the merger
  have h1 : a1.payload = left rA := by rw [q3.payload]; exact pidOutput_left _ _
  have h3 : a3.payload = left rB := by rw [s3.payload]; exact pidOutput_left _ _
  have hm : ∃ o e, (Bot.env inp).regular 4 [a1, a3] (x4.setStart w4.st.frame.time) w4.st.robot = (w4.st.robot, o, e) ∧
      (if e.isSome then none else o.payload) = (command rA rB).map .motor ∧
      o.md.processTime.start = (x4.setStart w4.st.frame.time).md.processTime.start := by
    show ∃ o e, mergePids inp a1 a3 _ _ = _ ∧ _
    cases rA with
    | produced x =>
      cases rB with
      | produced y =>
        obtain ⟨c, hc, -⟩ := power_ok x.output y.output
        refine ⟨({ x4.setStart w4.st.frame.time with
          md := { (x4.setStart w4.st.frame.time).md with tov := a1.md.tov, statusTxt := inp.text (.motor c) }
          payload := some (.motor c) } : Msg Payload), none, ?_, ?_, rfl⟩
        · simp only [mergePids, h1, h3, left, hc]; rfl
        · simp only [command, hc]; rfl
      | cleared => exact ⟨_, _, by simp only [mergePids, h1, h3, left]; rfl, rfl, rfl⟩
      | error => exact ⟨_, _, by simp only [mergePids, h1, h3, left]; rfl, rfl, rfl⟩
    | cleared => exact ⟨_, _, by simp only [mergePids, h1, left]; rfl, by cases rB <;> rfl, rfl⟩
    | error => exact ⟨_, _, by simp only [mergePids, h1, left]; rfl, by cases rB <;> rfl, rfl⟩
  obtain ⟨o, e, hm, hpay, hst⟩ := hm
  obtain ⟨w5, a4, t1, t2, t3⟩ := step_run (inp := inp)
    ⟨4, .regular, [(1, "cu_pid::PIDControlOutputPayload"), (3, "cu_pid::PIDControlOutputPayload")],
      some (4, "cu_rp_sn754410_new::MotorPayload")⟩ [a1, a3] x4 w4 rfl rfl hm hst
  -- the motor
  have h4 : a4.payload = (command rA rB).map .motor := by rw [t3.payload, hpay]
  have hf5 : w5.st.frame = w.st.frame := by rw [t2, s2, r2]; exact hf2
  have hmot : ∃ w6 a5, processStep (env inp) ⟨5, .sink, [(4, "cu_rp_sn754410_new::MotorPayload")], some (5, "()")⟩ [a4] x5 w5 =
      (w6, a5, .next) ∧ w6.st = { w5.st with forces := w5.st.forces ++ [forceOf (command rA rB)] } ∧
      a5.md.processTime.stop = .ofTime w.st.frame.time := by
    cases hc : command rA rB with
    | none =>
      rw [hc] at h4
      have : answer inp 5 [a4] x5 w5.st =
          ({ w5.st with forces := w5.st.forces ++ [.fin 0] }, x5, .errored "Safety Mode.") := by
        simp only [answer, h4]; rfl
      obtain ⟨w6, a5, u1, u2, u3⟩ := step_errored (inp := inp)
        ⟨5, .sink, [(4, "cu_rp_sn754410_new::MotorPayload")], some (5, "()")⟩ [a4] x5 w5 this
      exact ⟨w6, a5, u1, u2, by rw [u3.stop]; exact congrArg _ (congrArg _ hf5)⟩
    | some c =>
      rw [hc] at h4
      have : ∃ o, answer inp 5 [a4] x5 w5.st =
          ({ w5.st with forces := w5.st.forces ++ [forceOf (some c)] }, o, .executedBySim) := by
        simp only [answer, h4, Option.map_some]
        cases c with
        | nan => exact ⟨x5, rfl⟩
        | inf b => 
          exfalso
          cases rA with
          | produced x =>
            cases rB with
            | produced y =>
              obtain ⟨c', hc', h⟩ := power_ok x.output y.output
              simp only [command, hc', Option.some.injEq] at hc
              subst hc
              rcases h with h | ⟨q, h, -⟩ <;> cases h
            | cleared => cases hc
            | error => cases hc
          | cleared => cases rB <;> cases hc
          | error => cases rB <;> cases hc
        | fin q => exact ⟨_, rfl⟩
      obtain ⟨o, this⟩ := this
      obtain ⟨w6, a5, u1, u2, u3⟩ := step_answered (inp := inp)
        ⟨5, .sink, [(4, "cu_rp_sn754410_new::MotorPayload")], some (5, "()")⟩ [a4] x5 w5 this
      exact ⟨w6, a5, u1, u2, by rw [u3.stop]; exact congrArg _ (congrArg _ hf5)⟩
  obtain ⟨w6, a5, u1, u2, u3⟩ := hmot
  refine ⟨w6, a0, a1, a2, a3, a4, a5, ?_, ?_, p3.start, u3⟩
  · rw [sim_plan_cons rfl rfl rfl p1, sim_plan_cons rfl rfl rfl q1, sim_plan_cons rfl rfl rfl r1,
      sim_plan_cons rfl rfl rfl s1, sim_plan_cons rfl rfl rfl t1, sim_plan_cons rfl rfl rfl u1]
    rfl
  · rw [u2, t2, s2, r2, q2, p2]

/-! ### The whole iteration -/

theorem sim_lifeStep {ph : Phase} (hph : ph = .preprocess ∨ ph = .postprocess ∨ ph = .start) (t : Nat)
    (w : World State Payload) : ∃ w', lifeStep (env inp) ph t w = (w', .next) ∧ w'.st = w.st := by
  by_cases ht : t = 0 ∨ t = 1 ∨ t = 5
  · have ha : answerLife ph t w.st = (w.st, .executedBySim) := by simp only [answerLife, if_pos ht]
    unfold lifeStep
    have hs : (env inp).sim = some ⟨answerLife, answer inp⟩ := rfl
    rw [hs]
    simp only [ha]
    exact ⟨_, rfl, rfl⟩
  · have ha : answerLife ph t w.st = (w.st, .executeByRuntime) := by simp only [answerLife, if_neg ht]
    have hl : (env inp).life ph t w.st = (w.st, none) := by
      have : Bot.life inp ph t w.st.robot = (w.st.robot, none) := by
        rcases hph with rfl | rfl | rfl <;> unfold life <;> split <;> simp_all
      show onRobot _ _ = _
      rw [this]
      rfl
    unfold lifeStep
    have hs : (env inp).sim = some ⟨answerLife, answer inp⟩ := rfl
    rw [hs]
    simp only [ha, lifeCall, World.emit, hl]
    exact ⟨_, rfl, rfl⟩

theorem sim_lifeAll {ph : Phase} (hph : ph = .preprocess ∨ ph = .postprocess ∨ ph = .start) (ts : List Nat)
    (w : World State Payload) : ∃ w', lifeAll (env inp) ph ts w = (w', .next) ∧ w'.st = w.st := by
  induction ts generalizing w with
  | nil => exact ⟨w, rfl, rfl⟩
  | cons t ts ih =>
    obtain ⟨w1, h1, h2⟩ := sim_lifeStep (inp := inp) hph t w
    obtain ⟨w2, h3, h4⟩ := ih w1
    exact ⟨w2, by rw [lifeAll, h1]; exact h3, h4.trans h2⟩

/-- The end of a list, the log accepting everything. -/
theorem sim_end {id : UInt32} {msgs : List (Msg Payload)} {m : Manager (List (Msg Payload))} (h : Busy 6 id msgs m)
    (w : World State Payload) :
    ∃ w' m', endOfProcessing (tracedLog (env inp).log) w m id = .ok (w', m') ∧ w'.st = w.st ∧ Idle 6 m' ∧
      m'.currentClId = m.currentClId := by
  have hacc : LogAccepts (env inp).log := by
    intro f hf s cl
    cases hf
    exact ⟨s, rfl⟩
  have hact : m.LiveActive := by
    intro c hc; rw [h.live] at hc; simp only [List.mem_singleton] at hc; subst hc; exact .inl rfl
  rcases busy_finish h (env inp).log w with ⟨-, h2⟩ | ⟨w', m', h1, h2, -, h4, -⟩
  · exact absurd hacc h2
  · refine ⟨w', m', h1, ?_, h2, h4⟩
    have hmk : (m.live.map (mark id)) = [⟨id, .doneProcessing, msgs⟩] := by
      rw [h.live]; simp [mark]
    rcases endOfProcessing_eq (tracedLog (env inp).log) w h.inv h.dead hact id with ⟨-, e⟩ | ⟨s', m2, e1, e2, -⟩
    · rw [h1] at e; cases e
    · rw [h1] at e2
      simp only [Rs.ok.injEq, Prod.mk.injEq] at e2
      obtain ⟨rfl, -⟩ := e2
      rw [hmk] at e1
      have : (List.takeWhile isDone [(⟨id, .doneProcessing, msgs⟩ : CL (List (Msg Payload)))]) =
        [⟨id, .doneProcessing, msgs⟩] := rfl
      rw [this] at e1
      simp only [logAll, tracedLog, env, Option.map_some, Rs.ok.injEq] at e1
      rw [← e1]
      rfl

theorem control_eq {a b tA tB : PidFp.Task} {rA rB : PidFp.Res} {t : Nat} {rod rail : Int}
    (hA : a.process (some (some t, ofInt f32 rod)) = .ok (tA, rA))
    (hB : b.process (some (some t, ofInt f32 rail)) = .ok (tB, rB)) :
    control a b t rod rail = .ok (tA, tB, command rA rB) := by
  unfold control
  rw [hA]
  simp only [Rs.ok_bind]
  rw [hB]
  simp only [Rs.ok_bind]
  cases rA <;> cases rB <;> rfl

/-- An iteration, in a frame not earlier than the frames before. -/
theorem sim_iteration {rt : Rt State Payload} {T : Nat} (ha : PidOk rodCfg rt.w.st.robot.rodPid T)
    (hb : PidOk railCfg rt.w.st.robot.railPid T) (ht : T ≤ rt.w.st.frame.time.ns.toNat)
    (hlt : rt.w.st.frame.time.ns.toNat < 2 ^ 63) (hi : Idle 6 rt.mgr) (hid : rt.mgr.currentClId ≠ 0xFFFFFFFF) :
    ∃ (rt' : Rt State Payload) (a b : PidFp.Task) (p : Option Num),
      runOneIteration (app inp) rt =
        .ok (rt', if inp.quit rt.w.st.robot.lists then some "Exiting..." else none) ∧
      control rt.w.st.robot.rodPid rt.w.st.robot.railPid rt.w.st.frame.time.ns.toNat (analog rt.w.st.frame.yaw).toNat
        (ticks rt.w.st.frame.x).toInt = .ok (a, b, p) ∧
      PidOk rodCfg a rt.w.st.frame.time.ns.toNat ∧ PidOk railCfg b rt.w.st.frame.time.ns.toNat ∧
      rt'.w.st = { rt.w.st with
        robot := { rt.w.st.robot with rodPid := a, railPid := b, lists := rt.w.st.robot.lists + 1 }
        forces := rt.w.st.forces ++ [forceOf p] } ∧
      (inp.quit rt.w.st.robot.lists = false → Idle 6 rt'.mgr ∧ rt'.mgr.currentClId = rt.mgr.currentClId + 1) := by
  obtain ⟨tA, rA, hA, okA, -, -⟩ := pid_ok rod_sound (by decide) ha ht hlt
    (ofInt f32 ((analog rt.w.st.frame.yaw).toNat : Int))
  obtain ⟨tB, rB, hB, okB, -, -⟩ := pid_ok rail_sound (by decide) hb ht hlt (ofInt f32 (ticks rt.w.st.frame.x).toInt)
  obtain ⟨w0, l1, l2⟩ := sim_lifeAll (inp := inp) (.inl rfl) (List.range 6) rt.w
  obtain ⟨m1, cl, c1, c2, c3, c4, c5⟩ := idle_create hi (o := .checked) (.inl hid)
  obtain ⟨x0, x1, x2, x3, x4, x5, hx⟩ : ∃ x0 x1 x2 x3 x4 x5, cl.msgs = [x0, x1, x2, x3, x4, x5] := six c4
  have e0 : (w0.emit w0.st (.created cl.id)).st = rt.w.st := l2
  obtain ⟨w3, a0, a1, a2, a3, a4, a5, p1, p2, p3, p4⟩ := steps_ok (inp := inp) (w := w0.emit w0.st (.created cl.id))
    (x0 := x0) (x1 := x1) (x2 := x2) (x3 := x3) (x4 := x4) (x5 := x5) (by rw [e0]; exact hA) (by rw [e0]; exact hB)
  rw [e0] at p2 p3 p4
  have hplan : planLoop (app inp).env (app inp).plan (w0.emit w0.st (.created cl.id)) cl.msgs =
      .ok (w3, [a0, a1, a2, a3, a4, a5], .next) := by
    rw [hx]; exact p1
  have hmd : collectMetadata (app inp).plan [a0, a1, a2, a3, a4, a5] =
      .ok [a0.md, a2.md, a1.md, a3.md, a4.md, a5.md] := by
    show collectMetadata plan _ = _
    rw [plan_eq]; rfl
  obtain ⟨d, hd⟩ := endToEnd_ok (md := [a0.md, a2.md, a1.md, a3.md, a4.md, a5.md]) (l := a5.md) (f := a0.md) rfl rfl p4 p3
    (le_refl _) hlt
  obtain ⟨b1, b2, b3⟩ := c5 [a0, a1, a2, a3, a4, a5] rfl
  have hrun : ∀ q, finishList (app inp) cl.id [a0, a1, a2, a3, a4, a5]
      ⟨w3, m1.write 0 (fun c => { c with state := .processing, msgs := [a0, a1, a2, a3, a4, a5] })⟩ = q →
      runOneIteration (app inp) rt = match q with
        | .panic => .panic
        | .ok (rt, some e) => .ok (rt, some e)
        | .ok (rt, none) =>
          match lifeAll (app inp).env .postprocess (List.range 6) rt.w with
          | (w, .shutdown e) => .ok ({ rt with w := w }, some e)
          | (w, _) => .ok ({ rt with w := w }, none) := by
    intro q hq
    unfold runOneIteration
    have l1' : lifeAll (app inp).env .preprocess (List.range (app inp).tasks) rt.w = (w0, .next) := l1
    have hov : (app inp).overflow = .checked := rfl
    rw [l1']
    simp only [hov, c1, c2, hplan, hmd, hd, hq]
    rcases q with ⟨rt1, _ | e⟩ | _ <;> rfl
  have hmon : (app inp).env.monCL [a0.md, a2.md, a1.md, a3.md, a4.md, a5.md] w3.st =
      ({ w3.st with robot := { w3.st.robot with lists := w3.st.robot.lists + 1 } },
        if inp.quit w3.st.robot.lists then some "Exiting..." else none) := rfl
  have hlists : w3.st.robot.lists = rt.w.st.robot.lists := by rw [p2]
  rw [hlists] at hmon
  have hst : { w3.st with robot := { w3.st.robot with lists := rt.w.st.robot.lists + 1 } } = { rt.w.st with
        robot := { rt.w.st.robot with rodPid := tA, railPid := tB, lists := rt.w.st.robot.lists + 1 }
        forces := rt.w.st.forces ++ [forceOf (command rA rB)] } := by rw [p2]
  cases hq : inp.quit rt.w.st.robot.lists with
  | true =>
    rw [hq] at hmon
    refine ⟨⟨w3.emit { w3.st with robot := { w3.st.robot with lists := rt.w.st.robot.lists + 1 } }
        (.monitored [a0.md, a2.md, a1.md, a3.md, a4.md, a5.md] (some "Exiting...")),
        m1.write 0 (fun c => { c with state := .processing, msgs := [a0, a1, a2, a3, a4, a5] })⟩,
      tA, tB, command rA rB, ?_, control_eq hA hB, okA, okB, hst, fun h => (by cases h)⟩
    · have hf : finishList (app inp) cl.id [a0, a1, a2, a3, a4, a5]
          ⟨w3, m1.write 0 (fun c => { c with state := .processing, msgs := [a0, a1, a2, a3, a4, a5] })⟩ =
          .ok (⟨w3.emit { w3.st with robot := { w3.st.robot with lists := rt.w.st.robot.lists + 1 } }
            (.monitored [a0.md, a2.md, a1.md, a3.md, a4.md, a5.md] (some "Exiting...")),
            m1.write 0 (fun c => { c with state := .processing, msgs := [a0, a1, a2, a3, a4, a5] })⟩, some "Exiting...") := by
        unfold finishList
        rw [hmd]
        simp only [hmon, if_true]
      exact hrun _ hf
  | false =>
    rw [hq] at hmon
    obtain ⟨w4, m4, f1, f2, f3, f4⟩ := sim_end (inp := inp) (by rw [← c3] at b1; exact b1)
      (w3.emit { w3.st with robot := { w3.st.robot with lists := rt.w.st.robot.lists + 1 } }
        (.monitored [a0.md, a2.md, a1.md, a3.md, a4.md, a5.md] none))
    obtain ⟨w5, g1, g2⟩ := sim_lifeAll (inp := inp) (.inr (.inl rfl)) (List.range 6) w4
    refine ⟨⟨w5, m4⟩, tA, tB, command rA rB, ?_, control_eq hA hB, okA, okB, (g2.trans f2).trans hst,
      fun _ => ⟨f3, by rw [← b3]; exact f4⟩⟩
    have hf : finishList (app inp) cl.id [a0, a1, a2, a3, a4, a5]
        ⟨w3, m1.write 0 (fun c => { c with state := .processing, msgs := [a0, a1, a2, a3, a4, a5] })⟩ =
        .ok (⟨w4, m4⟩, none) := by
      unfold finishList
      rw [hmd]
      simp only [hmon, Bool.false_eq_true, if_false]
      have : (app inp).env.log = (env inp).log := rfl
      rw [this, f1]
    rw [hrun _ hf]
    have : lifeAll (app inp).env .postprocess (List.range 6) w4 = (w5, .next) := g1
    simp only [this, Bool.false_eq_true, if_false]

/-! ### The frames -/

theorem frames_ok (fs : List Frame) {rt : Rt State Payload} {T n : Nat} (ha : PidOk rodCfg rt.w.st.robot.rodPid T)
    (hb : PidOk railCfg rt.w.st.robot.railPid T) (hT : ∀ f ∈ fs, T ≤ f.time.ns.toNat) (ht : Timed fs)
    (hi : Idle 6 rt.mgr) (hid : rt.mgr.currentClId = UInt32.ofNat n) (hn : n + fs.length < 4294967295)
    (hl : rt.w.st.robot.lists = n) :
    (∃ rt' a b l, frames inp fs rt = .ok (rt', none) ∧
      ideal rt.w.st.robot.rodPid rt.w.st.robot.railPid fs = .ok (a, b, l) ∧
      rt'.w.st.robot = { rt.w.st.robot with rodPid := a, railPid := b, lists := n + fs.length } ∧
      rt'.w.st.forces = rt.w.st.forces ++ l ∧ ∀ k < fs.length, inp.quit (n + k) = false) ∨
    ∃ rt' k a b l, k < fs.length ∧ inp.quit (n + k) = true ∧ (∀ j < k, inp.quit (n + j) = false) ∧
      frames inp fs rt = .ok (rt', some "Exiting...") ∧
      ideal rt.w.st.robot.rodPid rt.w.st.robot.railPid (fs.take (k + 1)) = .ok (a, b, l) ∧
      rt'.w.st.robot = { rt.w.st.robot with rodPid := a, railPid := b, lists := n + (k + 1) } ∧
      rt'.w.st.forces = rt.w.st.forces ++ l := by
  induction fs generalizing rt T n with
  | nil =>
    refine .inl ⟨rt, rt.w.st.robot.rodPid, rt.w.st.robot.railPid, [], rfl, rfl, ?_, by simp, by simp⟩
    rw [← hl]; rfl
  | cons f fs ih =>
    obtain ⟨ht1, ht2⟩ := ht
    rw [List.pairwise_cons] at ht1
    simp only [List.length_cons] at hn
    have hne : rt.mgr.currentClId ≠ 0xFFFFFFFF := by
      rw [hid]
      intro e
      have := congrArg UInt32.toNat e
      rw [UInt32.toNat_ofNat'] at this
      have h3 : (0xFFFFFFFF : UInt32).toNat = 4294967295 := rfl
      rw [h3, Nat.mod_eq_of_lt (by omega)] at this
      omega
    obtain ⟨rt1, a, b, p, e1, e2, e3, e4, e5, e6⟩ := sim_iteration (inp := inp)
      (rt := { rt with w := { rt.w with st := { rt.w.st with frame := f } } }) ha hb (hT f (by simp))
      (ht2 f (by simp)) hi hne
    simp only at e1 e2 e5 e6
    rw [hl] at e1 e5 e6
    have hid1 : ∀ fs', ideal rt.w.st.robot.rodPid rt.w.st.robot.railPid (f :: fs') =
        (ideal a b fs').bind (fun x => .ok (x.1, x.2.1, forceOf p :: x.2.2)) := by
      intro fs'
      rw [ideal, e2]
      rfl
    cases hq : inp.quit n with
    | true =>
      rw [hq] at e1
      right
      refine ⟨rt1, 0, a, b, [forceOf p], by simp, hq, by simp, ?_, ?_, ?_, ?_⟩
      · rw [frames, e1]; rfl
      · rw [List.take_succ_cons, List.take_zero, hid1]; rfl
      · rw [e5]
      · rw [e5]
    | false =>
      rw [hq] at e1 e6
      obtain ⟨e6, e7⟩ := e6 rfl
      have hfr : frames inp (f :: fs) rt = frames inp fs rt1 := by
        rw [frames, e1]; rfl
      have hr1 : rt1.w.st.robot.rodPid = a := by rw [e5]
      have hr2 : rt1.w.st.robot.railPid = b := by rw [e5]
      have hr3 : rt1.w.st.robot.lists = n + 1 := by rw [e5]
      have hr4 : rt1.w.st.forces = rt.w.st.forces ++ [forceOf p] := by rw [e5]
      rcases ih (rt := rt1) (n := n + 1) (T := f.time.ns.toNat) (by rw [hr1]; exact e3) (by rw [hr2]; exact e4)
        (fun g hg => ht1.1 g hg) ⟨ht1.2, fun g hg => ht2 g (List.mem_cons_of_mem _ hg)⟩ e6
        (by rw [e7, hid]; exact (UInt32.ofNat_add n 1).symm) (by omega) hr3 with
        ⟨rt', a', b', l, i1, i2, i3, i4, i5⟩ | ⟨rt', k, a', b', l, i0, i1, i2, i3, i4, i5, i6⟩
      · left
        rw [hr1, hr2] at i2
        refine ⟨rt', a', b', forceOf p :: l, by rw [hfr]; exact i1, by rw [hid1, i2]; rfl, ?_, ?_, ?_⟩
        · rw [i3, e5, List.length_cons, show n + 1 + fs.length = n + (fs.length + 1) by omega]
        · rw [i4, hr4]; simp
        · intro k hk
          rcases k with _ | k
          · exact hq
          · have := i5 k (by simpa using hk)
            rwa [show n + 1 + k = n + (k + 1) by omega] at this
      · right
        rw [hr1, hr2] at i4
        refine ⟨rt', k + 1, a', b', forceOf p :: l, by simp only [List.length_cons]; omega, ?_, ?_, by rw [hfr]; exact i3,
          by rw [List.take_succ_cons, hid1, i4]; rfl, ?_, ?_⟩
        · rwa [show n + 1 + k = n + (k + 1) by omega] at i1
        · intro j hj
          rcases j with _ | j
          · exact hq
          · have := i2 j (by omega)
            rwa [show n + 1 + j = n + (j + 1) by omega] at this
        · rw [i5, e5, show n + 1 + (k + 1) = n + (k + 1 + 1) by omega]
        · rw [i6, hr4]; simp

theorem sim_fresh_idle : Idle 6 fresh.mgr := by
  refine ⟨rfl, rfl, by decide, ?_, ?_⟩
  · intro c hc
    simp only [fresh, zeroLists, Manager.new, List.mem_replicate] at hc
    rw [hc.2]
  · intro c hc
    simp only [fresh, zeroLists, Manager.new, List.mem_replicate] at hc
    rw [hc.2]
    rfl

theorem sim_start : ∃ rt, startAll (app inp) fresh = (rt, none) ∧ rt.mgr = fresh.mgr ∧ rt.w.st = fresh.w.st := by
  obtain ⟨w', h1, h2⟩ := sim_lifeAll (inp := inp) (.inr (.inr rfl)) (List.range 6) fresh.w
  have h1' : lifeAll (app inp).env .start (List.range (app inp).tasks) fresh.w = (w', .next) := h1
  refine ⟨⟨w'.emit w'.st (.monStarted none), fresh.mgr⟩, ?_, rfl, h2⟩
  unfold startAll
  rw [h1']
  rfl

theorem simulate_ok (fs : List Frame) (ht : Timed fs) (hn : fs.length < 4294967295) :
    (∃ rt' a b l, simulate inp fs = .ok (rt', none) ∧ ideal (.new rodCfg) (.new railCfg) fs = .ok (a, b, l) ∧
      rt'.w.st.robot = { Robot.new with rodPid := a, railPid := b, lists := fs.length } ∧
      rt'.w.st.forces = l ∧ ∀ k < fs.length, inp.quit k = false) ∨
    ∃ rt' k a b l, k < fs.length ∧ inp.quit k = true ∧ (∀ j < k, inp.quit j = false) ∧
      simulate inp fs = .ok (rt', some "Exiting...") ∧
      ideal (.new rodCfg) (.new railCfg) (fs.take (k + 1)) = .ok (a, b, l) ∧
      rt'.w.st.robot = { Robot.new with rodPid := a, railPid := b, lists := k + 1 } ∧ rt'.w.st.forces = l := by
  obtain ⟨rt, h1, h2, h3⟩ := sim_start (inp := inp)
  have hs : simulate inp fs = frames inp fs rt := by unfold simulate; rw [h1]
  rw [hs]
  have := frames_ok (inp := inp) fs (rt := rt) (T := 0) (n := 0) (by rw [h3]; exact .new rod_sound)
    (by rw [h3]; exact .new rail_sound) (fun _ _ => Nat.zero_le _) ht (by rw [h2]; exact sim_fresh_idle)
    (by rw [h2]; rfl) (by omega) (by rw [h3]; rfl)
  rw [h3] at this
  simp only [Nat.zero_add] at this
  exact this

/-! ### The controllers -/

theorem control_cases {a b a' b' : PidFp.Task} {t : Nat} {rod rail : Int} {p : Option Num}
    (h : control a b t rod rail = .ok (a', b', p)) :
    ∃ rA rB, a.process (some (some t, ofInt f32 rod)) = .ok (a', rA) ∧
      b.process (some (some t, ofInt f32 rail)) = .ok (b', rB) ∧ p = command rA rB := by
  unfold control at h
  simp only [Rs.bind_eq_ok] at h
  obtain ⟨⟨tA, rA⟩, h1, ⟨tB, rB⟩, h2, h3⟩ := h
  refine ⟨rA, rB, ?_⟩
  simp only at h3 h1 h2
  cases rA <;> cases rB <;>
    (simp only [Rs.ok.injEq, Prod.mk.injEq] at h3; obtain ⟨rfl, rfl, rfl⟩ := h3; exact ⟨h1, h2, rfl⟩)

theorem command_cut {rA rB : PidFp.Res} (h : (∀ o, rA ≠ .produced o) ∨ (∀ o, rB ≠ .produced o)) :
    command rA rB = none := by
  rcases h with h | h
  · cases rA with
    | produced o => exact absurd rfl (h o)
    | cleared => cases rB <;> rfl
    | error => cases rB <;> rfl
  · cases rB with
    | produced o => exact absurd rfl (h o)
    | cleared => cases rA <;> rfl
    | error => cases rA <;> rfl

theorem control_cfg {a b a' b' : PidFp.Task} {t : Nat} {rod rail : Int} {p : Option Num}
    (h : control a b t rod rail = .ok (a', b', p)) : a'.cfg = a.cfg ∧ b'.cfg = b.cfg := by
  obtain ⟨rA, rB, h1, h2, -⟩ := control_cases h
  constructor
  · rcases PidFp.process_cases h1 with ⟨rfl, -⟩ | ⟨_, _, -, -, -, rfl⟩ | ⟨_, _, _, _, -, -, -, -, rfl, -⟩ <;> rfl
  · rcases PidFp.process_cases h2 with ⟨rfl, -⟩ | ⟨_, _, -, -, -, rfl⟩ | ⟨_, _, _, _, -, -, -, -, rfl, -⟩ <;> rfl

/-- The force of a frame. -/
theorem ideal_at {pre post : List Frame} {f : Frame} {a b a' b' : PidFp.Task} {l : List Num}
    (h : ideal a b (pre ++ f :: post) = .ok (a', b', l)) :
    ∃ a1 b1 l1 a2 b2 p, ideal a b pre = .ok (a1, b1, l1) ∧
      control a1 b1 f.time.ns.toNat (analog f.yaw).toNat (ticks f.x).toInt = .ok (a2, b2, p) ∧
      l[pre.length]? = some (forceOf p) := by
  induction pre generalizing a b l with
  | nil =>
    rw [List.nil_append, ideal] at h
    simp only [Rs.bind_eq_ok] at h
    obtain ⟨⟨a2, b2, p⟩, h1, ⟨a3, b3, l3⟩, h2, h3⟩ := h
    simp only [Rs.ok.injEq, Prod.mk.injEq] at h3
    obtain ⟨-, -, rfl⟩ := h3
    exact ⟨a, b, [], a2, b2, p, rfl, h1, rfl⟩
  | cons g pre ih =>
    rw [List.cons_append, ideal] at h
    simp only [Rs.bind_eq_ok] at h
    obtain ⟨⟨a2, b2, p⟩, h1, ⟨a3, b3, l3⟩, h2, h3⟩ := h
    simp only [Rs.ok.injEq, Prod.mk.injEq] at h3
    obtain ⟨rfl, rfl, rfl⟩ := h3
    obtain ⟨a4, b4, l4, a5, b5, q, i1, i2, i3⟩ := ih h2
    refine ⟨a4, b4, forceOf p :: l4, a5, b5, q, ?_, i2, by simpa using i3⟩
    rw [ideal, h1]
    simp only [Rs.ok_bind]
    rw [i1]
    rfl

theorem ideal_cfg {fs : List Frame} {a b a' b' : PidFp.Task} {l : List Num} (h : ideal a b fs = .ok (a', b', l)) :
    a'.cfg = a.cfg ∧ b'.cfg = b.cfg ∧ l.length = fs.length := by
  induction fs generalizing a b l with
  | nil =>
    simp only [ideal, Rs.ok.injEq, Prod.mk.injEq] at h
    obtain ⟨rfl, rfl, rfl⟩ := h
    exact ⟨rfl, rfl, rfl⟩
  | cons f fs ih =>
    rw [ideal] at h
    simp only [Rs.bind_eq_ok] at h
    obtain ⟨⟨a2, b2, p⟩, h1, ⟨a3, b3, l3⟩, h2, h3⟩ := h
    simp only [Rs.ok.injEq, Prod.mk.injEq] at h3
    obtain ⟨rfl, rfl, rfl⟩ := h3
    obtain ⟨i1, i2, i3⟩ := ih h2
    obtain ⟨c1, c2⟩ := control_cfg h1
    exact ⟨i1.trans c1, i2.trans c2, by simp [i3]⟩

theorem force_bound {rA rB : PidFp.Res} : ∃ q : ℚ, forceOf (command rA rB) = .fin q ∧ -2 ≤ q ∧ q ≤ 2 := by
  have zero : ∃ q : ℚ, Num.fin 0 = .fin q ∧ -2 ≤ q ∧ q ≤ 2 := ⟨0, rfl, by norm_num, by norm_num⟩
  cases rA with
  | cleared => cases rB <;> exact zero
  | error => cases rB <;> exact zero
  | produced x =>
    cases rB with
    | cleared => exact zero
    | error => exact zero
    | produced y =>
      obtain ⟨c, hc, h⟩ := power_ok x.output y.output
      simp only [command, hc]
      rcases h with rfl | ⟨q, rfl, -, q1, q2⟩
      · exact zero
      · have hb : |q * 2| ≤ 2 := by rw [abs_le]; constructor <;> linarith
        refine ⟨rnd f32 (q * 2), ReadingsFp.mul_fin (le_trans hb (by norm_num)), ?_, ?_⟩
        · exact le_rnd (F := f32) (by decide) (by simpa using rep_int (F := f32) (n := -2) (by decide) (by decide))
            (by linarith)
        · exact rnd_le (F := f32) (by decide) (by simpa using rep_int (F := f32) (n := 2) (by decide) (by decide))
            (by linarith)

/-- What the PID of the rod remembers of a frame. -/
structure RodAt (t : PidFp.Task) (time : Nat) (m : Num) : Prop where
  cfg : t.cfg = rodCfg
  run : t.firstRun = false
  last : t.lastTov = time
  elapsed : t.pid.elapsed = 0
  error : t.pid.lastError = rodCfg.setpoint.sub f32 m

theorem rod_after {t t' : PidFp.Task} {time : Nat} {m : Num} {r : PidFp.Res} (hc : t.cfg = rodCfg)
    (h : t.process (some (some time, m)) = .ok (t', r)) : RodAt t' time m := by
  unfold PidFp.Task.process at h
  simp only at h
  split at h
  · simp only [Rs.ok.injEq, Prod.mk.injEq] at h
    obtain ⟨rfl, -⟩ := h
    exact ⟨hc, rfl, rfl, by show t.cfg.sampling = 0; rw [hc]; rfl, by show t.cfg.setpoint.sub f32 m = _; rw [hc]⟩
  · rename_i hf
    split at h
    · cases h
    · simp only [Rs.bind_eq_ok] at h
      obtain ⟨⟨c, o⟩, h1, h2⟩ := h
      have h3 : t' = { t with lastTov := time, pid := c } := by
        simp only at h2
        split at h2
        · simp only [Rs.ok.injEq, Prod.mk.injEq] at h2; exact h2.1.symm
        · split at h2 <;> (simp only [Rs.ok.injEq, Prod.mk.injEq] at h2; exact h2.1.symm)
      unfold PidFp.Controller.next at h1
      simp only at h1
      split at h1
      · cases h1
      · split at h1
        · rename_i hlt
          rw [hc] at hlt
          exact absurd hlt (Nat.not_lt_zero _)
        · simp only [Rs.bind_eq_ok] at h1
          obtain ⟨_, -, _, -, _, -, _, -, h1⟩ := h1
          simp only [Rs.ok.injEq, Prod.mk.injEq] at h1
          obtain ⟨rfl, -⟩ := h1
          subst h3
          exact ⟨hc, by simpa using hf, rfl, rfl, by show t.cfg.setpoint.sub f32 m = _; rw [hc]⟩

theorem limit_nan {l : Num} {x : Num} (h : PidFp.limit .nan l = .ok x) : x = .nan := by
  unfold PidFp.limit Num.clamp at h
  have h1 : Num.nan.lt l.neg = false := rfl
  have h2 : l.lt .nan = false := by cases l <;> rfl
  rw [h1, h2] at h
  cases hle : l.neg.le l <;> rw [hle] at h <;> simp [Rs.ofOption] at h
  exact h.symm

theorem add_nan (x : Num) : x.add f32 .nan = .nan := by cases x <;> rfl
theorem mul_nan (x : Num) : x.mul f32 .nan = .nan := by cases x <;> rfl

/-- The same reading at the same time: the output is not a number. -/
theorem rod_again {t t' : PidFp.Task} {time : Nat} {m : Num} {r : PidFp.Res} (ht : RodAt t time m)
    (hm : ∃ q, rodCfg.setpoint.sub f32 m = .fin q) (h : t.process (some (some time, m)) = .ok (t', r)) :
    ∀ o, r = .produced o → o.output = .nan := by
  rcases PidFp.process_cases h with ⟨-, h1⟩ | ⟨_, _, -, -, rfl, -⟩ | ⟨tov, m', c, o, hx, -, -, hn, -, h1⟩
  · intro o ho; exact absurd ho (h1 o)
  · intro o ho; cases ho
  · cases hx
    rcases h1 with h1 | ⟨rfl, -⟩
    · intro o ho; exact absurd ho (h1 o)
    · rintro _ ⟨⟩
      obtain ⟨q, hq⟩ := hm
      rw [ht.cfg, ht.last, Nat.sub_self] at hn
      unfold PidFp.Controller.next at hn
      simp only [ht.elapsed, ht.error, hq] at hn
      rw [if_neg (by decide), if_neg (by decide)] at hn
      have e1 : (Num.fin q).sub f32 (.fin q) = .fin 0 := by
        show round f32 (q + -q) = _
        rw [add_neg_cancel]; rfl
      have e2 : (ofInt f32 ((0 + 0 : Nat) : Int)).div f32 (.fin 1000000) = .fin 0 := by decide +kernel
      rw [e1, e2] at hn
      have e3 : (Num.fin 0).div f32 (.fin 0) = .nan := by decide +kernel
      rw [e3, mul_nan] at hn
      simp only [Rs.bind_eq_ok] at hn
      obtain ⟨p, -, i, -, d, hd, out, hout, hn⟩ := hn
      have := limit_nan hd
      subst this
      rw [add_nan] at hout
      have := limit_nan hout
      subst this
      simp only [Rs.ok.injEq, Prod.mk.injEq] at hn
      rw [← hn.2]

/-! ### The readings -/

theorem rep_pi2 : Rep f32 (13176795 / 2097152 : ℚ) := ⟨13176795, -21, by decide +kernel, by decide, by decide⟩
theorem rep_lit {n : Int} (h : |n| ≤ 16777216) : Rep f32 (n : ℚ) := rep_int (F := f32) h (by decide)

theorem twoPi_eq : twoPi = .fin (13176795 / 2097152) := by decide +kernel

/-- From an angle within a turn to the count. -/
theorem count_ok {x : ℚ} (h0 : 0 ≤ x) (h1 : x ≤ 13176795 / 2097152) :
    ∃ v : ℚ, ((Num.fin x).div f32 twoPi).mul f32 (.fin 4096) = .fin v ∧ 0 ≤ v ∧ v ≤ 4096 ∧
      |v - x / (13176795 / 2097152) * 4096| ≤ 1 / 1000 := by
  have hF : 0 < f32.prec := by decide
  have tp := tiny_pos
  have ts := ReadingsFp.tiny_small
  have u : ulp = 1 / 16777216 := rfl
  have d0 : 0 ≤ x / (13176795 / 2097152) := by positivity
  have d1 : x / (13176795 / 2097152) ≤ 1 := by rw [div_le_one (by norm_num)]; exact h1
  have r0 : Rep f32 ((0 : Int) : ℚ) := rep_lit (by decide)
  have r1 : Rep f32 ((1 : Int) : ℚ) := rep_lit (by decide)
  have r4 : Rep f32 ((4096 : Int) : ℚ) := rep_lit (by decide)
  push_cast at r0 r1 r4
  have e1 : (Num.fin x).div f32 twoPi = .fin (rnd f32 (x / (13176795 / 2097152))) := by
    rw [twoPi_eq]
    exact ReadingsFp.div_fin (by norm_num) (by rw [abs_of_nonneg d0]; linarith)
  have q0 := le_rnd hF r0 d0
  have q1 := rnd_le hF r1 d1
  have q2 := rnd_rel (x / (13176795 / 2097152))
  rw [abs_of_nonneg d0] at q2
  generalize rnd f32 (x / (13176795 / 2097152)) = y at *
  generalize x / (13176795 / 2097152) = z at *
  have e2 : (Num.fin y).mul f32 (.fin 4096) = .fin (rnd f32 (y * 4096)) :=
    ReadingsFp.mul_fin (by rw [abs_of_nonneg (by linarith)]; linarith)
  have q3 := rnd_rel (y * 4096)
  rw [abs_of_nonneg (show 0 ≤ y * 4096 by linarith)] at q3
  refine ⟨rnd f32 (y * 4096), by rw [e1, e2], le_rnd hF r0 (by linarith), rnd_le hF r4 (by linarith), ?_⟩
  rw [u] at q2 q3
  rw [abs_le] at *
  have ts' : tiny ≤ 1 / 10000000000 := le_trans ts (by norm_num)
  constructor <;> nlinarith [q2.1, q2.2, q3.1, q3.2]

theorem asU16_near {v : ℚ} (h0 : 0 ≤ v) (h1 : v ≤ 4096) :
    ((asU16 (.fin v)).toNat : ℚ) ≤ v ∧ v < (asU16 (.fin v)).toNat + 1 := by
  have f0 : 0 ≤ v.floor := Rat.le_floor_iff.2 (by exact_mod_cast h0)
  have f1 : v.floor ≤ 4096 := by
    have : ((v.floor : Int) : ℚ) ≤ v := Rat.floor_le v
    have : ((v.floor : Int) : ℚ) ≤ ((4096 : Int) : ℚ) := by push_cast; linarith
    exact_mod_cast this
  have e : (asU16 (.fin v)).toNat = v.floor.toNat := by
    simp only [asU16, ReadingsFp.trunc, if_pos h0]
    rw [UInt16.toNat_ofNat', Nat.mod_eq_of_lt] <;> omega
  rw [e]
  have e2 : ((v.floor.toNat : ℕ) : ℚ) = ((v.floor : Int) : ℚ) := by
    exact_mod_cast congrArg (fun z : Int => (z : ℚ)) (Int.toNat_of_nonneg f0)
  rw [e2]
  have b := Rat.lt_floor_add_one v
  push_cast at b
  exact ⟨Rat.floor_le v, b⟩

theorem analog_near {y : ℚ} (h : |y| ≤ 13176795 / 4194304) :
    (analog (.fin y)).toNat ≤ 4096 ∧
    ∃ k : Int, |((analog (.fin y)).toNat : ℚ) - (y / (13176795 / 2097152) * 4096 - 1024 + 4096 * k)| ≤ 101 / 100 := by
  have hF : 0 < f32.prec := by decide
  have tp := tiny_pos
  have ts : tiny ≤ 1 / 10000000000 := le_trans ReadingsFp.tiny_small (by norm_num)
  have u : ulp = 1 / 16777216 := rfl
  obtain ⟨y1, y2⟩ := abs_le.1 h
  have r0 : Rep f32 ((0 : Int) : ℚ) := rep_lit (by decide)
  have r5 : Rep f32 ((-5 : Int) : ℚ) := rep_lit (by decide)
  have r2 : Rep f32 ((2 : Int) : ℚ) := rep_lit (by decide)
  push_cast at r0 r5 r2
  have ea : (Num.fin y).sub f32 halfPi = .fin (rnd f32 (y - 13176795 / 8388608)) := by
    show round f32 (y + -(13176795 / 8388608)) = _
    rw [← sub_eq_add_neg]
    refine ReadingsFp.round_large ?_
    rw [abs_le]; constructor <;> linarith
  have ha := rnd_rel (y - 13176795 / 8388608)
  have ha' : |y - 13176795 / 8388608| ≤ 5 := by rw [abs_le]; constructor <;> linarith
  have lo := le_rnd hF r5 (show -5 ≤ y - 13176795 / 8388608 by linarith)
  have hi := rnd_le hF r2 (show y - 13176795 / 8388608 ≤ 2 by linarith)
  have hae : |rnd f32 (y - 13176795 / 8388608) - (y - 13176795 / 8388608)| ≤ 1 / 1000000 := by
    refine le_trans ha ?_
    rw [u]
    linarith
  have fin : ∀ x : ℚ, 0 ≤ x → x ≤ 13176795 / 2097152 → ∀ k : Int,
      |x - (y - 13176795 / 8388608 + 13176795 / 2097152 * k)| ≤ 3 / 1000000 →
      (asU16 (((Num.fin x).div f32 twoPi).mul f32 (.fin 4096))).toNat ≤ 4096 ∧
      ∃ k : Int, |((asU16 (((Num.fin x).div f32 twoPi).mul f32 (.fin 4096))).toNat : ℚ) -
        (y / (13176795 / 2097152) * 4096 - 1024 + 4096 * k)| ≤ 101 / 100 := by
    intro x x0 x1 k hk
    obtain ⟨v, e, v0, v1, v2⟩ := count_ok x0 x1
    rw [e]
    obtain ⟨n1, n2⟩ := asU16_near v0 v1
    generalize (asU16 (.fin v)).toNat = n at *
    constructor
    · have : (n : ℚ) ≤ ((4096 : ℕ) : ℚ) := by push_cast; linarith
      exact_mod_cast this
    · refine ⟨k, ?_⟩
      rw [abs_le] at *
      constructor <;> linarith [v2.1, v2.2, hk.1, hk.2]
  unfold analog
  simp only [ea]
  generalize rnd f32 (y - 13176795 / 8388608) = a at *
  by_cases hn : a < 0
  · rw [if_pos (show (Num.fin a).lt (.fin 0) = true by simpa [Num.lt] using hn)]
    have eb : (Num.fin a).add f32 twoPi = .fin (rnd f32 (a + 13176795 / 2097152)) := by
      rw [twoPi_eq]
      refine ReadingsFp.round_large ?_
      rw [abs_le]; constructor <;> linarith
    rw [eb]
    have b0 := le_rnd hF r0 (show 0 ≤ a + 13176795 / 2097152 by linarith)
    have b1 := rnd_le hF rep_pi2 (show a + 13176795 / 2097152 ≤ 13176795 / 2097152 by linarith)
    have hb := rnd_rel (a + 13176795 / 2097152)
    refine fin _ b0 b1 1 ?_
    rw [abs_of_nonneg (show 0 ≤ a + 13176795 / 2097152 by linarith), u] at hb
    rw [abs_le] at *
    push_cast
    constructor <;> linarith [hb.1, hb.2, hae.1, hae.2]
  · rw [if_neg (by simpa [Num.lt] using hn)]
    refine fin a (by linarith) (by linarith) 0 ?_
    rw [abs_le] at *
    push_cast
    constructor <;> linarith [hae.1, hae.2]

theorem ticks_near {q : ℚ} (h : |q| ≤ 1000) : |((ticks (.fin q)).toInt : ℚ) - q * 2000| ≤ 6 / 5 := by
  have tp := tiny_pos
  have ts : tiny ≤ 1 / 10000000000 := le_trans ReadingsFp.tiny_small (by norm_num)
  have u : ulp = 1 / 16777216 := rfl
  obtain ⟨h1, h2⟩ := abs_le.1 h
  have hb : |q * 2000| ≤ 2000000 := by rw [abs_le]; constructor <;> linarith
  have e : (Num.fin q).mul f32 (.fin 2000) = .fin (rnd f32 (q * 2000)) :=
    ReadingsFp.mul_fin (le_trans hb (by norm_num))
  have hr := rnd_rel (q * 2000)
  have hr' : |rnd f32 (q * 2000) - q * 2000| ≤ 3 / 20 := by
    refine le_trans hr ?_
    rw [u]; linarith
  unfold ticks
  rw [e]
  generalize rnd f32 (q * 2000) = v at *
  have hv : |v| ≤ 2000001 := by
    rw [abs_le] at *
    constructor <;> linarith [hr'.1, hr'.2, hb.1, hb.2]
  have ht : |((ReadingsFp.trunc v : Int) : ℚ) - v| ≤ 1 := by
    unfold ReadingsFp.trunc
    split
    · have a := Rat.floor_le v
      have b := Rat.lt_floor_add_one v
      push_cast at b
      rw [abs_le]; constructor <;> linarith
    · have a := Rat.floor_le (-v)
      have b := Rat.lt_floor_add_one (-v)
      push_cast at b ⊢
      rw [abs_le]; constructor <;> linarith
  have htb : |ReadingsFp.trunc v| ≤ 2000002 := by
    have : |((ReadingsFp.trunc v : Int) : ℚ)| ≤ ((2000002 : Int) : ℚ) := by
      push_cast
      rw [abs_le] at *
      constructor <;> linarith [ht.1, ht.2, hv.1, hv.2]
    exact_mod_cast this
  obtain ⟨t1, t2⟩ := abs_le.1 htb
  have e3 : (asI32 (.fin v)).toInt = ReadingsFp.trunc v := by
    simp only [asI32]
    rw [Int.min_eq_right (by omega), Int.max_eq_right (by omega)]
    exact Int32.toInt_ofInt_of_le (by omega) (by omega)
  rw [e3]
  rw [abs_le] at *
  constructor <;> linarith [hr'.1, hr'.2, ht.1, ht.2]

theorem trunc_ge {v : ℚ} {n : Int} (hn : 0 ≤ n) (h : (n : ℚ) ≤ v) : n ≤ ReadingsFp.trunc v := by
  unfold ReadingsFp.trunc
  have h0 : (0 : ℚ) ≤ v := le_trans (by exact_mod_cast hn) h
  rw [if_pos h0]
  exact Rat.le_floor_iff.2 h

theorem trunc_le {v : ℚ} {n : Int} (hn : n < 0) (h : v ≤ (n : ℚ)) : ReadingsFp.trunc v ≤ n := by
  unfold ReadingsFp.trunc
  have h0 : ¬ (0 : ℚ) ≤ v := by
    have : (n : ℚ) < 0 := by exact_mod_cast hn
    linarith
  rw [if_neg h0]
  have : -n ≤ (-v).floor := Rat.le_floor_iff.2 (by push_cast; linarith)
  omega

theorem asI32_fin (v : ℚ) : (asI32 (.fin v)).toInt = max (-2147483648) (min 2147483647 (ReadingsFp.trunc v)) := by
  simp only [asI32]
  exact Int32.toInt_ofInt_of_le (by omega) (by omega)

/-- A cart far away, whatever the distance: the ticks saturate. -/
theorem ticks_far {q : ℚ} (h : 502 / 1000 ≤ |q|) :
    (ticks (.fin q)).toInt < -1000 ∨ 1000 < (ticks (.fin q)).toInt := by
  by_cases hs : |q| ≤ 1000
  · obtain ⟨t1, t2⟩ := abs_le.1 (ticks_near hs)
    rcases le_abs.1 h with x3 | x3
    · right
      have : (1000 : ℚ) < ((ticks (.fin q)).toInt : ℚ) := by linarith
      exact_mod_cast this
    · left
      have : ((ticks (.fin q)).toInt : ℚ) < (-1000 : ℚ) := by linarith
      exact_mod_cast this
  have hF : 0 < f32.prec := by decide
  have big : 1000 < |q| := not_le.1 hs
  have e : ticks (.fin q) = asI32 (round f32 (q * 2000)) := rfl
  rw [e, round_eq]
  rcases lt_abs.1 big with hq | hq
  · right
    have r : Rep f32 ((2000000 : Int) : ℚ) := rep_lit (by decide)
    push_cast at r
    have hv := le_rnd hF r (show (2000000 : ℚ) ≤ q * 2000 by linarith)
    generalize rnd f32 (q * 2000) = v at *
    split
    · simp [asI32]
    · split
      · rename_i h2
        have := pow2_pos f32.emax
        linarith
      · rw [asI32_fin]
        have := trunc_ge (n := 2000000) (by decide) (by push_cast; exact hv)
        omega
  · left
    have r : Rep f32 ((-2000000 : Int) : ℚ) := rep_lit (by decide)
    push_cast at r
    have hv := rnd_le hF r (show q * 2000 ≤ (-2000000 : ℚ) by linarith)
    generalize rnd f32 (q * 2000) = v at *
    split
    · rename_i h2
      have := pow2_pos f32.emax
      linarith
    · split
      · simp [asI32]
      · rw [asI32_fin]
        have := trunc_le (n := -2000000) (by decide) (by push_cast; exact hv)
        omega

theorem ticks_most {q : ℚ} (h : 2000000 ≤ q) : (ticks (.fin q)).toInt = 2147483647 := by
  have hF : 0 < f32.prec := by decide
  have e : ticks (.fin q) = asI32 (round f32 (q * 2000)) := rfl
  rw [e, round_eq]
  have r : Rep f32 ((4000000000 : Int) : ℚ) := ⟨7812500, 9, by norm_num [pow2], by decide, by decide⟩
  push_cast at r
  have hv := le_rnd hF r (show (4000000000 : ℚ) ≤ q * 2000 by linarith)
  generalize rnd f32 (q * 2000) = v at *
  split
  · simp [asI32]
  · split
    · rename_i h2
      have := pow2_pos f32.emax
      linarith
    · rw [asI32_fin]
      have := trunc_ge (n := 4000000000) (by decide) (by push_cast; exact hv)
      omega

theorem ticks_least {q : ℚ} (h : q ≤ -2000000) : (ticks (.fin q)).toInt = -2147483648 := by
  have hF : 0 < f32.prec := by decide
  have e : ticks (.fin q) = asI32 (round f32 (q * 2000)) := rfl
  rw [e, round_eq]
  have r : Rep f32 ((-4000000000 : Int) : ℚ) := ⟨-7812500, 9, by norm_num [pow2], by decide, by decide⟩
  push_cast at r
  have hv := rnd_le hF r (show q * 2000 ≤ (-4000000000 : ℚ) by linarith)
  generalize rnd f32 (q * 2000) = v at *
  split
  · rename_i h2
    have := pow2_pos f32.emax
    linarith
  · split
    · simp [asI32]
    · rw [asI32_fin]
      have := trunc_le (n := -4000000000) (by decide) (by push_cast; exact hv)
      omega

end BotSim
end Verif
