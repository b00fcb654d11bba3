import Verif.Spec.BalanceBot
import Verif.Proofs.RuntimePool
import Verif.Proofs.MotorFp
/-!
Lemmas on the balancing robot.
-/
namespace Verif
namespace Bot
open Clock CopperList Planner Verif.Runtime Fp

theorem plan_eq : plan =
    [⟨0, .source, [], some (0, "cu_ads7883_new::ADSReadingPayload")⟩,
     ⟨2, .regular, [(0, "cu_ads7883_new::ADSReadingPayload")], some (1, "cu_pid::PIDControlOutputPayload")⟩,
     ⟨1, .source, [], some (2, "cu_rp_encoder::EncoderPayload")⟩,
     ⟨3, .regular, [(2, "cu_rp_encoder::EncoderPayload")], some (3, "cu_pid::PIDControlOutputPayload")⟩,
     ⟨4, .regular, [(1, "cu_pid::PIDControlOutputPayload"), (3, "cu_pid::PIDControlOutputPayload")],
       some (4, "cu_rp_sn754410_new::MotorPayload")⟩,
     ⟨5, .sink, [(4, "cu_rp_sn754410_new::MotorPayload")], some (5, "()")⟩] := by
  decide +kernel

/-- The clock is read once more. -/
def tick (s : Robot) : Robot := { s with reads := s.reads + 1 }

variable {inp : Inputs}

/-- A step: the clock is read before and after it, an error clears the output, the next step follows. -/
theorem step_eq (step : Step) (ins : List (Msg Payload)) (out : Msg Payload) (w : World Robot Payload)
    {s : Robot} {o : Msg Payload} {e : Option Err}
    (h : callProcess (env inp) step ins (out.setStart (inp.clock w.st.reads)) (tick w.st) = (s, o, e)) :
    ∃ w' out', processStep (env inp) step ins out w = (w', out', .next) ∧ w'.st = tick s ∧
      out'.payload = (if e.isSome then none else o.payload) ∧ out'.md = (o.setStop (inp.clock s.reads)).md := by
  unfold processStep
  have hs : (env inp).sim = none := rfl
  rw [hs]
  simp only [execProcess]
  have h0 : (env inp).now w.st = (tick w.st, inp.clock w.st.reads) := rfl
  rw [h0]
  simp only [if_true, h]
  have h1 : (env inp).now s = (tick s, inp.clock s.reads) := rfl
  simp only [World.emit, h1]
  cases e with
  | none => exact ⟨_, _, rfl, rfl, by simp [Msg.setStop], rfl⟩
  | some e =>
    simp only [react]
    exact ⟨_, _, rfl, rfl, by simp [Msg.clearPayload], rfl⟩

/-! ### Times -/

theorem middle_ok {a b : CuTime} (h : b.ns.toNat ≤ a.ns.toNat) (ha : a.ns.toNat < 2 ^ 63) :
    ∃ t, middle a b = some t ∧ b.ns.toNat ≤ t.ns.toNat ∧ t.ns.toNat ≤ a.ns.toNat := by
  have h1 : u64Arith .checked ((a.ns.toNat : Int) + b.ns.toNat) = some (UInt64.ofNat (a.ns.toNat + b.ns.toNat)) := by
    unfold u64Arith
    rw [if_pos (by omega)]
    congr 2
  refine ⟨⟨UInt64.ofNat (a.ns.toNat + b.ns.toNat) / 2⟩, ?_, ?_, ?_⟩
  · simp [middle, CuDuration.add, h1, CuDuration.div]
  · simp only [UInt64.toNat_div, UInt64.toNat_ofNat']
    rw [Nat.mod_eq_of_lt (by omega)]
    show b.ns.toNat ≤ _ / 2
    omega
  · simp only [UInt64.toNat_div, UInt64.toNat_ofNat']
    rw [Nat.mod_eq_of_lt (by omega)]
    show _ / 2 ≤ a.ns.toNat
    omega

theorem read_gen (s : Robot) (out : Msg Payload) (v : UInt16) (t1 t2 : CuTime) :
    balposRead inp (some t1) (some t2) v out s =
      ({ s with integrated := (s.integrated + v.toNat) * 8 / 9, reads := s.reads + 1 },
      { out with
        payload := some (.rod (UInt16.ofNat ((s.integrated + v.toNat) * 8 / 9 / 8)))
        md := { out.md with
          tov := .time t2
          statusTxt := inp.text (.rod (UInt16.ofNat ((s.integrated + v.toNat) * 8 / 9 / 8))) } }, none) := rfl

theorem balpos_some (s : Robot) (out : Msg Payload) (v : UInt16) (hv : inp.adc s.samples = some v) :
    balpos inp out s = balposRead inp (middle (inp.clock (s.reads + 1)) (inp.clock s.reads))
      (middle (inp.clock (s.reads + 2)) (inp.clock s.reads)) v out
      { s with reads := s.reads + 2, samples := s.samples + 1 } := by
  unfold balpos
  rw [hv]

theorem balpos_none (s : Robot) (out : Msg Payload) (hv : inp.adc s.samples = none) :
    balpos inp out s = ({ s with reads := s.reads + 1, samples := s.samples + 1 }, out,
      some "Could not read the ADC value from the ADS7883") := by
  unfold balpos
  rw [hv]

/-- What the converter does: it fails, or it delivers the filtered value with a time of this iteration. -/
theorem balpos_eq (hc : Clocked inp) (s : Robot) (out : Msg Payload) :
    (inp.adc s.samples = none ∧ ∃ e, balpos inp out s =
      ({ s with reads := s.reads + 1, samples := s.samples + 1 }, out, some e)) ∨
    ∃ v t out', inp.adc s.samples = some v ∧
      balpos inp out s = (
        { s with
          reads := s.reads + 2 + 1, samples := s.samples + 1, integrated := (s.integrated + v.toNat) * 8 / 9 },
        out', none) ∧
      out'.payload = some (.rod (UInt16.ofNat ((s.integrated + v.toNat) * 8 / 9 / 8))) ∧ out'.md.tov = .time t ∧
      out'.md.processTime = out.md.processTime ∧ (inp.clock s.reads).ns.toNat ≤ t.ns.toNat ∧
      t.ns.toNat ≤ (inp.clock (s.reads + 2)).ns.toNat := by
  cases hv : inp.adc s.samples with
  | none =>
    exact .inl ⟨rfl, _, balpos_none s out hv⟩
  | some v =>
    right
    obtain ⟨t1, h1, -, -⟩ := middle_ok (a := inp.clock (s.reads + 1)) (b := inp.clock s.reads)
      (hc.mono _ _ (by omega)) (hc.bound _)
    obtain ⟨t2, h2, h3, h4⟩ := middle_ok (a := inp.clock (s.reads + 2)) (b := inp.clock s.reads)
      (hc.mono _ _ (by omega)) (hc.bound _)
    have hr := balpos_some s out v hv
    rw [h1, h2, read_gen] at hr
    exact ⟨v, t2, _, rfl, hr, rfl, rfl, rfl, h3, h4⟩

/-! ### The PIDs and the motor -/

/-- A PID task whose last measurement was not later than `T`. -/
structure PidOk (cfg : PidFp.Cfg) (t : PidFp.Task) (T : Nat) : Prop where
  cfg_eq : t.cfg = cfg
  within : PidFp.OutWithin cfg t.pid.lastOutput
  last : t.lastTov ≤ T
  elapsed : t.pid.elapsed ≤ cfg.sampling + t.lastTov

theorem PidOk.mono {cfg t T T'} (h : PidOk cfg t T) (hT : T ≤ T') : PidOk cfg t T' :=
  ⟨h.cfg_eq, h.within, h.last.trans hT, h.elapsed⟩

theorem PidOk.new {cfg} (hs : PidFp.Cfg.Sound cfg) : PidOk cfg (.new cfg) T :=
  ⟨rfl, (PidFp.reach_within hs (ok := fun _ => True) .new).2, Nat.zero_le _, Nat.zero_le _⟩

/-- The measurement is beyond the cutoff. -/
def Beyond (cfg : PidFp.Cfg) (m : Num) : Prop :=
  (cfg.setpoint.add f32 cfg.cutoff).lt m = true ∨ m.lt (cfg.setpoint.sub f32 cfg.cutoff) = true

theorem next_elapsed {cfg : PidFp.Cfg} {c c' : PidFp.Controller} {m dt o} (h : c.next cfg m dt = .ok (c', o)) :
    c'.elapsed ≤ c.elapsed + dt := by
  unfold PidFp.Controller.next at h
  simp only at h
  split at h
  · cases h
  · split at h
    · simp only [Rs.ok.injEq, Prod.mk.injEq] at h
      obtain ⟨rfl, -⟩ := h
      exact le_refl _
    · simp only [Rs.bind_eq_ok] at h
      obtain ⟨_, -, _, -, _, -, _, -, h⟩ := h
      simp only [Rs.ok.injEq, Prod.mk.injEq] at h
      obtain ⟨rfl, -⟩ := h
      exact Nat.zero_le _

theorem pid_ok {cfg : PidFp.Cfg} (hs : cfg.Sound) (hsam : cfg.sampling < 2 ^ 32) {t : PidFp.Task} {T tov : Nat}
    (h : PidOk cfg t T) (h1 : T ≤ tov) (h2 : tov < 2 ^ 63) (m : Num) :
    ∃ t' r, t.process (some (some tov, m)) = .ok (t', r) ∧ PidOk cfg t' tov ∧
      (∀ o, r = .produced o → PidFp.OutWithin cfg o) ∧
      (t.firstRun = true ∨ Beyond cfg m → ∀ o, r ≠ .produced o) := by
  have hl := h.last
  have he := h.elapsed
  have hcfg := h.cfg_eq
  subst hcfg
  cases hf : t.firstRun with
  | true =>
    refine ⟨{ t with firstRun := false, lastTov := tov, pid := t.pid.init t.cfg m }, .cleared,
      by simp only [PidFp.Task.process, hf, if_true], ⟨rfl, h.within, le_refl _, ?_⟩, ?_, ?_⟩
    · show t.cfg.sampling ≤ _
      omega
    · intro o ho; cases ho
    · intro _ o ho; cases ho
  | false =>
    obtain ⟨c, o, hn, hw, ho⟩ := PidFp.next_within hs h.within m (dt := tov - t.lastTov) (by omega)
    have hel := next_elapsed hn
    have ok : PidOk t.cfg { t with firstRun := false, lastTov := tov, pid := c } tov := ⟨rfl, hw, le_refl _, by show c.elapsed ≤ t.cfg.sampling + tov; omega⟩
    simp only [PidFp.Task.process, hf, Bool.false_eq_true, if_false, if_neg (show ¬ tov < t.lastTov by omega), hn, Rs.ok_bind, false_or]
    split
    · exact ⟨_, _, rfl, ok, fun o ho => (by cases ho), fun _ o ho => (by cases ho)⟩
    · split
      · exact ⟨_, _, rfl, ok, fun o ho => (by cases ho), fun _ o ho => (by cases ho)⟩
      · rename_i n1 n2
        refine ⟨_, _, rfl, ok, ?_, ?_⟩
        · intro o' ho'
          cases ho'
          exact ho
        · intro hb
          exact absurd hb (by rintro (hb | hb) <;> contradiction)

/-- The power the merger computes. -/
theorem power_ok (x y : Num) : ∃ c, (x.sub f32 y).clamp (.fin (-1)) (.fin 1) = some c ∧
    (c = .nan ∨ ∃ q, c = .fin q ∧ Rep f32 q ∧ -1 ≤ q ∧ q ≤ 1) := by
  have r1 : Rep f32 (1 : ℚ) := by simpa using MotorFp.rep_small (n := 1) (by decide)
  have r2 : Rep f32 (-1 : ℚ) := by simpa using MotorFp.rep_small (n := -1) (by decide)
  have hle : (Num.fin (-1)).le (.fin 1) = true := by decide +kernel
  have key : ∀ z : Num, (∀ q, z = .fin q → Rep f32 q) → ∃ c, z.clamp (.fin (-1)) (.fin 1) = some c ∧
      (c = .nan ∨ ∃ q, c = .fin q ∧ Rep f32 q ∧ -1 ≤ q ∧ q ≤ 1) := by
    intro z hz
    unfold Num.clamp
    rw [hle]
    simp only [Bool.not_true, Bool.false_eq_true, if_false]
    split
    · exact ⟨_, rfl, .inr ⟨_, rfl, r2, by norm_num, by norm_num⟩⟩
    · split
      · exact ⟨_, rfl, .inr ⟨_, rfl, r1, by norm_num, by norm_num⟩⟩
      · rename_i n1 n2
        refine ⟨_, rfl, ?_⟩
        cases z with
        | nan => exact .inl rfl
        | inf b => cases b <;> simp [Num.lt] at n1 n2
        | fin q =>
          simp only [Num.lt, decide_eq_true_eq, not_lt] at n1 n2
          exact .inr ⟨q, rfl, hz q rfl, n1, n2⟩
  refine key _ ?_
  intro q hq
  have hr : ∀ r : ℚ, round f32 r = .fin q → Rep f32 q := by
    intro r h
    rw [round_eq] at h
    split at h
    · cases h
    · split at h
      · cases h
      · rw [← Num.fin.inj h]; exact rnd_rep _ _
  cases x <;> cases y <;> simp only [Num.sub, Num.neg, Num.add] at hq
  all_goals first
    | exact hr _ hq
    | (exfalso; revert hq; first | (intro hq; cases hq; done) | (split <;> intro hq <;> cases hq))

/-- The dead zone of the configuration, in single precision. -/
def dz : ℚ := 5033165 / 16777216

theorem lit_dz : lit (3 / 10) = .fin dz := by decide +kernel

theorem dz_rep : Rep f32 dz := ⟨10066330, -25, by decide +kernel, by decide, by decide⟩

/-- What the motor is driven with. -/
structure MotorOk (d : MotorFp.Driver) : Prop where
  zone : d.deadzone = .fin dz
  wet : d.dryrun = false
  duty : (∃ q : ℚ, d.duty0 = .fin q ∧ 0 ≤ q ∧ q ≤ 1 ∧ d.duty1 = .fin 0) ∨
    ∃ q : ℚ, d.duty1 = .fin q ∧ 0 ≤ q ∧ q ≤ 161 / 100 ∧ d.duty0 = .fin 0

theorem motor_none {d : MotorFp.Driver} (h : MotorOk d) : MotorOk (d.process none).1 ∧ Stopped (d.process none).1 :=
  ⟨⟨h.zone, h.wet, .inl ⟨0, rfl, le_refl _, by norm_num, rfl⟩⟩, rfl, rfl⟩

theorem motor_some {d : MotorFp.Driver} (h : MotorOk d) {c : Num}
    (hc : c = .nan ∨ ∃ q, c = .fin q ∧ Rep f32 q ∧ -1 ≤ q ∧ q ≤ 1) : MotorOk (d.process (some c)).1 := by
  have z0 : (0 : ℚ) ≤ dz := by decide +kernel
  have z1 : dz < 1 := by decide +kernel
  -- the power after compensation
  have hp : MotorFp.compensate d.deadzone c = .nan ∨ ∃ q, MotorFp.compensate d.deadzone c = .fin q ∧ Rep f32 q ∧
      -(161 / 100) ≤ q ∧ q ≤ 1 := by
    rw [h.zone]
    rcases hc with rfl | ⟨q, rfl, hr, h1, h2⟩
    · exact .inl (MotorFp.comp_nan _)
    · right
      rcases lt_trichotomy q 0 with hq | rfl | hq
      · obtain ⟨e1, -, -⟩ := MotorFp.comp_neg z0 z1 hr hq h1
        have e2 := MotorFp.comp_near (s := 1 + dz) (z := -dz) (p := q) (by rw [abs_of_nonneg (by linarith)]; linarith)
          (by rw [abs_neg, abs_of_nonneg z0]; linarith) (by rw [abs_le]; exact ⟨h1, h2⟩)
        have e3 : dz ≤ 301 / 1000 := by decide +kernel
        obtain ⟨e4, e5⟩ := abs_le.1 e2
        have e6 : -(1 + dz) ≤ (1 + dz) * q := by nlinarith
        refine ⟨_, e1, rnd_rep _ _, by linarith, ?_⟩
        have : (1 + dz) * q ≤ 0 := by nlinarith
        linarith
      · exact ⟨0, MotorFp.comp_zero _, rep_zero _, by norm_num, by norm_num⟩
      · obtain ⟨e1, e2, e3⟩ := MotorFp.comp_pos dz_rep z0 z1 hr hq h2
        exact ⟨_, e1, rnd_rep _ _, by linarith, e3⟩
  have hz := h.zone
  have hw := h.wet
  obtain ⟨cur, zone, dry, a, b, en⟩ := d
  subst hz hw
  simp only [MotorFp.Driver.process, Bool.false_eq_true, if_false] at hp ⊢
  generalize MotorFp.compensate _ c = p at hp ⊢
  split
  · rcases hp with rfl | ⟨q, rfl, hr, h1, h2⟩
    · simp only [Num.lt, Bool.false_eq_true, if_false]
      exact ⟨rfl, rfl, .inl ⟨0, rfl, le_refl _, by norm_num, rfl⟩⟩
    · split
      · rename_i hlt
        simp only [Num.lt, decide_eq_true_eq] at hlt
        refine ⟨rfl, rfl, .inl ⟨q, MotorFp.convert64 hr ?_, hlt.le, h2, rfl⟩⟩
        rw [abs_of_pos hlt]; linarith
      · split
        · rename_i hlt
          simp only [Num.lt, decide_eq_true_eq] at hlt
          have hr' : Rep f32 (-q) := by
            obtain ⟨m, e, rfl, hm, he⟩ := hr
            exact ⟨-m, e, by push_cast; ring, by simpa using hm, he⟩
          refine ⟨rfl, rfl, .inr ⟨-q, MotorFp.convert64 hr' ?_, by linarith, by linarith, rfl⟩⟩
          rw [abs_of_pos (by linarith)]; linarith
        · exact ⟨rfl, rfl, .inl ⟨0, rfl, le_refl _, by norm_num, rfl⟩⟩
  · exact h

theorem rod_sound : rodCfg.Sound := ⟨by decide +kernel, by decide +kernel, by decide +kernel, by decide +kernel⟩
theorem rail_sound : railCfg.Sound := ⟨by decide +kernel, by decide +kernel, by decide +kernel, by decide +kernel⟩

/-! ### An iteration -/

theorem plan_cons {env : Env Robot Payload} {step : Step} {steps : List Step} {w w' : World Robot Payload}
    {msgs ins : List (Msg Payload)} {o : Nat} {ty : String} {out out' : Msg Payload} (h1 : step.output = some (o, ty))
    (h2 : mapRs (fun i => Rs.ofOption msgs[i.1]?) step.inputs = .ok ins) (h3 : msgs[o]? = some out)
    (h4 : processStep env step ins out w = (w', out', .next)) :
    planLoop env (step :: steps) w msgs = planLoop env steps w' (msgs.set o out') := by
  rw [planLoop, h1]
  simp only [h2, h3, h4]

/-- What is left in the message of a PID task. -/
def left : PidFp.Res → Option Payload
  | .produced o => some (.control o)
  | _ => none

theorem pidOutput_left (out : Msg Payload) (r : PidFp.Res) :
    (if (pidOutput inp out r).2.isSome then none else (pidOutput inp out r).1.payload) = left r := by
  cases r <;> rfl

/-- The invariant. -/
structure Good (inp : Inputs) (s : Robot) : Prop where
  fine : s.panicked = []
  rod : PidOk rodCfg s.rodPid (inp.clock s.reads).ns.toNat
  rail : PidOk railCfg s.railPid (inp.clock s.reads).ns.toNat
  filter : s.integrated ≤ 524280
  motor : MotorOk s.motor

/-- The first part of an iteration: the rod. -/
theorem rod_run (hc : Clocked inp) {w : World Robot Payload} (hg : Good inp w.st) (m0 m1 m2 m3 m4 m5 : Msg Payload)
    (steps : List Step) :
    ∃ (w' : World Robot Payload) (a b : Msg Payload) (rod : Option (Nat × Nat)) (t : PidFp.Task) (r : PidFp.Res) (n : Nat),
      planLoop (env inp)
        (⟨0, .source, [], some (0, "cu_ads7883_new::ADSReadingPayload")⟩ ::
         ⟨2, .regular, [(0, "cu_ads7883_new::ADSReadingPayload")], some (1, "cu_pid::PIDControlOutputPayload")⟩ :: steps)
        w [m0, m1, m2, m3, m4, m5] = planLoop (env inp) steps w' [a, b, m2, m3, m4, m5] ∧
      w.st.reads < n ∧
      w'.st = { w.st with
        reads := n, samples := w.st.samples + 1, rodPid := t
        integrated := match inp.adc w.st.samples with
          | some v => (w.st.integrated + v.toNat) * 8 / 9
          | none => w.st.integrated } ∧
      w.st.rodPid.process (rod.map (fun x => (some x.1, ofInt f32 x.2))) = .ok (t, r) ∧
      rod.map (·.2) = (inp.adc w.st.samples).map (fun v => (w.st.integrated + v.toNat) * 8 / 9 / 8) ∧
      (∀ x, rod = some x → (inp.clock w.st.reads).ns.toNat ≤ x.1 ∧ x.1 ≤ (inp.clock n).ns.toNat) ∧
      PidOk rodCfg t (inp.clock n).ns.toNat ∧
      (match inp.adc w.st.samples with
        | some v => (w.st.integrated + v.toNat) * 8 / 9
        | none => w.st.integrated) ≤ 524280 ∧
      b.payload = left r ∧ a.md.processTime.start = .ofTime (inp.clock w.st.reads) := by
  have hv16 : ∀ v : UInt16, v.toNat < 65536 := fun v => v.toNat_lt
  rcases balpos_eq hc (tick w.st) (m0.setStart (inp.clock w.st.reads)) with ⟨h1, e, h2⟩ | ⟨v, t0, o0, h1, h2, h3, h4, h5, h6, h7⟩
  · obtain ⟨w1, a, p1, p2, p3, p4⟩ := step_eq (inp := inp)
      ⟨0, .source, [], some (0, "cu_ads7883_new::ADSReadingPayload")⟩ [] m0 w h2
    have hin : pidInput a = none := by simp [pidInput, p3]
    have hp : balposPid inp a (m1.setStart (inp.clock w1.st.reads)) (tick w1.st) =
        ({ tick w1.st with rodPid := w1.st.rodPid }, pidOutput inp (m1.setStart (inp.clock w1.st.reads)) .cleared) := by
      simp only [balposPid, hin, PidFp.Task.process]; rfl
    obtain ⟨w2, b, q1, q2, q3, q4⟩ := step_eq (inp := inp)
      ⟨2, .regular, [(0, "cu_ads7883_new::ADSReadingPayload")], some (1, "cu_pid::PIDControlOutputPayload")⟩ [a] m1 w1 hp
    have hsam : inp.adc w.st.samples = none := h1
    refine ⟨w2, a, b, none, w.st.rodPid, .cleared, w.st.reads + 5, ?_, by omega, ?_, rfl, by rw [hsam]; rfl,
      (by intro x hx; cases hx), ?_, by rw [hsam]; exact hg.filter, ?_, by rw [p4]; rfl⟩
    · rw [plan_cons rfl rfl rfl p1, plan_cons rfl rfl rfl q1]; rfl
    · rw [q2, hsam]
      simp only [p2, tick]
    · exact hg.rod.mono (hc.mono _ _ (by omega))
    · rw [q3]; rfl
  · obtain ⟨w1, a, p1, p2, p3, p4⟩ := step_eq (inp := inp)
      ⟨0, .source, [], some (0, "cu_ads7883_new::ADSReadingPayload")⟩ [] m0 w h2
    have hsam : inp.adc w.st.samples = some v := h1
    have hfil := hg.filter
    have hv := hv16 v
    have e1 : (tick w.st).integrated = w.st.integrated := rfl
    rw [e1] at h2 h3
    generalize hi : (w.st.integrated + v.toNat) * 8 / 9 = i at h2 h3
    have hib : i ≤ 524280 := by omega
    have hr : (UInt16.ofNat (i / 8)).toNat = i / 8 := by
      rw [UInt16.toNat_ofNat']
      exact Nat.mod_eq_of_lt (by omega)
    have hin : pidInput a = some (some t0.ns.toNat, ofInt f32 ((i / 8 : Nat) : Int)) := by
      have ht : a.md.tov = .time t0 := by rw [p4]; exact h4
      simp only [pidInput, p3, h3, Option.isSome_none, Bool.false_eq_true, if_false, Option.map_some, ht, measure, hr]
    obtain ⟨t, r, k1, k2, -, -⟩ := pid_ok rod_sound (by decide) hg.rod (tov := t0.ns.toNat)
      (le_trans (hc.mono _ _ (by simp [tick])) h6) (lt_of_le_of_lt h7 (hc.bound _)) (ofInt f32 ((i / 8 : Nat) : Int))
    have hrod : w1.st.rodPid = w.st.rodPid := by rw [p2]; rfl
    have hp : balposPid inp a (m1.setStart (inp.clock w1.st.reads)) (tick w1.st) =
        ({ tick w1.st with rodPid := t }, pidOutput inp (m1.setStart (inp.clock w1.st.reads)) r) := by
      have : (tick w1.st).rodPid = w.st.rodPid := hrod
      simp only [balposPid, hin, this, k1]
    obtain ⟨w2, b, q1, q2, q3, q4⟩ := step_eq (inp := inp)
      ⟨2, .regular, [(0, "cu_ads7883_new::ADSReadingPayload")], some (1, "cu_pid::PIDControlOutputPayload")⟩ [a] m1 w1 hp
    refine ⟨w2, a, b, some (t0.ns.toNat, i / 8), t, r, w.st.reads + 7, ?_, by omega, ?_, k1, by rw [hsam]; simp [hi],
      ?_, ?_, by rw [hsam]; simp only [hi]; exact hib, ?_, ?_⟩
    · rw [plan_cons rfl rfl rfl p1, plan_cons rfl rfl rfl q1]; rfl
    · rw [q2, hsam]
      simp only [p2, tick, hi]
    · rintro x hx
      cases hx
      exact ⟨le_trans (hc.mono _ _ (by simp [tick])) h6, le_trans h7 (hc.mono _ _ (by simp [tick]))⟩
    · exact k2.mono (le_trans h7 (hc.mono _ _ (by simp [tick])))
    · rw [q3]; exact pidOutput_left _ _
    · rw [p4]
      show o0.md.processTime.start = _
      rw [h5]; rfl

/-- The second part of an iteration: the rail. -/
theorem rail_run (hc : Clocked inp) {w : World Robot Payload}
    (hg : PidOk railCfg w.st.railPid (inp.clock w.st.reads).ns.toNat) (m0 m1 m2 m3 m4 m5 : Msg Payload)
    (steps : List Step) :
    ∃ (w' : World Robot Payload) (a b : Msg Payload) (t : PidFp.Task) (r : PidFp.Res),
      planLoop (env inp)
        (⟨1, .source, [], some (2, "cu_rp_encoder::EncoderPayload")⟩ ::
         ⟨3, .regular, [(2, "cu_rp_encoder::EncoderPayload")], some (3, "cu_pid::PIDControlOutputPayload")⟩ :: steps)
        w [m0, m1, m2, m3, m4, m5] = planLoop (env inp) steps w' [m0, m1, a, b, m4, m5] ∧
      w'.st = { w.st with reads := w.st.reads + 5, rails := w.st.rails + 1, railPid := t } ∧
      w.st.railPid.process (some (some (inp.clock (w.st.reads + 1)).ns.toNat,
        ofInt f32 (inp.rail w.st.rails).toInt)) = .ok (t, r) ∧
      PidOk railCfg t (inp.clock (w.st.reads + 5)).ns.toNat ∧ b.payload = left r := by
  have h2 : railpos inp (m2.setStart (inp.clock w.st.reads)) (tick w.st) = (_, _, none) := rfl
  obtain ⟨w1, a, p1, p2, p3, p4⟩ := step_eq (inp := inp)
    ⟨1, .source, [], some (2, "cu_rp_encoder::EncoderPayload")⟩ [] m2 w h2
  have hin : pidInput a = some (some (inp.clock (w.st.reads + 1)).ns.toNat,
      ofInt f32 (inp.rail w.st.rails).toInt) := by
    simp only [pidInput, p3, p4]; rfl
  obtain ⟨t, r, k1, k2, -, -⟩ := pid_ok rail_sound (by decide) hg (tov := (inp.clock (w.st.reads + 1)).ns.toNat)
    (hc.mono _ _ (by omega)) (hc.bound _) (ofInt f32 (inp.rail w.st.rails).toInt)
  have hp : railposPid inp a (m3.setStart (inp.clock w1.st.reads)) (tick w1.st) =
      ({ tick w1.st with railPid := t }, pidOutput inp (m3.setStart (inp.clock w1.st.reads)) r) := by
    have : (tick w1.st).railPid = w.st.railPid := by rw [p2]; rfl
    simp only [railposPid, hin, this, k1]
  obtain ⟨w2, b, q1, q2, q3, q4⟩ := step_eq (inp := inp)
    ⟨3, .regular, [(2, "cu_rp_encoder::EncoderPayload")], some (3, "cu_pid::PIDControlOutputPayload")⟩ [a] m3 w1 hp
  refine ⟨w2, a, b, t, r, ?_, ?_, k1, k2.mono (hc.mono _ _ (by omega)), ?_⟩
  · rw [plan_cons rfl rfl rfl p1, plan_cons rfl rfl rfl q1]; rfl
  · rw [q2]
    simp only [p2, tick]
  · rw [q3]; exact pidOutput_left _ _

/-- The command for the motor. -/
def command : PidFp.Res → PidFp.Res → Option Num
  | .produced a, .produced b => (a.output.sub f32 b.output).clamp (.fin (-1)) (.fin 1)
  | _, _ => none

/-- The last part of an iteration: the motor. -/
theorem motor_run {w : World Robot Payload} (m0 m1 m2 m3 m4 m5 : Msg Payload) {ra rb : PidFp.Res}
    (h1 : m1.payload = left ra) (h3 : m3.payload = left rb) :
    ∃ (w' : World Robot Payload) (a b : Msg Payload),
      planLoop (env inp)
        [⟨4, .regular, [(1, "cu_pid::PIDControlOutputPayload"), (3, "cu_pid::PIDControlOutputPayload")],
           some (4, "cu_rp_sn754410_new::MotorPayload")⟩,
         ⟨5, .sink, [(4, "cu_rp_sn754410_new::MotorPayload")], some (5, "()")⟩]
        w [m0, m1, m2, m3, m4, m5] = .ok (w', [m0, m1, m2, m3, a, b], .next) ∧
      w'.st = { w.st with reads := w.st.reads + 4, motor := (w.st.motor.process (command ra rb)).1 } ∧
      b.md.processTime.stop = .ofTime (inp.clock (w.st.reads + 3)) := by
  have hm : ∃ o e, mergePids inp m1 m3 (m4.setStart (inp.clock w.st.reads)) (tick w.st) = (tick w.st, o, e) ∧
      (if e.isSome then none else o.payload) = (command ra rb).map .motor := by
    cases ra with
    | produced x =>
      cases rb with
      | produced y =>
        obtain ⟨c, hc, -⟩ := power_ok x.output y.output
        refine ⟨({ m4.setStart (inp.clock w.st.reads) with
          md := { (m4.setStart (inp.clock w.st.reads)).md with tov := m1.md.tov, statusTxt := inp.text (.motor c) }
          payload := some (.motor c) } : Msg Payload), none, ?_, ?_⟩
        · simp only [mergePids, h1, h3, left, hc]; rfl
        · simp only [command, hc]; rfl
      | cleared => exact ⟨_, _, by simp only [mergePids, h1, h3, left]; rfl, rfl⟩
      | error => exact ⟨_, _, by simp only [mergePids, h1, h3, left]; rfl, rfl⟩
    | cleared => exact ⟨_, _, by simp only [mergePids, h1, left]; rfl, by cases rb <;> rfl⟩
    | error => exact ⟨_, _, by simp only [mergePids, h1, left]; rfl, by cases rb <;> rfl⟩
  obtain ⟨o, e, hm, hpay⟩ := hm
  obtain ⟨w1, a, p1, p2, p3, p4⟩ := step_eq (inp := inp)
    ⟨4, .regular, [(1, "cu_pid::PIDControlOutputPayload"), (3, "cu_pid::PIDControlOutputPayload")],
      some (4, "cu_rp_sn754410_new::MotorPayload")⟩ [m1, m3] m4 w hm
  rw [hpay] at p3
  have hd : motor a (tick w1.st) = ({ tick w1.st with motor := (w1.st.motor.process (command ra rb)).1 },
      if (w1.st.motor.process (command ra rb)).2 then none else some "Safety Mode.") := by
    unfold motor
    rw [p3]
    cases command ra rb <;> rfl
  have hq : callProcess (env inp) ⟨5, .sink, [(4, "cu_rp_sn754410_new::MotorPayload")], some (5, "()")⟩ [a]
      (m5.setStart (inp.clock w1.st.reads)) (tick w1.st) = ((motor a (tick w1.st)).1, m5.setStart (inp.clock w1.st.reads),
        (motor a (tick w1.st)).2) := rfl
  rw [hd] at hq
  obtain ⟨w2, b, q1, q2, q3, q4⟩ := step_eq (inp := inp) _ [a] m5 w1 hq
  refine ⟨w2, a, b, ?_, ?_, ?_⟩
  · rw [plan_cons rfl rfl rfl p1, plan_cons rfl rfl rfl q1]; rfl
  · rw [q2]
    simp only [p2, tick]
  · rw [q4]
    simp only [p2, tick, Msg.setStop]

/-! ### The whole iteration -/

theorem sub_ok {a b : CuTime} (h : b.ns.toNat ≤ a.ns.toNat) : ∃ d, a.sub .checked b = some d := by
  have hl : a.ns.toNat < 2 ^ 64 := a.ns.toNat_lt
  have h1 : u64Arith .checked ((a.ns.toNat : Int) - b.ns.toNat) = some (UInt64.ofNat (a.ns.toNat - b.ns.toNat)) := by
    unfold u64Arith
    rw [if_pos (by omega)]
    congr 2
    omega
  exact ⟨⟨UInt64.ofNat (a.ns.toNat - b.ns.toNat)⟩, by simp [CuDuration.sub, h1]⟩

theorem unwrap_ok {t : CuTime} (h : t.ns.toNat < 2 ^ 63) : (OptionCuTime.ofTime t).unwrap = some t := by
  have : (t.ns == NONE_VALUE) = false := by
    rw [beq_eq_false_iff_ne]
    intro e
    rw [e] at h
    revert h
    decide
  simp [OptionCuTime.ofTime, OptionCuTime.ofOption, OptionCuTime.unwrap, OptionCuTime.isNone, this]

theorem endToEnd_ok {md : List MsgMeta} {l f : MsgMeta} {a b : CuTime} (hl : md.getLast? = some l)
    (hf : md.head? = some f) (h1 : l.processTime.stop = .ofTime a) (h2 : f.processTime.start = .ofTime b)
    (h : b.ns.toNat ≤ a.ns.toNat) (ha : a.ns.toNat < 2 ^ 63) : ∃ d, endToEnd .checked md = .ok d := by
  obtain ⟨d, hd⟩ := sub_ok h
  refine ⟨d, ?_⟩
  unfold endToEnd
  rw [hl, hf]
  simp only [h1, h2, unwrap_ok ha, unwrap_ok (lt_of_le_of_lt h ha), hd]
  rfl

theorem lifeAll_quiet {ph : Phase} (hph : ph = .preprocess ∨ ph = .postprocess) (ts : List Nat) (w : World Robot Payload) :
    ∃ w', lifeAll (env inp) ph ts w = (w', .next) ∧ w'.st = w.st := by
  have hl : ∀ tid s, life inp ph tid s = (s, none) := by
    intro tid s
    rcases hph with rfl | rfl <;> unfold life <;> split <;> simp_all
  induction ts generalizing w with
  | nil => exact ⟨w, rfl, rfl⟩
  | cons t ts ih =>
    have h1 : lifeStep (env inp) ph t w = (w.emit w.st (.called ph t [] none), .next) := by
      have : (env inp).life ph t w.st = (w.st, none) := hl t w.st
      show lifeCall (env inp) ph t w = _
      simp only [lifeCall, this]
    obtain ⟨w', h2, h3⟩ := ih (w.emit w.st (.called ph t [] none))
    exact ⟨w', by rw [lifeAll, h1]; exact h2, h3⟩

/-- The end of a list, the log accepting everything. -/
theorem end_ok {id : UInt32} {msgs : List (Msg Payload)} {m : Manager (List (Msg Payload))} (h : Busy 6 id msgs m)
    (w : World Robot Payload) :
    ∃ w' m', endOfProcessing (tracedLog (env inp).log) w m id = .ok (w', m') ∧ w'.st = w.st ∧ Idle 6 m' ∧
      m'.currentClId = m.currentClId := by
  have hacc : LogAccepts (env inp).log := by
    intro f hf s cl
    cases hf
    exact ⟨s, rfl⟩
  have hact : m.LiveActive := by
    intro c hc; rw [h.live] at hc; simp only [List.mem_singleton] at hc; subst hc; exact .inl rfl
  rcases busy_finish h (env inp).log w with ⟨-, h2⟩ | ⟨w', m', h1, h2, -, h4, -⟩
  · exact absurd hacc h2
  · refine ⟨w', m', h1, ?_, h2, h4⟩
    have hmk : (m.live.map (mark id)) = [⟨id, .doneProcessing, msgs⟩] := by
      rw [h.live]; simp [mark]
    rcases endOfProcessing_eq (tracedLog (env inp).log) w h.inv h.dead hact id with ⟨-, e⟩ | ⟨s', m2, e1, e2, -⟩
    · rw [h1] at e; cases e
    · rw [h1] at e2
      simp only [Rs.ok.injEq, Prod.mk.injEq] at e2
      obtain ⟨rfl, -⟩ := e2
      rw [hmk] at e1
      have : (List.takeWhile isDone [(⟨id, .doneProcessing, msgs⟩ : CL (List (Msg Payload)))]) =
        [⟨id, .doneProcessing, msgs⟩] := rfl
      rw [this] at e1
      simp only [logAll, tracedLog, env, Option.map_some, Rs.ok.injEq] at e1
      rw [← e1]
      rfl

theorem six {α : Type} {l : List α} (h : l.length = 6) : ∃ x0 x1 x2 x3 x4 x5, l = [x0, x1, x2, x3, x4, x5] := by
  rcases l with _ | ⟨x0, _ | ⟨x1, _ | ⟨x2, _ | ⟨x3, _ | ⟨x4, _ | ⟨x5, _ | ⟨x6, l⟩⟩⟩⟩⟩⟩⟩ <;> simp at h
  exact ⟨x0, x1, x2, x3, x4, x5, rfl⟩

theorem iteration_ok (hc : Clocked inp) {rt : Rt Robot Payload} (hg : Good inp rt.w.st) (hi : Idle 6 rt.mgr)
    (hid : rt.mgr.currentClId ≠ 0xFFFFFFFF) :
    ∃ (rt' : Rt Robot Payload) (rod : Option (Nat × Nat)) (tr : Nat),
      runOneIteration (app inp) rt =
        .ok (rt', if inp.quit rt.w.st.lists then some "Exiting..." else none) ∧
      Good inp rt'.w.st ∧ rt.w.st.reads < rt'.w.st.reads ∧ rt'.w.st.samples = rt.w.st.samples + 1 ∧
      rt'.w.st.rails = rt.w.st.rails + 1 ∧ rt'.w.st.lists = rt.w.st.lists + 1 ∧
      rt'.w.st.motor.enabled = rt.w.st.motor.enabled ∧
      rt'.w.st.integrated = (match inp.adc rt.w.st.samples with
        | some v => (rt.w.st.integrated + v.toNat) * 8 / 9
        | none => rt.w.st.integrated) ∧
      (inp.quit rt.w.st.lists = false → Idle 6 rt'.mgr ∧ rt'.mgr.currentClId = rt.mgr.currentClId + 1) ∧
      rod.map (·.2) = (inp.adc rt.w.st.samples).map (fun v => (rt.w.st.integrated + v.toNat) * 8 / 9 / 8) ∧
      (∀ x, rod = some x →
        (inp.clock rt.w.st.reads).ns.toNat ≤ x.1 ∧ x.1 ≤ (inp.clock rt'.w.st.reads).ns.toNat) ∧
      (inp.clock rt.w.st.reads).ns.toNat ≤ tr ∧ tr ≤ (inp.clock rt'.w.st.reads).ns.toNat ∧
      drive rt.w.st.rodPid rt.w.st.railPid rt.w.st.motor rod (tr, (inp.rail rt.w.st.rails).toInt) =
        .ok (rt'.w.st.rodPid, rt'.w.st.railPid, rt'.w.st.motor) := by
  obtain ⟨w0, l1, l2⟩ := lifeAll_quiet (inp := inp) (.inl rfl) (List.range 6) rt.w
  obtain ⟨m1, cl, c1, c2, c3, c4, c5⟩ := idle_create hi (o := .checked) (.inl hid)
  obtain ⟨x0, x1, x2, x3, x4, x5, hx⟩ : ∃ x0 x1 x2 x3 x4 x5, cl.msgs = [x0, x1, x2, x3, x4, x5] := by
    exact six c4
  have hg0 : Good inp (w0.emit w0.st (.created cl.id)).st := by
    show Good inp w0.st
    rw [l2]; exact hg
  obtain ⟨w1, a0, a1, rod, tA, rA, n, r1, r2, r3, r4, r5, r6, r7, r8, r9, r10⟩ := rod_run hc hg0 x0 x1 x2 x3 x4 x5
    [⟨1, .source, [], some (2, "cu_rp_encoder::EncoderPayload")⟩,
     ⟨3, .regular, [(2, "cu_rp_encoder::EncoderPayload")], some (3, "cu_pid::PIDControlOutputPayload")⟩,
     ⟨4, .regular, [(1, "cu_pid::PIDControlOutputPayload"), (3, "cu_pid::PIDControlOutputPayload")],
       some (4, "cu_rp_sn754410_new::MotorPayload")⟩,
     ⟨5, .sink, [(4, "cu_rp_sn754410_new::MotorPayload")], some (5, "()")⟩]
  have e0 : (w0.emit w0.st (.created cl.id)).st = rt.w.st := l2
  rw [e0] at r2 r3 r4 r5 r6 r8 r10
  have hrail : PidOk railCfg w1.st.railPid (inp.clock w1.st.reads).ns.toNat := by
    rw [r3]
    exact hg.rail.mono (hc.mono _ _ (by simp only; omega))
  obtain ⟨w2, a2, a3, tB, rB, s1, s2, s3, s4, s5⟩ := rail_run hc hrail a0 a1 x2 x3 x4 x5
    [⟨4, .regular, [(1, "cu_pid::PIDControlOutputPayload"), (3, "cu_pid::PIDControlOutputPayload")],
       some (4, "cu_rp_sn754410_new::MotorPayload")⟩,
     ⟨5, .sink, [(4, "cu_rp_sn754410_new::MotorPayload")], some (5, "()")⟩]
  obtain ⟨w3, a4, a5, t1, t2, t3⟩ := motor_run (inp := inp) (w := w2) a0 a1 a2 a3 x4 x5 r9 s5
  have hplan : planLoop (app inp).env (app inp).plan (w0.emit w0.st (.created cl.id)) cl.msgs =
      .ok (w3, [a0, a1, a2, a3, a4, a5], .next) := by
    show planLoop (env inp) plan _ _ = _
    rw [plan_eq, hx, r1, s1, t1]
  have hmd : collectMetadata (app inp).plan [a0, a1, a2, a3, a4, a5] =
      .ok [a0.md, a2.md, a1.md, a3.md, a4.md, a5.md] := by
    show collectMetadata plan _ = _
    rw [plan_eq]; rfl
  have hreads : w1.st.reads = n ∧ w2.st.reads = n + 5 ∧ w3.st.reads = n + 9 := by
    refine ⟨by rw [r3], by rw [s2, r3], by rw [t2, s2, r3]⟩
  obtain ⟨d, hd⟩ := endToEnd_ok (md := [a0.md, a2.md, a1.md, a3.md, a4.md, a5.md]) (l := a5.md) (f := a0.md) rfl rfl t3 r10
    (hc.mono _ _ (by omega)) (hc.bound _)
  obtain ⟨b1, b2, b3⟩ := c5 [a0, a1, a2, a3, a4, a5] rfl
  have hst : w3.st = { rt.w.st with
      reads := n + 9, samples := rt.w.st.samples + 1, rails := rt.w.st.rails + 1
      integrated := match inp.adc rt.w.st.samples with
        | some v => (rt.w.st.integrated + v.toNat) * 8 / 9
        | none => rt.w.st.integrated
      rodPid := tA, railPid := tB, motor := (rt.w.st.motor.process (command rA rB)).1 } := by
    rw [t2, s2, r3]
  have hcmd : drive rt.w.st.rodPid rt.w.st.railPid rt.w.st.motor rod
      ((inp.clock (n + 1)).ns.toNat, (inp.rail rt.w.st.rails).toInt) =
      .ok (tA, tB, (rt.w.st.motor.process (command rA rB)).1) := by
    have e1 : w1.st.railPid = rt.w.st.railPid := by rw [r3]
    have e2 : w1.st.rails = rt.w.st.rails := by rw [r3]
    rw [e1, e2, hreads.1] at s3
    unfold drive
    rw [r4]
    simp only [Rs.ok_bind]
    rw [s3]
    simp only [Rs.ok_bind]
    cases rA with
    | produced x =>
      cases rB with
      | produced y =>
        obtain ⟨c, hc', -⟩ := power_ok x.output y.output
        simp only [command, hc']
      | cleared => rfl
      | error => rfl
    | cleared => cases rB <;> rfl
    | error => cases rB <;> rfl
  have hmot : MotorOk (rt.w.st.motor.process (command rA rB)).1 ∧
      (rt.w.st.motor.process (command rA rB)).1.enabled = rt.w.st.motor.enabled := by
    constructor
    · cases hcm : command rA rB with
      | none => exact (motor_none hg.motor).1
      | some c =>
        refine motor_some hg.motor ?_
        cases rA with
        | produced x =>
          cases rB with
          | produced y =>
            obtain ⟨c', hc', h⟩ := power_ok x.output y.output
            simp only [command, hc', Option.some.injEq] at hcm
            subst hcm
            exact h
          | cleared => cases hcm
          | error => cases hcm
        | cleared => cases rB <;> cases hcm
        | error => cases rB <;> cases hcm
    · cases command rA rB with
      | none => rfl
      | some c =>
        simp only [MotorFp.Driver.process]
        split
        · rfl
        · split
          · split
            · rfl
            · split <;> rfl
          · rfl
  have hgood : ∀ k, Good inp { w3.st with lists := k } := by
    intro k
    rw [hst]
    refine ⟨hg.fine, r7.mono (hc.mono _ _ (by simp only; omega)), ?_, r8, hmot.1⟩
    rw [hreads.1] at s4
    exact s4.mono (hc.mono _ _ (by simp only; omega))
  have hrun : ∀ q, finishList (app inp) cl.id [a0, a1, a2, a3, a4, a5]
      ⟨w3, m1.write 0 (fun c => { c with state := .processing, msgs := [a0, a1, a2, a3, a4, a5] })⟩ = q →
      runOneIteration (app inp) rt = match q with
        | .panic => .panic
        | .ok (rt, some e) => .ok (rt, some e)
        | .ok (rt, none) =>
          match lifeAll (app inp).env .postprocess (List.range 6) rt.w with
          | (w, .shutdown e) => .ok ({ rt with w := w }, some e)
          | (w, _) => .ok ({ rt with w := w }, none) := by
    intro q hq
    unfold runOneIteration
    have l1' : lifeAll (app inp).env .preprocess (List.range (app inp).tasks) rt.w = (w0, .next) := l1
    have hov : (app inp).overflow = .checked := rfl
    rw [l1']
    simp only [hov, c1, c2, hplan, hmd, hd, hq]
    rcases q with ⟨rt1, _ | e⟩ | _ <;> rfl
  have hmon : (app inp).env.monCL [a0.md, a2.md, a1.md, a3.md, a4.md, a5.md] w3.st =
      ({ w3.st with lists := w3.st.lists + 1 }, if inp.quit w3.st.lists then some "Exiting..." else none) := rfl
  have hlists : w3.st.lists = rt.w.st.lists := by rw [hst]
  rw [hlists] at hmon
  cases hq : inp.quit rt.w.st.lists with
  | true =>
    rw [hq] at hmon
    refine ⟨⟨w3.emit { w3.st with lists := rt.w.st.lists + 1 }
      (.monitored [a0.md, a2.md, a1.md, a3.md, a4.md, a5.md] (some "Exiting...")),
      m1.write 0 (fun c => { c with state := .processing, msgs := [a0, a1, a2, a3, a4, a5] })⟩, rod,
      (inp.clock (n + 1)).ns.toNat, ?_, hgood _, ?_, ?_, ?_, rfl, ?_, ?_,
      fun h => (by cases h), r5, ?_, ?_, ?_, ?_⟩
    · have hf : finishList (app inp) cl.id [a0, a1, a2, a3, a4, a5]
          ⟨w3, m1.write 0 (fun c => { c with state := .processing, msgs := [a0, a1, a2, a3, a4, a5] })⟩ =
          .ok (⟨w3.emit { w3.st with lists := rt.w.st.lists + 1 }
            (.monitored [a0.md, a2.md, a1.md, a3.md, a4.md, a5.md] (some "Exiting...")),
            m1.write 0 (fun c => { c with state := .processing, msgs := [a0, a1, a2, a3, a4, a5] })⟩, some "Exiting...") := by
        unfold finishList
        rw [hmd]
        simp only [hmon, if_true]
      exact hrun _ hf
    · show _ < w3.st.reads
      omega
    · show w3.st.samples = _
      rw [hst]
    · show w3.st.rails = _
      rw [hst]
    · show w3.st.motor.enabled = _
      rw [hst]; exact hmot.2
    · show w3.st.integrated = _
      rw [hst]
    · intro x hx'
      refine ⟨(r6 x hx').1, le_trans (r6 x hx').2 (hc.mono _ _ ?_)⟩
      show n ≤ w3.st.reads
      omega
    · exact hc.mono _ _ (show rt.w.st.reads ≤ n + 1 by omega)
    · refine hc.mono _ _ ?_
      show n + 1 ≤ w3.st.reads
      omega
    · rw [hcmd]
      show _ = Rs.ok (w3.st.rodPid, w3.st.railPid, w3.st.motor)
      rw [hst]
  | false =>
    rw [hq] at hmon
    obtain ⟨w4, m4, f1, f2, f3, f4⟩ := end_ok (inp := inp) (by rw [← c3] at b1; exact b1)
      (w3.emit { w3.st with lists := rt.w.st.lists + 1 }
        (.monitored [a0.md, a2.md, a1.md, a3.md, a4.md, a5.md] none))
    obtain ⟨w5, g1, g2⟩ := lifeAll_quiet (inp := inp) (.inr rfl) (List.range 6) w4
    have hw5 : w5.st = { w3.st with lists := rt.w.st.lists + 1 } := by rw [g2, f2]; rfl
    refine ⟨⟨w5, m4⟩, rod, (inp.clock (n + 1)).ns.toNat, ?_, by rw [hw5]; exact hgood _, ?_, ?_, ?_, ?_, ?_, ?_,
      fun _ => ⟨f3, by rw [← b3]; exact f4⟩, r5, ?_, ?_, ?_, ?_⟩
    · have hf : finishList (app inp) cl.id [a0, a1, a2, a3, a4, a5]
          ⟨w3, m1.write 0 (fun c => { c with state := .processing, msgs := [a0, a1, a2, a3, a4, a5] })⟩ =
          .ok (⟨w4, m4⟩, none) := by
        unfold finishList
        rw [hmd]
        simp only [hmon, Bool.false_eq_true, if_false]
        have : (app inp).env.log = (env inp).log := rfl
        rw [this, f1]
      rw [hrun _ hf]
      have : lifeAll (app inp).env .postprocess (List.range 6) w4 = (w5, .next) := g1
      simp only [this, Bool.false_eq_true, if_false]
    · show _ < w5.st.reads
      rw [hw5]; show _ < w3.st.reads; omega
    · show w5.st.samples = _
      rw [hw5, hst]
    · show w5.st.rails = _
      rw [hw5, hst]
    · show w5.st.lists = _
      rw [hw5]
    · show w5.st.motor.enabled = _
      rw [hw5, hst]; exact hmot.2
    · show w5.st.integrated = _
      rw [hw5, hst]
    · intro x hx'
      refine ⟨(r6 x hx').1, le_trans (r6 x hx').2 (hc.mono _ _ ?_)⟩
      show n ≤ w5.st.reads
      rw [hw5]; show n ≤ w3.st.reads; omega
    · exact hc.mono _ _ (show rt.w.st.reads ≤ n + 1 by omega)
    · refine hc.mono _ _ ?_
      show n + 1 ≤ w5.st.reads
      rw [hw5]; show _ ≤ w3.st.reads; omega
    · rw [hcmd]
      show _ = Rs.ok (w5.st.rodPid, w5.st.railPid, w5.st.motor)
      rw [hw5, hst]

/-! ### The program -/

theorem start_run {w : World Robot Payload} {v : UInt16} (hv : inp.adc w.st.samples = some v) :
    ∃ w', lifeAll (env inp) .start (List.range 6) w = (w', .next) ∧
      w'.st = { w.st with
        samples := w.st.samples + 1, integrated := v.toNat * 8, motor := w.st.motor.start } := by
  have hr : List.range 6 = [0, 1, 2, 3, 4, 5] := rfl
  have h0 : lifeStep (env inp) .start 0 w =
      (w.emit { w.st with samples := w.st.samples + 1, integrated := v.toNat * 8 } (.called .start 0 [] none), .next) := by
    have : (env inp).life .start 0 w.st =
        ({ w.st with samples := w.st.samples + 1, integrated := v.toNat * 8 }, none) := by
      show life inp .start 0 w.st = _
      simp [life, hv, Adc.start]
    show lifeCall (env inp) .start 0 w = _
    simp only [lifeCall, this]
  rw [hr, lifeAll, h0]
  exact ⟨_, rfl, rfl⟩

theorem start_fail {w : World Robot Payload} (hv : inp.adc w.st.samples = none) :
    ∃ w' e, lifeAll (env inp) .start (List.range 6) w = (w', .shutdown e) ∧
      w'.st = { w.st with samples := w.st.samples + 1, integrated := 0 } := by
  have hr : List.range 6 = [0, 1, 2, 3, 4, 5] := rfl
  have h0 : lifeStep (env inp) .start 0 w = react (env inp) .start 0 "Could not read the ADC value from the ADS7883"
      (w.emit { w.st with samples := w.st.samples + 1, integrated := 0 }
        (.called .start 0 [] (some "Could not read the ADC value from the ADS7883"))) := by
    have : (env inp).life .start 0 w.st =
        ({ w.st with samples := w.st.samples + 1, integrated := 0 },
          some "Could not read the ADC value from the ADS7883") := by
      show life inp .start 0 w.st = _
      simp [life, hv, Adc.start]
    show lifeCall (env inp) .start 0 w = _
    simp only [lifeCall, this]
  rw [hr, lifeAll, h0]
  exact ⟨_, _, rfl, rfl⟩

theorem fresh_idle : Idle 6 fresh.mgr := by
  refine ⟨rfl, rfl, by decide, ?_, ?_⟩
  · intro c hc
    simp only [fresh, zeroLists, Manager.new, List.mem_replicate] at hc
    rw [hc.2]
  · intro c hc
    simp only [fresh, zeroLists, Manager.new, List.mem_replicate] at hc
    rw [hc.2]
    rfl

theorem start_ok {v : UInt16} (hv : inp.adc 0 = some v) :
    ∃ rt, startAll (app inp) fresh = (rt, none) ∧ rt.mgr = fresh.mgr ∧
      rt.w.st = { Robot.new with samples := 1, integrated := v.toNat * 8, motor := Robot.new.motor.start } := by
  obtain ⟨w', h1, h2⟩ := start_run (inp := inp) (w := fresh.w) (v := v) hv
  have h1' : lifeAll (app inp).env .start (List.range (app inp).tasks) fresh.w = (w', .next) := h1
  refine ⟨⟨w'.emit w'.st (.monStarted none), fresh.mgr⟩, ?_, rfl, h2⟩
  unfold startAll
  rw [h1']
  rfl

theorem good_start {v : UInt16} :
    Good inp { Robot.new with samples := 1, integrated := v.toNat * 8, motor := Robot.new.motor.start } := by
  have := v.toNat_lt
  refine ⟨rfl, .new rod_sound, .new rail_sound, by simp only; omega, ⟨?_, rfl, .inl ⟨0, rfl, le_refl _, by norm_num, rfl⟩⟩⟩
  exact lit_dz

theorem runLoop_succ (a : App Robot Payload) (n : Nat) (rt : Rt Robot Payload) :
    runLoop a (n + 1) rt = match runLoop a n rt with
      | .panic => .panic
      | .ok (rt, some e) => .ok (rt, some e)
      | .ok (rt, none) => runOneIteration a rt := by
  induction n generalizing rt with
  | zero =>
    simp only [runLoop]
    cases h : runOneIteration a rt with
    | panic => rfl
    | ok x =>
      obtain ⟨rt', _ | e⟩ := x <;> rfl
  | succ n ih =>
    rw [runLoop]
    conv => rhs; rw [runLoop]
    cases h : runOneIteration a rt with
    | panic => rfl
    | ok x =>
      obtain ⟨rt', _ | e⟩ := x
      · exact ih rt'
      · rfl

theorem loop_succ (n : Nat) : loop inp (n + 1) = match loop inp n with
    | .panic => .panic
    | .ok (rt, some e) => .ok (rt, some e)
    | .ok (rt, none) => runOneIteration (app inp) rt := by
  unfold loop
  generalize startAll (app inp) fresh = x
  obtain ⟨rt, _ | e⟩ := x
  · exact runLoop_succ _ n rt
  · rfl

/-- The state of the program in its loop. -/
structure Running (inp : Inputs) (n : Nat) (rt : Rt Robot Payload) : Prop where
  good : Good inp rt.w.st
  idle : Idle 6 rt.mgr
  id : rt.mgr.currentClId = UInt32.ofNat n
  lists : rt.w.st.lists = n
  samples : rt.w.st.samples = n + 1
  rails : rt.w.st.rails = n
  enabled : rt.w.st.motor.enabled = true
  first : (∀ k, 1 ≤ k → k ≤ n → inp.adc k = none) → rt.w.st.rodPid.firstRun = true

theorem id_free {n : Nat} {rt : Rt Robot Payload} (h : Running inp n rt) (hn : n < 4294967295) :
    rt.mgr.currentClId ≠ 0xFFFFFFFF := by
  rw [h.id]
  intro e
  have := congrArg UInt32.toNat e
  rw [UInt32.toNat_ofNat'] at this
  have h3 : (0xFFFFFFFF : UInt32).toNat = 4294967295 := rfl
  rw [h3, Nat.mod_eq_of_lt (by omega)] at this
  omega

theorem drive_none {a b a' b' : PidFp.Task} {d d' : MotorFp.Driver} {rail : Nat × Int}
    (h : drive a b d none rail = .ok (a', b', d')) : a' = a := by
  unfold drive at h
  simp only [Rs.bind_eq_ok] at h
  obtain ⟨⟨ta, ra⟩, h1, ⟨tb, rb⟩, h2, h3⟩ := h
  simp only [Option.map_none, PidFp.Task.process, Rs.ok.injEq, Prod.mk.injEq] at h1
  obtain ⟨rfl, rfl⟩ := h1
  simp only [Rs.ok.injEq, Prod.mk.injEq] at h3
  exact h3.1.symm

theorem loop_running (hc : Clocked inp) (n : Nat) (hn : n < 4294967295) :
    (∃ rt e, loop inp n = .ok (rt, some e) ∧ Good inp rt.w.st ∧
      (inp.adc 0 = none ∧ rt.w.st.motor = Robot.new.motor ∨ inp.adc 0 ≠ none ∧ e = "Exiting..." ∧
        rt.w.st.motor.enabled = true ∧ ∃ k < n, inp.quit k = true)) ∨
    ∃ rt, loop inp n = .ok (rt, none) ∧ Running inp n rt ∧ inp.adc 0 ≠ none ∧ ∀ k < n, inp.quit k = false := by
  induction n with
  | zero =>
    unfold loop
    cases hv : inp.adc 0 with
    | none =>
      left
      obtain ⟨w', e, h1, hst⟩ := start_fail (inp := inp) (w := fresh.w) hv
      have h1' : lifeAll (app inp).env .start (List.range (app inp).tasks) fresh.w = (w', .shutdown e) := h1
      have h2 : startAll (app inp) fresh = (⟨w', fresh.mgr⟩, some e) := by
        unfold startAll
        rw [h1']
      rw [h2]
      refine ⟨_, _, rfl, ?_, .inl ⟨rfl, by rw [show (Rt.mk w' fresh.mgr).w = w' from rfl, hst]; rfl⟩⟩
      show Good inp w'.st
      rw [hst]
      exact ⟨rfl, .new rod_sound, .new rail_sound, Nat.zero_le _, ⟨lit_dz, rfl, .inl ⟨0, rfl, le_refl _, by norm_num, rfl⟩⟩⟩
    | some v =>
      right
      obtain ⟨rt, h1, h2, h3⟩ := start_ok (inp := inp) hv
      rw [h1]
      refine ⟨rt, rfl, ⟨?_, ?_, ?_, ?_, ?_, ?_, ?_, ?_⟩, by simp, by intro k hk; omega⟩
      · rw [h3]; exact good_start
      · rw [h2]; exact fresh_idle
      · rw [h2]; rfl
      · rw [h3]; rfl
      · rw [h3]
      · rw [h3]; rfl
      · rw [h3]; rfl
      · rw [h3]; intro _; rfl
  | succ n ih =>
    rw [loop_succ]
    rcases ih (by omega) with ⟨rt, e, h1, h2, h3⟩ | ⟨rt, h1, h2, ha, h3⟩
    · rw [h1]
      refine .inl ⟨rt, e, rfl, h2, h3.imp_right ?_⟩
      rintro ⟨h, hg, he, k, hk, hq⟩
      exact ⟨h, hg, he, k, by omega, hq⟩
    · rw [h1]
      have hid := id_free h2 (by omega)
      obtain ⟨rt', rod, tr, e1, e2, -, e4, e5, e6, e7, -, e9, ed, -, -, -, ef⟩ := iteration_ok hc h2.good h2.idle hid
      simp only
      rw [e1, h2.lists]
      rw [h2.lists] at e6 e9
      cases hq : inp.quit n with
      | true => exact .inl ⟨rt', _, rfl, e2, .inr ⟨ha, rfl, by rw [e7, h2.enabled], n, by omega, hq⟩⟩
      | false =>
        obtain ⟨e9, e10⟩ := e9 hq
        refine .inr ⟨rt', rfl, ⟨e2, e9, ?_, e6, by rw [e4, h2.samples], by rw [e5, h2.rails], by rw [e7, h2.enabled], ?_⟩, ha, ?_⟩
        · rw [e10, h2.id]
          exact (UInt32.ofNat_add n 1).symm
        · intro hno
          have h4 : inp.adc rt.w.st.samples = none := by rw [h2.samples]; exact hno _ (by omega) (le_refl _)
          rw [h4] at ed
          cases rod with
          | some x => simp at ed
          | none =>
            have h5 : rt'.w.st.rodPid = rt.w.st.rodPid := drive_none ef
            rw [h5]
            exact h2.first (fun k k1 k2 => hno k k1 (by omega))
        · intro k hk
          rcases Nat.lt_succ_iff_lt_or_eq.1 hk with h | rfl
          · exact h3 k h
          · exact hq

theorem stop_run (w : World Robot Payload) :
    ∃ w', lifeAll (env inp) .stop (List.range 6) w = (w', .next) ∧
      w'.st = { w.st with
        rodPid := w.st.rodPid.stop, railPid := w.st.railPid.stop, motor := { w.st.motor with enabled := false } } :=
  ⟨_, rfl, rfl⟩

theorem stop_ok (rt : Rt Robot Payload) :
    ∃ rt', stopAll (app inp) rt = (rt', none) ∧
      rt'.w.st = { rt.w.st with
        rodPid := rt.w.st.rodPid.stop, railPid := rt.w.st.railPid.stop
        motor := { rt.w.st.motor with enabled := false } } := by
  obtain ⟨w', h1, h2⟩ := stop_run (inp := inp) rt.w
  have h1' : lifeAll (app inp).env .stop (List.range (app inp).tasks) rt.w = (w', .next) := h1
  refine ⟨⟨w'.emit w'.st (.monStopped none), rt.mgr⟩, ?_, h2⟩
  unfold stopAll
  rw [h1']
  rfl

/-! ### The cutoffs -/

theorem rod_beyond {f : Nat} (h : f < 2902 ∨ 3242 < f) (hb : f < 65536) : Beyond rodCfg (ofInt f32 f) := by
  have e : ofInt f32 (f : Int) = .fin f := by
    have hr : Rep f32 ((f : Int) : ℚ) := rep_int (by rw [abs_of_nonneg (by omega)]; exact le_trans (by omega : (f : Int) ≤ 65536) (by decide)) (by decide)
    have := rnd_id (F := f32) (by decide) hr
    unfold ofInt
    rw [round_fin, this]
    · simp
    · rw [this]
      have p16 : pow2 16 = 65536 := by decide +kernel
      refine lt_trans ?_ (pow2_lt (show (16 : Int) < f32.emax by decide))
      rw [p16, abs_of_nonneg (by positivity)]
      exact_mod_cast hb
  have e1 : rodCfg.setpoint.add f32 rodCfg.cutoff = .fin 3242 := by decide +kernel
  have e2 : rodCfg.setpoint.sub f32 rodCfg.cutoff = .fin 2902 := by decide +kernel
  unfold Beyond
  rw [e, e1, e2]
  simp only [Num.lt, decide_eq_true_eq]
  rcases h with h | h
  · right; exact_mod_cast h
  · left; exact_mod_cast h

theorem rail_beyond {t : Int} (h : t < -1000 ∨ 1000 < t) (hb : -2147483648 ≤ t ∧ t < 2147483648) :
    Beyond railCfg (ofInt f32 t) := by
  have p31 : pow2 31 = 2147483648 := by decide +kernel
  obtain ⟨b1, b2⟩ := hb
  have b1' : (-2147483648 : ℚ) ≤ (t : ℚ) := by exact_mod_cast b1
  have b2' : (t : ℚ) < 2147483648 := by exact_mod_cast b2
  obtain ⟨v, e, ev, -⟩ := round_bound (q := (t : ℚ)) (k := 31) (by decide) (by decide) (by
    rw [p31, abs_le]; exact ⟨b1', b2'.le⟩)
  have e1 : railCfg.setpoint.add f32 railCfg.cutoff = .fin 1000 := by decide +kernel
  have e2 : railCfg.setpoint.sub f32 railCfg.cutoff = .fin (-1000) := by decide +kernel
  unfold Beyond ofInt
  rw [e, e1, e2]
  simp only [Num.lt, decide_eq_true_eq]
  have hF : 0 < f32.prec := by decide
  rcases h with h | h
  · right
    have r : Rep f32 (((-1001 : Int)) : ℚ) := rep_int (by decide) (by decide)
    have h' : (t : ℚ) ≤ ((-1001 : Int) : ℚ) := by exact_mod_cast (by omega : t ≤ -1001)
    have := rnd_le hF r h'
    rw [← ev] at this
    push_cast at this
    linarith
  · left
    have r : Rep f32 (((1001 : Int)) : ℚ) := rep_int (by decide) (by decide)
    have h' : ((1001 : Int) : ℚ) ≤ (t : ℚ) := by exact_mod_cast (by omega : 1001 ≤ t)
    have := le_rnd hF r h'
    rw [← ev] at this
    push_cast at this
    linarith

/-- One of the PIDs has nothing to say: the motor is stopped. -/
theorem drive_cut {a b a' b' : PidFp.Task} {d d' : MotorFp.Driver} {rod : Option (Nat × Nat)} {rail : Nat × Int}
    (h : drive a b d rod rail = .ok (a', b', d'))
    (hcut : (∀ t r, a.process (rod.map (fun x => (some x.1, ofInt f32 x.2))) = .ok (t, r) → ∀ o, r ≠ .produced o) ∨
      (∀ t r, b.process (some (some rail.1, ofInt f32 rail.2)) = .ok (t, r) → ∀ o, r ≠ .produced o)) : Stopped d' := by
  unfold drive at h
  simp only [Rs.bind_eq_ok] at h
  obtain ⟨⟨ta, ra⟩, h1, ⟨tb, rb⟩, h2, h3⟩ := h
  simp only at h3
  split at h3
  · rename_i x y
    rcases hcut with hcut | hcut
    · exact absurd rfl (hcut _ _ h1 x)
    · exact absurd rfl (hcut _ _ h2 y)
  · simp only [Rs.ok.injEq, Prod.mk.injEq] at h3
    obtain ⟨-, -, rfl⟩ := h3
    exact ⟨rfl, rfl⟩

theorem process_beyond {t t' : PidFp.Task} {tov m r} (h : t.process (some (some tov, m)) = .ok (t', r))
    (hb : t.firstRun = true ∨ Beyond t.cfg m) : ∀ o, r ≠ .produced o := by
  rcases PidFp.process_cases h with ⟨-, h1⟩ | ⟨_, _, -, -, rfl, -⟩ | ⟨tov', m', c, o, hx, hf, -, -, -, h1⟩
  · exact h1
  · intro o ho; cases ho
  · rcases h1 with h1 | ⟨-, h2, h3⟩
    · exact h1
    · cases hx
      rcases hb with hb | hb | hb
      · rw [hf] at hb; cases hb
      · rw [h2] at hb; cases hb
      · rw [h3] at hb; cases hb

end Bot
end Verif
