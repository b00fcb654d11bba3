import Verif.Proofs.PidFp
/-!
C84: the PID task in single precision.
-/
namespace Verif
namespace PidFp
open Fp

/-- Whatever is measured, infinities and NaN included, every part of every output is within its limit or NaN.
The measurement is NaN or was not found outside of the margins. -/
theorem C84_limits_partial {cfg : Cfg} (hs : cfg.Sound) {t t' : Task} (h : Reach cfg (fun _ => True) t)
    {x : Option (Option Nat × Num)} {o : Out} (hp : t.process x = .ok (t', .produced o)) :
    Within o.p cfg.pLimit ∧ Within o.i cfg.iLimit ∧ Within o.d cfg.dLimit ∧ Within o.output cfg.outputLimit ∧
    ∃ tov m, x = some (some tov, m) ∧ (cfg.setpoint.add f32 cfg.cutoff).lt m = false ∧
      m.lt (cfg.setpoint.sub f32 cfg.cutoff) = false := by
  obtain ⟨rfl, hw⟩ := reach_within hs h
  rcases process_cases hp with ⟨-, h⟩ | ⟨_, _, _, _, h, _⟩ | ⟨tov, m, c, o', hx, -, -, hn, rfl, hr⟩
  · exact absurd rfl (h o)
  · cases h
  · rcases hr with h | ⟨h, h1, h2⟩
    · exact absurd rfl (h o)
    · cases h
      by_cases hb : t.pid.elapsed + (tov - t.lastTov) < 2 ^ 64
      · obtain ⟨c', o', g1, -, g2, g3, g4, g5⟩ := next_within hs hw m hb
        rw [hn] at g1
        obtain ⟨rfl, rfl⟩ := Prod.mk.inj (Rs.ok.inj g1)
        exact ⟨g2, g3, g4, g5, tov, m, hx, h1, h2⟩
      · rw [next_panic hb] at hn; cases hn

/-- With a sampling period, parameters and measurements of magnitude at most about a million, every output is
made of numbers within the limits, however long the task runs: the sum of errors does not overflow. -/
theorem C84_numbers {cfg : Cfg} (hs : cfg.Sound) (hsm : cfg.Small) (h0 : 0 < cfg.sampling) {t t' : Task}
    (h : Reach cfg Small t) {x : Option (Option Nat × Num)} (hx : ∀ tov m, x = some (some tov, m) → Small m)
    {o : Out} (hp : t.process x = .ok (t', .produced o)) :
    WithinNum o.p cfg.pLimit ∧ WithinNum o.i cfg.iLimit ∧ WithinNum o.d cfg.dLimit ∧
    WithinNum o.output cfg.outputLimit := by
  obtain ⟨rfl, hw⟩ := reach_bounded hs hsm h0 h
  rcases process_cases hp with ⟨-, h⟩ | ⟨_, _, _, _, h, _⟩ | ⟨tov, m, c, o', hxm, -, -, hn, rfl, hr⟩
  · exact absurd rfl (h o)
  · cases h
  · rcases hr with h | ⟨h, h1, h2⟩
    · exact absurd rfl (h o)
    · cases h
      by_cases hb : t.pid.elapsed + (tov - t.lastTov) < 2 ^ 64
      · obtain ⟨c', o', g1, -, g2⟩ := next_bounded hs hsm h0 hw (hx _ _ hxm) hb
        rw [hn] at g1
        obtain ⟨rfl, rfl⟩ := Prod.mk.inj (Rs.ok.inj g1)
        exact g2
      · rw [next_panic hb] at hn; cases hn

/-- The output follows the law of a PID: the proportional part is that of the exact error, the integral part that
of the sum of errors over time, to which this step adds, the derivative part that of the change of the error
over the elapsed time, the output is their sum, each within its limit and up to two millionths of the magnitude
of what it is computed from. -/
theorem C84_accuracy {cfg : Cfg} (hs : cfg.Sound) (hsm : cfg.Small) (h0 : 0 < cfg.sampling) {g : Gains} (hg : cfg.Is g)
    {t t' : Task} (h : Reach cfg Small t) (hf : t.firstRun = false) {tov : Nat} {m : Rat} (hm : Small (.fin m))
    (hsam : cfg.sampling ≤ t.pid.elapsed + (tov - t.lastTov)) {o : Out}
    (hp : t.process (some (some tov, .fin m)) = .ok (t', .produced o)) :
    let e := g.setpoint - m
    let ms : Rat := ((t.pid.elapsed + (tov - t.lastTov) : Nat) : Rat) / 1000000
    ∃ sum last sum' last' p i d u : Rat, t.pid.integral = .fin sum ∧ t.pid.lastError = .fin last ∧
      t'.pid.integral = .fin sum' ∧ t'.pid.lastError = .fin last' ∧ t'.pid.elapsed = 0 ∧ t'.lastTov = tov ∧
      o = ⟨.fin p, .fin i, .fin d, .fin u⟩ ∧ Near last' e |e| ∧ Near sum' (sum + e * ms) (|sum| + |e| * ms) ∧
      Near p (clampQ (g.kp * e) g.pLimit) (|g.kp| * |e|) ∧ Near i (clampQ (g.ki * sum') g.iLimit) (|g.ki| * |sum'|) ∧
      Near d (clampQ (g.kd * ((e - last) / ms)) g.dLimit) (|g.kd| * ((|e| + |last|) / ms)) ∧
      Near u (clampQ (p + i + d) g.outputLimit) (|p| + |i| + |d|) := by
  intro e ms
  obtain ⟨rfl, hw⟩ := reach_bounded hs hsm h0 h
  rcases process_cases hp with ⟨-, h⟩ | ⟨_, _, _, h, _, _⟩ | ⟨tov', m', c, o', hxm, -, -, hn, rfl, hr⟩
  · exact absurd rfl (h o)
  · rw [hf] at h; cases h
  · cases hxm
    rcases hr with h | ⟨h, -, -⟩
    · exact absurd rfl (h o)
    · cases h
      by_cases hb : t.pid.elapsed + (tov - t.lastTov) < 2 ^ 64
      · obtain ⟨I, L, I', L', p, i, d, u, g1, g2, g3, g4, g5, g6, g7, g8, g9⟩ :=
          next_near hs hsm h0 hg hw hm hb hsam
        rw [hn] at g3
        obtain ⟨rfl, rfl⟩ := Prod.mk.inj (Rs.ok.inj g3)
        exact ⟨I, L, I', L', p, i, d, u, g1, g2, rfl, rfl, rfl, rfl, rfl, g4, g5, g6, g7, g8, g9⟩
      · rw [next_panic hb] at hn; cases hn

/-- The task of a time that does not go back never panics for what is measured. -/
theorem C84_total {cfg : Cfg} (hs : cfg.Sound) {t : Task} (h : Reach cfg (fun _ => True) t) {tov : Nat} (m : Num)
    (hle : t.lastTov ≤ tov) (hb : t.pid.elapsed + (tov - t.lastTov) < 2 ^ 64) :
    ∃ t' r, t.process (some (some tov, m)) = .ok (t', r) := by
  obtain ⟨rfl, hw⟩ := reach_within hs h
  unfold Task.process
  simp only
  split
  · exact ⟨_, _, rfl⟩
  · rw [if_neg (by omega)]
    obtain ⟨c', o', g1, -⟩ := next_within hs hw m hb
    rw [g1, Rs.ok_bind]
    simp only
    split
    · exact ⟨_, _, rfl⟩
    · split <;> exact ⟨_, _, rfl⟩

/-- The proportional gain of 1/10 is not a number of single precision: the outputs are rounded. -/
def tenth : Cfg := ⟨round f32 (1 / 10), .fin 1, .fin 0, .fin 5, .fin 2, .fin 1, .fin 2, .fin 2, 10000000, .fin 10⟩

example : tenth.Sound ∧ tenth.Small ∧ 0 < tenth.sampling ∧
    ((Task.new tenth).run [some (some 5, .fin 2), some (some 10000005, .fin 2)]).map' (·.2) =
      .ok [.cleared, .produced ⟨.fin (5033165 / 16777216), .fin 1, .fin 0, .fin (5452595 / 4194304)⟩] := by
  refine ⟨⟨by decide +kernel, by decide +kernel, by decide +kernel, by decide +kernel⟩, ?_, by decide +kernel,
    by decide +kernel⟩
  constructor <;> first
    | exact ⟨_, rfl, by decide +kernel, by decide +kernel⟩
    | exact ⟨13421773 / 134217728, by decide +kernel, by decide +kernel, by decide +kernel⟩

/-- A step of the example that meets the conditions of `C84_accuracy`. -/
example : ∃ g t, tenth.Is g ∧ Reach tenth Small t ∧ t.firstRun = false ∧ Small (.fin 2) ∧
    tenth.sampling ≤ t.pid.elapsed + (10000005 - t.lastTov) ∧
    (t.process (some (some 10000005, .fin 2))).map' (·.2) =
      .ok (.produced ⟨.fin (5033165 / 16777216), .fin 1, .fin 0, .fin (5452595 / 4194304)⟩) := by
  refine ⟨⟨13421773 / 134217728, 1, 0, 5, 2, 1, 2, 2⟩, _, ⟨by decide +kernel, rfl, rfl, rfl, rfl, rfl, rfl, rfl⟩,
    Reach.new.process (x := some (some 5, .fin 2)) ?_ rfl, rfl, ?_, by decide +kernel, by decide +kernel⟩
  · intro tov m h; cases h; exact ⟨2, rfl, by norm_num, by norm_num⟩
  · exact ⟨2, rfl, by norm_num, by norm_num⟩

theorem mul_nan (x : Num) : x.mul f32 .nan = .nan := by cases x <;> rfl
theorem add_nan (x : Num) : x.add f32 .nan = .nan := by cases x <;> rfl
theorem nan_add (x : Num) : Num.add f32 .nan x = .nan := by cases x <;> rfl
theorem nan_mul (x : Num) : Num.mul f32 .nan x = .nan := by cases x <;> rfl
theorem nan_div (x : Num) : Num.div f32 .nan x = .nan := by cases x <;> rfl

theorem limit_nan {l : Num} (hl : (Num.fin 0).le l = true) : limit .nan l = .ok .nan := by
  obtain ⟨y, h, -⟩ := limit_within (x := .nan) hl
  unfold limit Num.clamp at h ⊢
  split at h
  · cases h
  · rename_i hc
    rw [if_neg hc]
    cases l <;> rfl

/-- Once the sum of errors is NaN, it stays. -/
theorem next_nan {cfg : Cfg} (hs : cfg.Sound) {c c' : Controller} {o : Out} (hi : c.integral = .nan)
    (ho : c.lastOutput.output = .nan) {m : Num} {dt : Nat} (h : c.next cfg m dt = .ok (c', o)) :
    c'.integral = .nan ∧ c'.lastOutput.output = .nan ∧ o.output = .nan := by
  unfold Controller.next at h
  simp only at h
  split at h
  · cases h
  · split at h
    · obtain ⟨rfl, rfl⟩ := Prod.mk.inj (Rs.ok.inj h)
      exact ⟨hi, ho, ho⟩
    · obtain ⟨p, h1, -⟩ := limit_within (x := cfg.kp.mul f32 (cfg.setpoint.sub f32 m)) hs.p
      rw [h1, Rs.ok_bind, hi, nan_add, mul_nan, limit_nan hs.i, Rs.ok_bind] at h
      generalize (cfg.setpoint.sub f32 m) = error at h
      generalize (ofInt f32 ((c.elapsed + dt : Nat) : Int)).div f32 (.fin 1000000) = t at h
      obtain ⟨d, h3, -⟩ := limit_within (x := cfg.kd.mul f32 ((error.sub f32 c.lastError).div f32 t)) hs.d
      rw [h3, Rs.ok_bind, add_nan, nan_add, limit_nan hs.output, Rs.ok_bind] at h
      obtain ⟨rfl, rfl⟩ := Prod.mk.inj (Rs.ok.inj h)
      exact ⟨rfl, rfl, rfl⟩

theorem run_nan {cfg : Cfg} (hs : cfg.Sound) {t t' : Task} {xs rs} (hcfg : t.cfg = cfg) (hf : t.firstRun = false)
    (hi : t.pid.integral = .nan) (ho : t.pid.lastOutput.output = .nan) (h : t.run xs = .ok (t', rs)) :
    ∀ o, Res.produced o ∈ rs → o.output = .nan := by
  induction xs generalizing t rs with
  | nil => obtain ⟨rfl, rfl⟩ := Prod.mk.inj (Rs.ok.inj h); simp
  | cons x xs ih =>
    unfold Task.run at h
    split at h
    · cases h
    · rename_i t1 r hp
      split at h
      · cases h
      · rename_i t2 rs2 hr
        obtain ⟨rfl, rfl⟩ := Prod.mk.inj (Rs.ok.inj h)
        subst hcfg
        rcases process_cases hp with ⟨rfl, hn⟩ | ⟨_, _, _, hf', _, _⟩ | ⟨tov, m, c, o', hxm, -, -, hn, rfl, hr'⟩
        · intro o ho'
          rcases List.mem_cons.1 ho' with h | h
          · exact absurd h.symm (hn o)
          · exact ih rfl hf hi ho hr o h
        · rw [hf] at hf'; cases hf'
        · obtain ⟨g1, g2, g3⟩ := next_nan hs hi ho hn
          intro o ho'
          rcases List.mem_cons.1 ho' with h | h
          · rcases hr' with h' | ⟨h', -⟩
            · exact absurd h.symm (h' o)
            · rw [← h] at h'; cases h'; exact g3
          · exact ih (t := { t with lastTov := tov, pid := c }) rfl hf g1 g2 hr o h

/-- A measurement that is NaN is not outside of the margins for the safety check: the output is NaN instead of
an error.  All outputs after it are NaN until the task is stopped, whatever is measured. -/
theorem C84_nan_violated {cfg : Cfg} (hs : cfg.Sound) {t : Task} (h : Reach cfg (fun _ => True) t)
    (hf : t.firstRun = false) {tov : Nat} (hle : t.lastTov ≤ tov)
    (hb : t.pid.elapsed + (tov - t.lastTov) < 2 ^ 64) (hsam : cfg.sampling ≤ t.pid.elapsed + (tov - t.lastTov)) :
    ∃ t1, t.process (some (some tov, .nan)) = .ok (t1, .produced ⟨.nan, .nan, .nan, .nan⟩) ∧
      ∀ xs t' rs, t1.run xs = .ok (t', rs) → ∀ o, Res.produced o ∈ rs → o.output = .nan := by
  obtain ⟨rfl, hw⟩ := reach_within hs h
  have hn : t.pid.next t.cfg .nan (tov - t.lastTov) =
      .ok (⟨.nan, .nan, 0, ⟨.nan, .nan, .nan, .nan⟩⟩, ⟨.nan, .nan, .nan, .nan⟩) := by
    unfold Controller.next
    simp only
    rw [if_neg (by omega), if_neg (by omega)]
    have e : t.cfg.setpoint.sub f32 .nan = .nan := add_nan _
    rw [e, mul_nan, limit_nan hs.p, Rs.ok_bind, nan_mul, add_nan, mul_nan, limit_nan hs.i, Rs.ok_bind]
    have e2 : Num.sub f32 .nan t.pid.lastError = .nan := nan_add _
    rw [e2, nan_div, mul_nan, limit_nan hs.d, Rs.ok_bind, nan_add, nan_add, limit_nan hs.output, Rs.ok_bind]
  have l1 : ∀ a : Num, a.lt .nan = false := by intro a; cases a <;> rfl
  have l2 : ∀ a : Num, Num.lt .nan a = false := by intro a; rfl
  refine ⟨{ t with lastTov := tov, pid := ⟨.nan, .nan, 0, ⟨.nan, .nan, .nan, .nan⟩⟩ }, ?_, fun xs t' rs hr => ?_⟩
  · unfold Task.process
    simp only [hf, Bool.false_eq_true, if_false]
    rw [if_neg (by omega), hn, Rs.ok_bind]
    simp only [l1, l2, Bool.false_eq_true, if_false]
  · exact run_nan (t := { t with lastTov := tov, pid := ⟨.nan, .nan, 0, ⟨.nan, .nan, .nan, .nan⟩⟩ }) hs rfl hf rfl rfl hr

/-- An infinite measurement is reported as an error, but it is in the sum of errors: the outputs for the
measurements after it are NaN, with an integral gain if the other infinity is measured as well, without one in any
case. -/
theorem C84_inf_violated :
    ((Task.new tenth).run [some (some 5, .fin 2), some (some 10000005, .inf false), some (some 20000005, .inf true),
      some (some 30000005, .fin 2), some (some 40000005, .fin 2)]).map' (·.2) =
      .ok [.cleared, .error, .error, .produced ⟨.fin (5033165 / 16777216), .nan, .nan, .nan⟩,
        .produced ⟨.fin (5033165 / 16777216), .nan, .fin 0, .nan⟩] ∧
    ((Task.new { tenth with ki := .fin 0 }).run [some (some 5, .fin 2), some (some 10000005, .inf false),
      some (some 20000005, .fin 2), some (some 30000005, .fin 2)]).map' (·.2) =
      .ok [.cleared, .error, .produced ⟨.fin (5033165 / 16777216), .nan, .nan, .nan⟩,
        .produced ⟨.fin (5033165 / 16777216), .nan, .fin 0, .nan⟩] := by
  refine ⟨?_, ?_⟩ <;> decide +kernel

/-- The controller has just been started and measures NaN. -/
example : ∃ t, Reach tenth (fun _ => True) t ∧ t.firstRun = false ∧ t.lastTov ≤ 10000005 ∧
    t.pid.elapsed + (10000005 - t.lastTov) < 2 ^ 64 ∧ tenth.sampling ≤ t.pid.elapsed + (10000005 - t.lastTov) :=
  ⟨_, Reach.new.process (x := some (some 5, .fin 2)) (fun _ _ _ => trivial) rfl, by decide +kernel⟩

end PidFp
end Verif
