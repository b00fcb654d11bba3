import Verif.Proofs.Pid
/-! C48: PID outputs respect their limits and sampling. -/
namespace Verif
namespace Pid

/-- In every history, every output is within the limits and comes from a measurement within the cutoff; with
a sampling period it consists of numbers. -/
theorem C48_limits {cfg : Cfg} (hs : cfg.Sound) {t t' : Task} (h : Reach cfg t)
    {x : Option (Option Nat × Rat)} {o : Out} (hp : t.process x = .ok (t', .produced o)) :
    Within cfg o ∧ (0 < cfg.sampling → ∃ d u, o.d = some d ∧ o.output = some u) ∧
    ∃ tov m, x = some (some tov, m) ∧ cfg.setpoint - cfg.cutoff ≤ m ∧ m ≤ cfg.setpoint + cfg.cutoff :=
  (process_good hs (h.good hs) hp).2 o rfl

/-- Fed with samples at least a sampling period apart, the task gives the textbook outputs, as if the first
sample had been taken one sampling period earlier. -/
theorem C48_textbook {cfg : Cfg} (hs : cfg.Sound) (t0 : Nat) (m0 : Rat) (xs : List (Nat × Rat))
    (hx : Spaced cfg t0 (shift cfg.sampling xs)) :
    ∃ t', (Task.new cfg).run (some (some t0, m0) :: xs.map fun x => some (some x.1, x.2)) =
      .ok (t', .cleared :: (outputsOf cfg 0 t0 m0 (shift cfg.sampling xs)).map .produced) := by
  have hp : (Task.new cfg).process (some (some t0, m0)) =
      .ok ({ Task.new cfg with firstRun := false, lastTov := t0, pid := (Task.new cfg).pid.init cfg m0 }, .cleared) := rfl
  obtain ⟨t', h⟩ := run_textbook hs cfg.sampling xs
    (t := { Task.new cfg with firstRun := false, lastTov := t0, pid := (Task.new cfg).pid.init cfg m0 })
    (t0 := t0) (m0 := m0) rfl rfl rfl rfl (le_refl _) hx
  rw [run_cons hp, h]
  exact ⟨t', rfl⟩

/-- Three samples; the sampling period is ten milliseconds. -/
example : ∃ cfg : Cfg, cfg.Sound ∧ Spaced cfg 5 (shift cfg.sampling [(1000005, 3), (11000005, 4), (21000005, 5)]) ∧
    ((Task.new cfg).run [some (some 5, 2), some (some 1000005, 3), some (some 11000005, 4), some (some 21000005, 5)]).map' (·.2) =
      .ok [.cleared, .produced ⟨2, 1, some (-1/11), some 2⟩, .produced ⟨1, 1, some (-1/10), some (19/10)⟩,
        .produced ⟨0, 1, some (-1/10), some (9/10)⟩] := by
  refine ⟨⟨1, 1, 1, 5, 2, 1, 2, 2, 10000000, 10⟩, ⟨by decide +kernel, by decide +kernel, by decide +kernel, by decide +kernel⟩, ?_,
    by decide +kernel⟩
  refine ⟨by decide, by decide, by decide, by decide +kernel, by decide +kernel, by decide, by decide, by decide,
    by decide +kernel, by decide +kernel, by decide, by decide, by decide, by decide +kernel, by decide +kernel, trivial⟩

/-- A configuration with a sampling period, and its task after two samples. -/
def exCfg : Cfg := ⟨1, 1, 1, 5, 2, 1, 2, 2, 10000000, 10⟩
theorem exSound : exCfg.Sound := ⟨by decide +kernel, by decide +kernel, by decide +kernel, by decide +kernel⟩
def exTask : Task :=
  match (Task.new exCfg).run [some (some 5, 2), some (some 10000005, 3)] with | .ok (t, _) => t | .panic => Task.new exCfg
theorem exReach : Reach exCfg exTask :=
  (Reach.new.process (x := some (some 5, 2)) rfl).process (x := some (some 10000005, 3))
    (r := .produced exTask.pid.lastOutput) (by decide +kernel)

example := C48_limits exSound exReach (x := some (some 15000000, 4)) (o := exTask.pid.lastOutput)
  (t' := match exTask.process (some (some 15000000, 4)) with | .ok (t, _) => t | .panic => exTask) (by decide +kernel)

/-- Until a sampling period has gone by since a computation, every output repeats its result, whatever is
measured. -/
theorem C48_hold {cfg : Cfg} (hs : cfg.Sound) {t : Task} (h : Reach cfg t) (hf : t.firstRun = false)
    (hc : t.pid.elapsed = 0) (xs : List (Nat × Rat)) (hmono : (t.lastTov :: xs.map (·.1)).Pairwise (· ≤ ·))
    (hx : ∀ x ∈ xs, x.1 < t.lastTov + cfg.sampling ∧ cfg.setpoint - cfg.cutoff ≤ x.2 ∧ x.2 ≤ cfg.setpoint + cfg.cutoff)
    (hb : cfg.sampling < 2 ^ 64) :
    ∃ t', t.run (xs.map fun x => some (some x.1, x.2)) = .ok (t', xs.map fun _ => .produced t.pid.lastOutput) ∧
      t'.pid.lastOutput = t.pid.lastOutput := by
  have hg := h.good hs
  have key : ∀ (xs : List (Nat × Rat)) (t : Task) (T : Nat), Good cfg t → t.firstRun = false →
      t.lastTov = T + t.pid.elapsed → (t.lastTov :: xs.map (·.1)).Pairwise (· ≤ ·) →
      (∀ x ∈ xs, x.1 < T + cfg.sampling ∧ cfg.setpoint - cfg.cutoff ≤ x.2 ∧ x.2 ≤ cfg.setpoint + cfg.cutoff) →
      ∃ t', t.run (xs.map fun x => some (some x.1, x.2)) = .ok (t', xs.map fun _ => .produced t.pid.lastOutput) ∧
        t'.pid.lastOutput = t.pid.lastOutput := by
    intro xs
    induction xs with
    | nil => intro t T _ _ _ _ _; exact ⟨t, rfl, rfl⟩
    | cons x xs ih =>
      intro t T hg hf hT hm hx
      obtain ⟨t1, m⟩ := x
      obtain ⟨h1, h2, h3⟩ := hx (t1, m) (by simp)
      simp only [List.map_cons, List.pairwise_cons] at hm
      have hle : t.lastTov ≤ t1 := hm.1 t1 (by simp)
      obtain ⟨rfl, hw, hn⟩ := hg
      obtain ⟨c', o, g1, -, -, g4, -⟩ := next_ok hs hw m (dt := t1 - t.lastTov) (by omega)
      obtain ⟨rfl, rfl⟩ := g4 (by omega)
      have hp : t.process (some (some t1, m)) = .ok ({ t with lastTov := t1, pid :=
          { t.pid with elapsed := t.pid.elapsed + (t1 - t.lastTov) } }, .produced t.pid.lastOutput) := by
        simp only [Task.process]
        rw [if_neg (by simp [hf]), if_neg (by omega), g1]
        simp only [Rs.ok_bind]
        rw [if_neg (not_lt.mpr h3), if_neg (not_lt.mpr h2)]
      obtain ⟨t', ht', hl'⟩ := ih { t with lastTov := t1, pid :=
          { t.pid with elapsed := t.pid.elapsed + (t1 - t.lastTov) } } T
        ((process_good hs ⟨rfl, hw, hn⟩ hp).1) hf (by simp only; omega) (by simpa using hm.2)
        (fun x hx' => hx x (by simp [hx']))
      refine ⟨t', ?_, hl'⟩
      rw [List.map_cons, run_cons hp, ht']
      rfl
  exact key xs t t.lastTov hg hf (by omega) hmono (by simpa using hx)

example := C48_hold exSound exReach (by decide +kernel) (by decide +kernel) [(10000006, 4), (20000004, 100 / 7)]
  (by decide +kernel) (by decide +kernel) (by decide)

/-- A computation ends each period: once the sampling period has gone by, the controller has just computed
its output. -/
theorem C48_computes {cfg : Cfg} (hs : cfg.Sound) {t : Task} (h : Reach cfg t) (hf : t.firstRun = false)
    {tov : Nat} {m : Rat} (hle : t.lastTov ≤ tov) (hb : t.pid.elapsed + (tov - t.lastTov) < 2 ^ 64)
    (hsam : cfg.sampling ≤ t.pid.elapsed + (tov - t.lastTov)) :
    ∃ t' r, t.process (some (some tov, m)) = .ok (t', r) ∧ t'.firstRun = false ∧ t'.pid.elapsed = 0 ∧
      t'.lastTov = tov ∧ ∀ o, r = .produced o → t'.pid.lastOutput = o := by
  obtain ⟨rfl, hw, -⟩ := h.good hs
  obtain ⟨c', o, h1, -, -, -, h5⟩ := next_ok hs hw m (dt := tov - t.lastTov) hb
  obtain ⟨h6, h7, -, -⟩ := h5 hsam
  simp only [Task.process]
  rw [if_neg (by simp [hf]), if_neg (by omega), h1]
  simp only [Rs.ok_bind]
  split
  · exact ⟨_, _, rfl, hf, h6, rfl, by simp⟩
  · split
    · exact ⟨_, _, rfl, hf, h6, rfl, by simp⟩
    · exact ⟨_, _, rfl, hf, h6, rfl, by rintro o ⟨⟩; exact h7⟩

example := C48_computes exSound exReach (by decide +kernel) (tov := 20000005) (m := 7) (by decide +kernel) (by decide +kernel)
  (by decide +kernel)

/-- After a stop, the task behaves as a new one. -/
theorem C48_restart {cfg : Cfg} (hs : cfg.Sound) {t : Task} (h : Reach cfg t) (xs : List (Option (Option Nat × Rat))) :
    (t.stop.run xs).map' (·.2) = ((Task.new cfg).run xs).map' (·.2) := by
  have hc := (h.good hs).same
  have key : ∀ (xs : List (Option (Option Nat × Rat))) (t u : Task),
      t.cfg = cfg → u.cfg = cfg → t.firstRun = u.firstRun → t.pid.integral = u.pid.integral →
      (t.firstRun = false → t.lastTov = u.lastTov ∧ t.pid.lastError = u.pid.lastError ∧
        t.pid.elapsed = u.pid.elapsed ∧ (t.pid.elapsed < cfg.sampling → t.pid.lastOutput = u.pid.lastOutput)) →
      (t.run xs).map' (·.2) = (u.run xs).map' (·.2) := by
    intro xs
    induction xs with
    | nil => intro t u _ _ _ _ _; rfl
    | cons x xs ih =>
      intro t u ht hu hf hi hr
      match x with
      | none =>
        have := ih t u ht hu hf hi hr
        simp only [Task.run, Task.process]
        revert this
        cases t.run xs <;> cases u.run xs <;> simp [Rs.map']
      | some (none, m) =>
        have := ih t u ht hu hf hi hr
        simp only [Task.run, Task.process]
        revert this
        cases t.run xs <;> cases u.run xs <;> simp [Rs.map']
      | some (some tov, m) =>
        cases hft : t.firstRun with
        | true =>
          have e1 : t.process (some (some tov, m)) =
              .ok ({ t with firstRun := false, lastTov := tov, pid := t.pid.init t.cfg m }, .cleared) := by
            simp [Task.process, hft]
          have e2 : u.process (some (some tov, m)) =
              .ok ({ u with firstRun := false, lastTov := tov, pid := u.pid.init u.cfg m }, .cleared) := by
            simp [Task.process, ← hf, hft]
          rw [run_cons e1, run_cons e2]
          have := ih { t with firstRun := false, lastTov := tov, pid := t.pid.init t.cfg m }
            { u with firstRun := false, lastTov := tov, pid := u.pid.init u.cfg m } ht hu rfl hi
            (fun _ => ⟨rfl, by simp [Controller.init, ht, hu], by simp [Controller.init, ht, hu],
              fun h => by simp [Controller.init, ht] at h⟩)
          revert this
          generalize Task.run _ xs = a
          generalize Task.run _ xs = b
          cases a <;> cases b <;> simp [Rs.map']
        | false =>
          obtain ⟨r1, r2, r3, r4⟩ := hr hft
          have hfu : u.firstRun = false := by rw [← hf, hft]
          -- the controllers agree but for an output that is not used
          have hnext : (t.pid.next cfg m (tov - t.lastTov) = .panic ∧ u.pid.next cfg m (tov - u.lastTov) = .panic) ∨
              ∃ a b o, t.pid.next cfg m (tov - t.lastTov) = .ok (a, o) ∧ u.pid.next cfg m (tov - u.lastTov) = .ok (b, o) ∧
                a.integral = b.integral ∧ a.lastError = b.lastError ∧ a.elapsed = b.elapsed ∧
                (a.elapsed < cfg.sampling → a.lastOutput = b.lastOutput) := by
            by_cases hh : t.pid.elapsed + (tov - t.lastTov) < cfg.sampling
            · have hlo := r4 (by omega)
              rw [← r1]
              simp only [Controller.next, ← r3]
              by_cases ho : t.pid.elapsed + (tov - t.lastTov) ≥ 2 ^ 64
              · rw [if_pos ho, if_pos ho]; exact .inl ⟨rfl, rfl⟩
              · rw [if_neg ho, if_neg ho, if_pos hh, if_pos hh]
                exact .inr ⟨{ t.pid with elapsed := t.pid.elapsed + (tov - t.lastTov) },
                  { u.pid with elapsed := t.pid.elapsed + (tov - t.lastTov) }, t.pid.lastOutput, rfl, by rw [hlo], hi, r2, rfl,
                  fun _ => hlo⟩
            · have e : t.pid.next cfg m (tov - t.lastTov) = u.pid.next cfg m (tov - u.lastTov) := by
                simp only [Controller.next, ← r1, ← r2, ← r3, ← hi]
                by_cases ho : t.pid.elapsed + (tov - t.lastTov) ≥ 2 ^ 64
                · rw [if_pos ho, if_pos ho]
                · rw [if_neg ho, if_neg ho, if_neg hh, if_neg hh]
              rw [← e]
              cases t.pid.next cfg m (tov - t.lastTov) with
              | panic => exact .inl ⟨rfl, rfl⟩
              | ok r => exact .inr ⟨r.1, r.1, r.2, rfl, rfl, rfl, rfl, rfl, fun _ => rfl⟩
          simp only [Task.run, Task.process, hft, hfu, ← r1, ht, hu]
          rw [← r1] at hnext
          by_cases hlt : tov < t.lastTov
          · simp [hlt, Rs.map']
          · rcases hnext with ⟨n1, n2⟩ | ⟨a, b, o, n1, n2, i1, i2, i3, i4⟩
            · simp [hlt, n1, n2, Rs.map']
            · simp only [n1, n2, Rs.ok_bind, hlt, if_false, Bool.false_eq_true]
              have := ih { t with lastTov := tov, pid := a } { u with lastTov := tov, pid := b } ht hu
                (by simp [hft, hfu]) i1 (fun _ => ⟨rfl, i2, i3, i4⟩)
              revert this
              rw [ht, hu]
              by_cases c1 : m > cfg.setpoint + cfg.cutoff
              · simp only [if_pos c1, hft, hfu]
                generalize Task.run _ xs = x
                generalize Task.run _ xs = y
                cases x <;> cases y <;> simp [Rs.map']
              · by_cases c2 : m < cfg.setpoint - cfg.cutoff
                · simp only [if_neg c1, if_pos c2, hft, hfu]
                  generalize Task.run _ xs = x
                  generalize Task.run _ xs = y
                  cases x <;> cases y <;> simp [Rs.map']
                · simp only [if_neg c1, if_neg c2, hft, hfu]
                  generalize Task.run _ xs = x
                  generalize Task.run _ xs = y
                  cases x <;> cases y <;> simp [Rs.map']
  exact key xs t.stop (Task.new cfg) hc rfl rfl rfl (by simp [Task.stop])

example := C48_restart exSound exReach [some (some 7, 3), none, some (none, 5)]

/-- A thawed task has the controller of the frozen one. -/
theorem C48_thaw_partial {cfg : Cfg} (t : Task) : ((Task.new cfg).thaw t.freeze).pid = t.pid := rfl

/-- It does not continue as the original: it takes the next measurement for a first one. -/
theorem C48_violated_thaw : ∃ (cfg : Cfg) (t : Task), cfg.Sound ∧ Reach cfg t ∧
    (t.run [some (some 3000000, 4)]).map' (·.2) = .ok [.produced ⟨1, 0, some 0, some 1⟩] ∧
    (((Task.new cfg).thaw t.freeze).run [some (some 3000000, 4)]).map' (·.2) = .ok [.cleared] := by
  refine ⟨⟨1, 0, 0, 5, 2, 1, 2, 2, 0, 10⟩,
    ⟨⟨1, 0, 0, 5, 2, 1, 2, 2, 0, 10⟩, ⟨2, 2, 0, ⟨2, 0, some 0, some 2⟩⟩, false, 2000000⟩, ⟨by decide +kernel, by decide +kernel, by decide +kernel, by decide +kernel⟩,
    (Reach.new.process (x := some (some 1000000, 2)) rfl).process (x := some (some 2000000, 3))
      (r := .produced ⟨2, 0, some 0, some 2⟩) (by decide +kernel),
    by decide +kernel, by decide +kernel⟩

/-- Without a sampling period (the default), two messages of the same time give an output that is not a
number, even without derivative gain. -/
theorem C48_violated_nan (cfg : Cfg) (hs : cfg.Sound) (h0 : cfg.sampling = 0) (hk : cfg.kd = 0) (hc : 0 ≤ cfg.cutoff) (t : Nat) :
    ∃ t' o, (Task.new cfg).run [some (some t, cfg.setpoint), some (some t, cfg.setpoint)] =
      .ok (t', [.cleared, .produced o]) ∧ o.d = none ∧ o.output = none := by
  obtain ⟨h1, h2, h3, h4⟩ := hs
  have n1 : ¬ cfg.setpoint > cfg.setpoint + cfg.cutoff := by intro h; linarith
  have n2 : ¬ cfg.setpoint < cfg.setpoint - cfg.cutoff := by intro h; linarith
  have n3 : ¬ cfg.dLimit < -cfg.dLimit := by intro h; linarith
  have n4 : ¬ cfg.outputLimit < -cfg.outputLimit := by intro h; linarith
  simp [Task.run, Task.process, Task.new, Controller.new, Controller.init, Controller.next, h0, hk, clamp_eq h1, clamp_eq h2,
    derivative, n1, n2, n3, n4]

/-- Two messages of the same time, of any values within the cutoff: the derivative part, and so the output, is not
a number if the values are the same or there is no derivative gain, and the limit of the derivative part, with one
sign or the other, if not. -/
theorem C48_same_time (cfg : Cfg) (hs : cfg.Sound) (h0 : cfg.sampling = 0) (t : Nat) (m m' : Rat)
    (hm : cfg.setpoint - cfg.cutoff ≤ m' ∧ m' ≤ cfg.setpoint + cfg.cutoff) :
    ∃ t' o, (Task.new cfg).run [some (some t, m), some (some t, m')] = .ok (t', [.cleared, .produced o]) ∧
      (m = m' ∨ cfg.kd = 0 → o.d = none ∧ o.output = none) ∧
      (m ≠ m' → cfg.kd ≠ 0 → o.output.isSome ∧
        o.d = some (if 0 < (m - m') * cfg.kd then cfg.dLimit else -cfg.dLimit)) := by
  obtain ⟨h1, h2, h3, h4⟩ := hs
  have n1 : ¬ m' > cfg.setpoint + cfg.cutoff := by intro h; linarith
  have n2 : ¬ m' < cfg.setpoint - cfg.cutoff := by intro h; linarith
  have n3 : ¬ cfg.dLimit < -cfg.dLimit := by intro h; linarith
  have n4 : ¬ cfg.outputLimit < -cfg.outputLimit := by intro h; linarith
  have e : cfg.setpoint - m' - (cfg.setpoint - m) = m - m' := by ring
  by_cases hz : m = m' ∨ cfg.kd = 0
  · have hz' : m - m' = 0 ∨ cfg.kd = 0 := hz.imp (fun h => by rw [h]; ring) id
    refine ⟨_, _, by
      simp [Task.run, Task.process, Task.new, Controller.new, Controller.init, Controller.next, h0, clamp_eq h1, clamp_eq h2,
        derivative, n1, n2, n3, n4, e, hz']; exact ⟨rfl, rfl⟩, ?_, ?_⟩
    · intro _; exact ⟨rfl, rfl⟩
    · intro ha hb; exact absurd hz (by simp [ha, hb])
  · have hne : ¬ (m - m' = 0 ∨ cfg.kd = 0) := fun h => hz (h.imp (fun h => by linarith) id)
    have hd : derivative cfg.kd cfg.dLimit (m - m') 0 =
        .ok (some (if 0 < (m - m') * cfg.kd then cfg.dLimit else -cfg.dLimit)) := by
      rw [not_or] at hne
      simp only [derivative, if_true, if_neg n3, if_neg (not_or.2 hne)]
      rcases lt_or_gt_of_ne hne.1 with ha | ha <;> rcases lt_or_gt_of_ne hne.2 with hb | hb
      · have := mul_pos_of_neg_of_neg ha hb
        simp [this, not_lt_of_gt ha, not_lt_of_gt hb]
      · have := mul_neg_of_neg_of_pos ha hb
        simp [not_lt_of_gt this, not_lt_of_gt ha, hb]
      · have := mul_neg_of_pos_of_neg ha hb
        simp [not_lt_of_gt this, ha, not_lt_of_gt hb]
      · have := mul_pos ha hb
        simp [this, ha, hb]
    refine ⟨_, _, by
      simp [Task.run, Task.process, Task.new, Controller.new, Controller.init, Controller.next, h0, clamp_eq h1, clamp_eq h2,
        clamp_eq h4, hd, n1, n2, n3, n4, e]; exact ⟨rfl, rfl⟩, ?_, ?_⟩
    · intro h; exact absurd h hz
    · intro _ _; exact ⟨rfl, rfl⟩

example := C48_same_time { exCfg with sampling := 0 } exSound rfl 9 3 4 (by decide +kernel)

/-- A message older than the one before makes the task panic (debug build). -/
theorem C48_order (cfg : Cfg) {t t' : Nat} (h : t' < t) (m m' : Rat) :
    (Task.new cfg).run [some (some t, m), some (some t', m')] = .panic := by
  simp [Task.run, Task.process, Task.new, h]

example := C48_order exCfg (t := 9) (t' := 8) (by decide) 3 4

end Pid
end Verif
