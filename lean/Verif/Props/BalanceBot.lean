import Verif.Proofs.BalanceBot
/-!
C88: the balancing robot, from the readings of its sensors to the duty cycles of its motor.
-/
namespace Verif
namespace Bot
open Clock CopperList Planner Verif.Runtime Fp

variable {inp : Inputs}

/-- However long it runs and whatever its sensors deliver, the program does not panic by itself: as long as the rod
can be read when it starts and `q` is not pressed, its loop goes on. -/
theorem C88_total (hc : Clocked inp) (n : Nat) (hn : n < 4294967295) :
    (inp.adc 0 ≠ none → (∀ k < n, inp.quit k = false) →
      ∃ rt, loop inp n = .ok (rt, none) ∧ rt.w.st.panicked = []) ∧
    ∃ rt e, loop inp n = .ok (rt, e) ∧ rt.w.st.panicked = [] := by
  rcases loop_running hc n hn with ⟨rt, e, h1, h2, h3⟩ | ⟨rt, h1, h2, -, -⟩
  · refine ⟨fun ha hq => ?_, rt, _, h1, h2.fine⟩
    rcases h3 with ⟨h3, -⟩ | ⟨-, -, -, k, hk, h3⟩
    · exact absurd h3 ha
    · rw [hq k hk] at h3; cases h3
  · exact ⟨fun _ _ => ⟨rt, h1, h2.good.fine⟩, rt, _, h1, h2.good.fine⟩

/-- What an iteration of the program does is what `drive` says: the value of the filter after the reading of this
iteration, none if it failed, and the position of the cart go through the two PIDs, and what they make of them, or
nothing, to the motor.  The times of the measurements are in the iteration. -/
theorem C88_flow (hc : Clocked inp) {n : Nat} (hn : n < 4294967295) {rt : Rt Robot Payload}
    (h : loop inp n = .ok (rt, none)) :
    ∃ (rt' : Rt Robot Payload) (e : Option Err) (rod : Option (Nat × Nat)) (time : Nat),
      loop inp (n + 1) = .ok (rt', e) ∧ e = (if inp.quit n then some "Exiting..." else none) ∧
      rt'.w.st.integrated = (Adc.process rt.w.st.integrated (inp.adc (n + 1))).1 ∧
      rod.map (·.2) = (Adc.process rt.w.st.integrated (inp.adc (n + 1))).2.map UInt16.toNat ∧
      (∀ x, rod = some x →
        (inp.clock rt.w.st.reads).ns.toNat ≤ x.1 ∧ x.1 ≤ (inp.clock rt'.w.st.reads).ns.toNat) ∧
      (inp.clock rt.w.st.reads).ns.toNat ≤ time ∧ time ≤ (inp.clock rt'.w.st.reads).ns.toNat ∧
      drive rt.w.st.rodPid rt.w.st.railPid rt.w.st.motor rod (time, (inp.rail n).toInt) =
        .ok (rt'.w.st.rodPid, rt'.w.st.railPid, rt'.w.st.motor) := by
  rcases loop_running hc n hn with ⟨rt1, e, h1, -⟩ | ⟨rt1, h1, h2, -, -⟩
  · rw [h] at h1; cases h1
  · rw [h] at h1
    cases h1
    obtain ⟨rt', rod, tr, e1, -, -, -, -, -, -, e7, -, e8, e9, e10, e11, e12⟩ :=
      iteration_ok hc h2.good h2.idle (id_free h2 hn)
    rw [h2.samples] at e7 e8
    rw [h2.lists] at e1
    rw [h2.rails] at e12
    refine ⟨rt', _, rod, tr, ?_, rfl, ?_, ?_, e9, e10, e11, e12⟩
    · rw [loop_succ, h]; exact e1
    · rw [e7]; cases inp.adc (n + 1) <;> rfl
    · rw [e8]
      cases hv : inp.adc (n + 1) with
      | none => rfl
      | some v =>
        have := h2.good.filter
        have hlt := v.toNat_lt
        simp only [Option.map_some, Adc.process, Option.some.injEq]
        rw [UInt16.toNat_ofNat', Nat.mod_eq_of_lt (by omega)]

/-- At the end of an iteration in which the rod could not be read, or its filtered position is more than 170 away
from 3072, or the cart is more than 1000 ticks away from where it started, or the position of the rod is the first
one, the motor is not driven. -/
theorem C88_cut (hc : Clocked inp) {n : Nat} (hn : n < 4294967295) {rt rt' : Rt Robot Payload} {e : Option Err}
    (h : loop inp n = .ok (rt, none)) (h' : loop inp (n + 1) = .ok (rt', e))
    (hcut : inp.adc (n + 1) = none ∨ rt'.w.st.integrated / 8 < 2902 ∨ 3242 < rt'.w.st.integrated / 8 ∨
      (inp.rail n).toInt < -1000 ∨ 1000 < (inp.rail n).toInt ∨ (∀ k, 1 ≤ k → k ≤ n → inp.adc k = none)) :
    Stopped rt'.w.st.motor := by
  rcases loop_running hc n hn with ⟨rt1, e, h1, -⟩ | ⟨rt1, h1, h2, -, -⟩
  · rw [h] at h1; cases h1
  · rw [h] at h1
    cases h1
    obtain ⟨rt1, rod, tr, e1, g1, -, -, -, -, -, e7, -, e8, e9, e10, e11, e12⟩ :=
      iteration_ok hc h2.good h2.idle (id_free h2 hn)
    have : rt1 = rt' := by
      rw [loop_succ, h] at h'
      simp only [e1, Rs.ok.injEq, Prod.mk.injEq] at h'
      exact h'.1
    subst this
    rw [h2.samples] at e7 e8
    rw [h2.rails] at e12
    refine drive_cut e12 ?_
    by_cases hrail : (inp.rail n).toInt < -1000 ∨ 1000 < (inp.rail n).toInt
    · right
      intro t r hp
      refine process_beyond hp (.inr ?_)
      rw [h2.good.rail.cfg_eq]
      exact rail_beyond hrail ⟨(inp.rail n).le_toInt, (inp.rail n).toInt_lt⟩
    · left
      intro t r hp
      cases rod with
      | none =>
        simp only [Option.map_none, PidFp.Task.process, Rs.ok.injEq, Prod.mk.injEq] at hp
        obtain ⟨-, rfl⟩ := hp
        intro o ho; cases ho
      | some x =>
        have hx : ∃ v, inp.adc (n + 1) = some v ∧ x.2 = (rt.w.st.integrated + v.toNat) * 8 / 9 / 8 := by
          cases hv : inp.adc (n + 1) with
          | none => rw [hv] at e8; cases e8
          | some v => rw [hv] at e8; exact ⟨v, rfl, by simpa using e8⟩
        obtain ⟨v, hv, hx⟩ := hx
        rw [hv] at e7
        simp only at e7
        rw [← e7] at hx
        refine process_beyond hp ?_
        rcases hcut with hcut | hcut | hcut | hcut | hcut | hcut
        · rw [hv] at hcut; cases hcut
        · right
          rw [h2.good.rod.cfg_eq, hx]
          exact rod_beyond (.inl hcut) (by have := g1.filter; omega)
        · right
          rw [h2.good.rod.cfg_eq, hx]
          exact rod_beyond (.inr hcut) (by have := g1.filter; omega)
        · exact absurd (.inl hcut) hrail
        · exact absurd (.inr hcut) hrail
        · exact .inl (h2.first hcut)

/-- At any time the motor is driven in one direction only, with a duty cycle of at most 1 forwards, and at most 1.61
backwards. -/
theorem C88_bounds_partial (hc : Clocked inp) {n : Nat} (hn : n < 4294967295) {rt : Rt Robot Payload} {e : Option Err}
    (h : loop inp n = .ok (rt, e)) :
    (∃ q : Rat, rt.w.st.motor.duty0 = .fin q ∧ 0 ≤ q ∧ q ≤ 1 ∧ rt.w.st.motor.duty1 = .fin 0) ∨
    ∃ q : Rat, rt.w.st.motor.duty1 = .fin q ∧ 0 ≤ q ∧ q ≤ 161 / 100 ∧ rt.w.st.motor.duty0 = .fin 0 := by
  rcases loop_running hc n hn with ⟨rt1, e1, h1, h2, -⟩ | ⟨rt1, h1, h2, -, -⟩
  · rw [h] at h1
    cases h1
    exact h2.motor.duty
  · rw [h] at h1
    cases h1
    exact h2.good.motor.duty

/-- When the stop flag is set the motor is disabled at the end. -/
theorem C88_stop (hc : Clocked inp) {n : Nat} (hn : n < 4294967295) (ha : inp.adc 0 ≠ none)
    (hq : ∀ k < n, inp.quit k = false) :
    ∃ rt, main inp n = .ok (rt, none) ∧ rt.w.st.motor.enabled = false := by
  obtain ⟨rt, h1, -⟩ := (C88_total hc n hn).1 ha hq
  obtain ⟨rt', h2, h3⟩ := stop_ok (inp := inp) rt
  refine ⟨rt', by rw [main, h1]; simp only [h2], ?_⟩
  rw [h3]

/-- It is not when `q` is pressed on the console: the loop ends with an error, the tasks are not stopped, and the
motor stays enabled with whatever it was driven with. -/
theorem C88_quit_violated (hc : Clocked inp) {n : Nat} (hn : n < 4294967295) (ha : inp.adc 0 ≠ none)
    (hq : ∃ k < n, inp.quit k = true) :
    ∃ rt, main inp n = .ok (rt, some "Exiting...") ∧ rt.w.st.motor.enabled = true := by
  obtain ⟨k, hk, hq⟩ := hq
  rcases loop_running hc n hn with ⟨rt, e, h1, h2, h3⟩ | ⟨rt, h1, h2, -, h3⟩
  · rcases h3 with ⟨h3, -⟩ | ⟨-, rfl, h4, -⟩
    · exact absurd h3 ha
    · exact ⟨rt, by rw [main, h1], h4⟩
  · rw [h3 k hk] at hq; cases hq

/-! ### Witnesses -/

/-- A clock that advances by a millisecond each time it is read, a cart that does not move. -/
def still (adc : Nat → Option UInt16) (quit : Nat → Bool) : Inputs :=
  ⟨fun n => ⟨UInt64.ofNat (min n 1000 * 1000000)⟩, adc, fun _ => 10, quit, fun _ => ""⟩

theorem still_clocked (adc quit) : Clocked (still adc quit) := by
  have e : ∀ n, ((still adc quit).clock n).ns.toNat = min n 1000 * 1000000 := by
    intro n
    simp only [still, UInt64.toNat_ofNat']
    rw [Nat.mod_eq_of_lt (by omega)]
  refine ⟨fun i j h => ?_, fun i => ?_⟩
  · rw [e, e]; omega
  · rw [e]; omega

/-- What drives the motor after `n` turns. -/
def duties (inp : Inputs) (n : Nat) : Rs (Num × Num) :=
  (loop inp n).map' (fun x => (x.1.w.st.motor.duty0, x.1.w.st.motor.duty1))

/-- Backwards the duty cycle may be more than the whole period. -/
theorem C88_scale_violated : ∃ inp, Clocked inp ∧ ∃ q : Rat, duties inp 2 = .ok (.fin 0, .fin q) ∧ 3 / 2 < q :=
  ⟨still (fun _ => some 3200) (fun _ => false), still_clocked _ _, 6683623 / 4194304, by decide +kernel, by decide +kernel⟩

/-- The motor does not start again after a single reading has failed: while the rod and the cart stay where they
are, so that the command is the one it had before, it is not driven any more. -/
theorem C88_resume_violated : ∃ inp, Clocked inp ∧ (∀ k, k ≠ 5 → inp.adc k = some 3100) ∧ inp.adc 5 = none ∧
    duties inp 4 = .ok (.fin 0, .fin (14084473 / 16777216)) ∧ duties inp 5 = .ok (.fin 0, .fin 0) ∧
    duties inp 6 = .ok (.fin 0, .fin 0) ∧ duties inp 7 = .ok (.fin 0, .fin 0) := by
  refine ⟨still (fun n => if n = 5 then none else some 3100) (fun _ => false), still_clocked _ _,
    fun k hk => if_neg hk, rfl, ?_, ?_, ?_, ?_⟩ <;> decide +kernel

/-- The time of validity of the commands for the motor in the log. -/
def commandTimes (inp : Inputs) (n : Nat) : Rs (List (Option (Tov × Option Payload))) :=
  (loop inp n).map' (fun x => x.1.w.trace.filterMap (fun
    | .logged cl => some (cl.msgs[4]?.map (fun m => (m.md.tov, m.payload)))
    | _ => none))

/-- In the log the commands for the motor do not have the time of the measurement they come from: they have none. -/
theorem C88_tov_violated : ∃ inp, Clocked inp ∧ ∃ c, commandTimes inp 2 =
    .ok [some (.none, none), some (.none, some (.motor c))] :=
  ⟨still (fun _ => some 3200) (fun _ => false), still_clocked _ _, .fin (-8346665 / 8388608), by decide +kernel⟩

/-! ### The hypotheses are met -/

/-- A robot that drives. -/
def steady : Inputs := still (fun _ => some 3100) (fun n => decide (n = 3))

example : Clocked steady ∧ steady.adc 0 ≠ none ∧ (∀ k < 3, steady.quit k = false) ∧
    duties steady 3 = .ok (.fin 0, .fin (14084473 / 16777216)) :=
  ⟨still_clocked _ _, by decide, by decide, by decide +kernel⟩

example : (main steady 3).map' (fun x => (x.2, x.1.w.st.motor.enabled)) = .ok (none, false) ∧
    (main steady 4).map' (fun x => (x.2, x.1.w.st.motor.enabled)) = .ok (some "Exiting...", true) :=
  ⟨by decide +kernel, by decide +kernel⟩

example : ((loop (still (fun _ => some 3300) (fun _ => false)) 2).map' (fun x => x.1.w.st.integrated / 8)) = .ok 3300 ∧
    duties (still (fun _ => some 3300) (fun _ => false)) 2 = .ok (.fin 0, .fin 0) :=
  ⟨by decide +kernel, by decide +kernel⟩

end Bot
end Verif
