import Verif.Proofs.BalanceSim
/-!
C91: the simulation of the balancing robot.
-/
namespace Verif
namespace BotSim
open Clock CopperList Planner Verif.Runtime Fp Bot

variable {inp : Inputs}

/-- Whatever the physics computes, not-a-numbers and infinities included, the simulation goes on frame after frame
until `q` is pressed. -/
theorem C91_total {fs : List Frame} (ht : Timed fs) (hn : fs.length < 4294967295)
    (hq : ∀ k < fs.length, inp.quit k = false) :
    ∃ rt, simulate inp fs = .ok (rt, none) ∧ rt.w.st.forces.length = fs.length ∧ rt.w.st.robot.panicked = [] := by
  rcases simulate_ok (inp := inp) fs ht hn with ⟨rt, a, b, l, h1, h2, h3, h4, -⟩ | ⟨_, k, _, _, _, hk, hq', -⟩
  · exact ⟨rt, h1, by rw [h4]; exact (ideal_cfg h2).2.2, by rw [h3]; rfl⟩
  · rw [hq k hk] at hq'; cases hq'

/-- When `q` is pressed, the iteration fails, which `expect` makes a panic of the simulator: a user who asks to quit
gets a crash, the tasks not stopped. -/
theorem C91_quit_violated {fs : List Frame} (ht : Timed fs) (hn : fs.length < 4294967295) {k : Nat}
    (hk : k < fs.length) (hq : inp.quit k = true) :
    ∃ rt, simulate inp fs = .ok (rt, some "Exiting...") ∧ rt.w.st.forces.length ≤ k + 1 := by
  rcases simulate_ok (inp := inp) fs ht hn with ⟨_, _, _, _, -, -, -, -, h⟩ | ⟨rt, j, a, b, l, hj, -, hlt, h1, h2, -, h4⟩
  · rw [h k hk] at hq; cases hq
  · refine ⟨rt, h1, ?_⟩
    have : j ≤ k := by
      by_contra hc
      rw [hlt k (by omega)] at hq; cases hq
    rw [h4, (ideal_cfg h2).2.2, List.length_take]
    omega

/-- The forces applied to the cart are those of the two controllers without the runtime. -/
theorem C91_forces {fs : List Frame} (ht : Timed fs) (hn : fs.length < 4294967295) {rt : Rt State Payload}
    (h : simulate inp fs = .ok (rt, none)) :
    ideal (.new rodCfg) (.new railCfg) fs = .ok (rt.w.st.robot.rodPid, rt.w.st.robot.railPid, rt.w.st.forces) := by
  rcases simulate_ok (inp := inp) fs ht hn with ⟨rt', a, b, l, h1, h2, h3, h4, -⟩ | ⟨_, _, _, _, _, -, -, -, h1, -⟩
  · rw [h] at h1
    cases h1
    rw [h2, h3, h4]
  · rw [h] at h1; cases h1

/-- What the simulation is good for: given the same readings at the same time, the controllers of the simulation
command the power the robot's motor is given. -/
theorem C91_same (a b : PidFp.Task) (motor : MotorFp.Driver) (time rod : Nat) (rail : Int) :
    drive a b motor (some (time, rod)) (time, rail) =
      (control a b time rod rail).map' (fun x => (x.1, x.2.1, (motor.process x.2.2).1)) := by
  unfold drive control
  simp only [Option.map_some]
  cases h1 : a.process (some (some time, ofInt f32 (rod : Int))) with
  | panic => rfl
  | ok x =>
    obtain ⟨tA, rA⟩ := x
    simp only [Rs.ok_bind]
    cases h2 : b.process (some (some time, ofInt f32 rail)) with
    | panic => rfl
    | ok y =>
      obtain ⟨tB, rB⟩ := y
      simp only [Rs.ok_bind]
      cases rA with
      | produced x =>
        cases rB with
        | produced y =>
          obtain ⟨c, hc, -⟩ := power_ok x.output y.output
          simp only [hc]
          rfl
        | cleared => rfl
        | error => rfl
      | cleared => cases rB <;> rfl
      | error => cases rB <;> rfl

/-- Every force is a number between -2 and 2. -/
theorem C91_bounded {fs : List Frame} (ht : Timed fs) (hn : fs.length < 4294967295) {rt : Rt State Payload}
    (h : simulate inp fs = .ok (rt, none)) : ∀ x ∈ rt.w.st.forces, ∃ q : ℚ, x = .fin q ∧ -2 ≤ q ∧ q ≤ 2 := by
  have h1 := C91_forces ht hn h
  intro x hx
  obtain ⟨i, hi, rfl⟩ := List.getElem_of_mem hx
  have hlen := (ideal_cfg h1).2.2
  have hsplit : fs = fs.take i ++ fs[i]'(by omega) :: fs.drop (i + 1) := by
    rw [← List.drop_eq_getElem_cons, List.take_append_drop]
  rw [hsplit] at h1
  obtain ⟨a1, b1, l1, a2, b2, p, -, h3, h4⟩ := ideal_at h1
  obtain ⟨rA, rB, -, -, rfl⟩ := control_cases h3
  rw [List.length_take, Nat.min_eq_left (by omega), List.getElem?_eq_getElem hi, Option.some.injEq] at h4
  rw [h4]
  exact force_bound

/-- A rod that has fallen, a yaw that is not a number or infinite, a cart more than half a metre away, however far,
and the first frame: no force.  (The angle may be anything between -π and π, which `to_euler` delivers; at 0 the rod is upright.) -/
theorem C91_cut {pre post : List Frame} {f : Frame} (ht : Timed (pre ++ f :: post))
    (hn : (pre ++ f :: post).length < 4294967295) {rt : Rt State Payload}
    (h : simulate inp (pre ++ f :: post) = .ok (rt, none))
    (hcut : pre = [] ∨ f.yaw = .nan ∨ (∃ b, f.yaw = .inf b) ∨
      (∃ y : ℚ, f.yaw = .fin y ∧ |y| ≤ 13176795 / 4194304 ∧ 27 / 100 ≤ |y|) ∨
      (∃ x : ℚ, f.x = .fin x ∧ 502 / 1000 ≤ |x|) ∨ ∃ b, f.x = .inf b) :
    rt.w.st.forces[pre.length]? = some (.fin 0) := by
  obtain ⟨a1, b1, l1, a2, b2, p, h2, h3, h4⟩ := ideal_at (C91_forces ht hn h)
  obtain ⟨c1, c2, -⟩ := ideal_cfg h2
  obtain ⟨rA, rB, hA, hB, rfl⟩ := control_cases h3
  rw [h4]
  have key : (∀ o, rA ≠ .produced o) ∨ (∀ o, rB ≠ .produced o) := by
    have rod : ((analog f.yaw).toNat < 2902 ∨ 3242 < (analog f.yaw).toNat) → ∀ o, rA ≠ .produced o := by
      intro hr
      refine process_beyond hA (.inr ?_)
      rw [c1]
      exact rod_beyond hr (analog f.yaw).toNat_lt
    rcases hcut with rfl | hy | ⟨b, hy⟩ | ⟨y, hy, y1, y2⟩ | hx
    · left
      refine process_beyond hA (.inl ?_)
      simp only [ideal, Rs.ok.injEq, Prod.mk.injEq] at h2
      rw [← h2.1]; rfl
    · left
      exact rod (.inl (by rw [hy]; decide +kernel))
    · left
      apply rod
      rw [hy]
      cases b
      · right; decide +kernel
      · left; decide +kernel
    · left
      apply rod
      rw [hy]
      obtain ⟨n1, k, n2⟩ := analog_near y1
      generalize (analog (.fin y)).toNat = n at *
      by_contra hc
      have l1 : (2902 : ℚ) ≤ n := by exact_mod_cast (show 2902 ≤ n by omega)
      have l2 : (n : ℚ) ≤ 3242 := by exact_mod_cast (show n ≤ 3242 by omega)
      obtain ⟨y3, y4⟩ := abs_le.1 y1
      obtain ⟨n3, n4⟩ := abs_le.1 n2
      have k1 : k = 1 := by
        have a : (0 : ℚ) < k := by linarith
        have b : (k : ℚ) < 2 := by linarith
        have a' : (0 : Int) < k := by exact_mod_cast a
        have b' : k < 2 := by exact_mod_cast b
        omega
      subst k1
      push_cast at n3 n4
      rcases le_abs.1 y2 with y5 | y5 <;> linarith
    · right
      refine process_beyond hB (.inr ?_)
      rw [c2]
      refine rail_beyond ?_ ⟨(ticks f.x).le_toInt, (ticks f.x).toInt_lt⟩
      rcases hx with ⟨x, hx, x2⟩ | ⟨b, hx⟩
      · rw [hx]; exact ticks_far x2
      · rw [hx]
        cases b
        · right; decide +kernel
        · left; decide +kernel
  rw [command_cut key]
  rfl

/-- A simulation that diverges: an angle that is not a number or infinite is read as one end of the converter's range,
and so is one too large; the encoder saturates likewise. -/
theorem C91_diverged :
    analog .nan = 0 ∧ analog (.inf false) = 65535 ∧ analog (.inf true) = 0 ∧ analog (.fin 1000000) = 65535 ∧
    ticks .nan = 0 ∧ ticks (.inf false) = Int32.maxValue ∧ ticks (.inf true) = Int32.minValue ∧
    (∀ q : ℚ, 2000000 ≤ q → ticks (.fin q) = Int32.maxValue) ∧
    ∀ q : ℚ, q ≤ -2000000 → ticks (.fin q) = Int32.minValue := by
  refine ⟨by decide +kernel, by decide +kernel, by decide +kernel, by decide +kernel, by decide +kernel,
    by decide +kernel, by decide +kernel, fun q h => ?_, fun q h => ?_⟩
  · exact Int32.toInt_inj.1 (ticks_most h)
  · exact Int32.toInt_inj.1 (ticks_least h)

/-- While the physics is paused and the rod is not moved, no force is applied, although the robot's controller
computes a derivative over no time. -/
theorem C91_paused {pre post : List Frame} {f g : Frame} (ht : Timed (pre ++ f :: g :: post))
    (hn : (pre ++ f :: g :: post).length < 4294967295) {rt : Rt State Payload}
    (h : simulate inp (pre ++ f :: g :: post) = .ok (rt, none)) (htime : g.time = f.time) (hyaw : g.yaw = f.yaw) :
    rt.w.st.forces[pre.length + 1]? = some (.fin 0) := by
  have h1 := C91_forces ht hn h
  rw [show pre ++ f :: g :: post = (pre ++ [f]) ++ g :: post by simp] at h1
  obtain ⟨a1, b1, l1, a2, b2, p, h2, h3, h4⟩ := ideal_at h1
  obtain ⟨a3, b3, l3, a4, b4, p', h5, h6, h7⟩ := ideal_at h2
  obtain ⟨c1, -, -⟩ := ideal_cfg h5
  obtain ⟨rA', rB', hA', -, -⟩ := control_cases h6
  obtain ⟨rA, rB, hA, hB, rfl⟩ := control_cases h3
  -- the state of the first is the one in which the second begins
  have ha : a1 = a4 := by
    have : ideal (.new rodCfg) (.new railCfg) (pre ++ [f]) = .ok (a4, b4, l3 ++ [forceOf p']) := by
      clear h1 h2 h3 h4 h7 hA hA' c1 h ht hn
      revert h5
      generalize PidFp.Task.new rodCfg = u
      generalize PidFp.Task.new railCfg = v
      intro h5
      induction pre generalizing u v l3 with
      | nil =>
        simp only [ideal, Rs.ok.injEq, Prod.mk.injEq] at h5
        obtain ⟨rfl, rfl, rfl⟩ := h5
        rw [List.nil_append, ideal, h6]
        rfl
      | cons e pre ih =>
        rw [ideal] at h5
        simp only [Rs.bind_eq_ok] at h5
        obtain ⟨⟨u1, v1, q⟩, i1, ⟨u2, v2, l2⟩, i2, i3⟩ := h5
        simp only [Rs.ok.injEq, Prod.mk.injEq] at i3
        obtain ⟨rfl, rfl, rfl⟩ := i3
        rw [List.cons_append, ideal, i1]
        simp only [Rs.ok_bind]
        rw [ih _ _ _ i2]
        rfl
    rw [this] at h2
    simp only [Rs.ok.injEq, Prod.mk.injEq] at h2
    exact h2.1.symm
  subst ha
  have hat := rod_after c1 hA'
  rw [htime, hyaw] at hA
  have hfin : ∃ q, rodCfg.setpoint.sub f32 (ofInt f32 ((analog f.yaw).toNat : Int)) = .fin q := by
    have hlt := (analog f.yaw).toNat_lt
    have hlt' : ((analog f.yaw).toNat : ℚ) ≤ 65536 := by exact_mod_cast hlt.le
    have hs : rodCfg.setpoint = .fin 3072 := by decide +kernel
    rw [ReadingsFp.ofInt_exact (by rw [abs_of_nonneg (by omega)]; omega), hs]
    refine ⟨_, ReadingsFp.round_large ?_⟩
    push_cast
    rw [abs_le]
    have : (0 : ℚ) ≤ ((analog f.yaw).toNat : ℚ) := by positivity
    constructor <;> linarith
  have hnan := rod_again hat hfin hA
  rw [List.length_append, List.length_singleton] at h4
  rw [h4]
  cases rA with
  | cleared => cases rB <;> rfl
  | error => cases rB <;> rfl
  | produced x =>
    cases rB with
    | cleared => rfl
    | error => rfl
    | produced y =>
      have := hnan x rfl
      simp only [command, this]
      rfl

/-- A rod moved while the physics is paused (the time stands still) gives the cart the full force. -/
theorem C91_paused_violated : ∃ fs : List Frame, Timed fs ∧ (∀ f ∈ fs, f.time = ⟨1000⟩) ∧
    ∀ inp : Inputs, (∀ k, inp.quit k = false) →
      ∃ rt, simulate inp fs = .ok (rt, none) ∧ rt.w.st.forces = [.fin 0, .fin (-2)] := by
  refine ⟨[⟨⟨1000⟩, .fin 0, .fin 0⟩, ⟨⟨1000⟩, .fin (1 / 10), .fin 0⟩], ?_, ?_, ?_⟩
  · refine ⟨by decide, ?_⟩
    intro f hf
    simp only [List.mem_cons, List.not_mem_nil, or_false] at hf
    rcases hf with rfl | rfl <;> decide
  · intro f hf
    simp only [List.mem_cons, List.not_mem_nil, or_false] at hf
    rcases hf with rfl | rfl <;> rfl
  · intro inp hq
    have ht : Timed [⟨⟨1000⟩, .fin 0, .fin 0⟩, ⟨⟨1000⟩, .fin (1 / 10), .fin 0⟩] := by
      refine ⟨by decide, ?_⟩
      intro f hf
      simp only [List.mem_cons, List.not_mem_nil, or_false] at hf
      rcases hf with rfl | rfl <;> decide
    obtain ⟨rt, h, -⟩ := C91_total (inp := inp) ht (by decide) (fun k _ => hq k)
    refine ⟨rt, h, ?_⟩
    have h1 := C91_forces ht (by decide) h
    have h2 : (ideal (.new rodCfg) (.new railCfg) [⟨⟨1000⟩, .fin 0, .fin 0⟩, ⟨⟨1000⟩, .fin (1 / 10), .fin 0⟩]).map'
        (·.2.2) = .ok [.fin 0, .fin (-2)] := by decide +kernel
    rw [h1] at h2
    exact Rs.ok.inj h2

/-- The readings.  The converter's is the angle of the rod in counts of a 4096th of a turn, up to whole turns, with
3072 where it is upright, and the encoder's is the position of the cart in half millimetres, both to about a count. -/
theorem C91_reading_partial :
    analog (.fin 0) = 3072 ∧
    (∀ y : ℚ, |y| ≤ 13176795 / 4194304 → (analog (.fin y)).toNat ≤ 4096 ∧
      ∃ k : Int, |((analog (.fin y)).toNat : ℚ) - (3072 + y / (13176795 / 2097152) * 4096 + 4096 * k)| ≤ 101 / 100) ∧
    ∀ x : ℚ, |x| ≤ 1000 → |((ticks (.fin x)).toInt : ℚ) - x * 2000| ≤ 6 / 5 := by
  refine ⟨by decide +kernel, fun y hy => ?_, fun x hx => ticks_near hx⟩
  obtain ⟨h1, k, h2⟩ := analog_near hy
  refine ⟨h1, k - 1, ?_⟩
  push_cast
  rw [show (3072 : ℚ) + y / (13176795 / 2097152) * 4096 + 4096 * (k - 1) =
    y / (13176795 / 2097152) * 4096 - 1024 + 4096 * k by ring]
  exact h2

/-- But just before the end of the turn it is 4096, which a converter of 12 bits cannot deliver; and a cart whose
position is not a number is read as one in the middle. -/
theorem C91_reading_violated :
    (analog (.fin (13176794 / 8388608))).toNat = 4096 ∧ ticks .nan = 0 := by
  constructor <;> decide +kernel

/-! ### Cases that meet the hypotheses -/

/-- Four frames: the rod is upright, leans, is held for a frame, and falls. -/
def fall : List Frame :=
  [⟨⟨0⟩, .fin 0, .fin 0⟩, ⟨⟨10000000⟩, .fin (1 / 10), .fin 0⟩, ⟨⟨10000000⟩, .fin (1 / 10), .fin 0⟩,
   ⟨⟨20000000⟩, .fin (3 / 10), .fin (1 / 10)⟩]

theorem fall_timed : Timed fall := by
  refine ⟨by decide, ?_⟩
  intro f hf
  simp only [fall, List.mem_cons, List.not_mem_nil, or_false] at hf
  rcases hf with rfl | rfl | rfl | rfl <;> decide

example : (ideal (.new rodCfg) (.new railCfg) fall).map' (fun x => x.2.2.map (fun p => decide (p = .fin 0))) =
    .ok [true, false, true, true] := by decide +kernel
example (inp : Inputs) (hq : ∀ k, inp.quit k = false) : ∃ rt, simulate inp fall = .ok (rt, none) ∧
    rt.w.st.forces[2]? = some (.fin 0) ∧ rt.w.st.forces[3]? = some (.fin 0) := by
  obtain ⟨rt, h, -⟩ := C91_total (inp := inp) fall_timed (by decide) (fun k _ => hq k)
  refine ⟨rt, h, ?_, ?_⟩
  · exact C91_paused (pre := [⟨⟨0⟩, .fin 0, .fin 0⟩]) fall_timed (by decide) h rfl rfl
  · refine C91_cut (pre := fall.take 3) (post := []) fall_timed (by decide) h
      (.inr (.inr (.inr (.inl ⟨3 / 10, rfl, ?_, ?_⟩))))
    · rw [abs_of_nonneg (by norm_num)]; norm_num
    · rw [abs_of_nonneg (by norm_num)]; norm_num

end BotSim
end Verif
