import Verif.Proofs.FpErr
import Verif.Spec.PidFp
import Mathlib.Algebra.Order.Group.MinMax
/-!
Lemmas on the PID in single precision.
-/
namespace Verif
namespace Fp

/-- A sum whose terms are at most `2 ^ k` cannot grow beyond `2 ^ (prec + 1 + k)`. -/
theorem rnd_sum {F : Format} (hF : 0 < F.prec) {k : Int} (hk : F.emin ≤ k) {s x : ℚ}
    (hs : |s| ≤ pow2 (F.prec + 1 + k)) (hx : |x| ≤ pow2 k) : |rnd F (s + x)| ≤ pow2 (F.prec + 1 + k) := by
  have hB : Rep F (pow2 (F.prec + 1 + k)) := rep_pow2 (by omega)
  have hp := pow2_pos k
  have up : ∀ q v : ℚ, Rep F v → |v - q| ≤ |pow2 (F.prec + 1 + k) - q| →
      q ≤ pow2 (F.prec + 1 + k) + pow2 k → v ≤ pow2 (F.prec + 1 + k) := by
    intro q v hrep h6 hq
    by_cases hle : q ≤ pow2 (F.prec + 1 + k)
    · rw [abs_of_nonneg (by linarith : 0 ≤ pow2 (F.prec + 1 + k) - q)] at h6
      have := le_abs_self (v - q)
      linarith
    · have hgt := not_le.1 hle
      by_contra hc
      have hc := not_le.1 hc
      obtain ⟨m, e, hv, hm, he⟩ := hrep
      have hpe := pow2_pos e
      have hmq : (m : ℚ) ≤ ((2 ^ F.prec : Nat) : ℚ) := by exact_mod_cast le_trans (le_abs_self m) hm
      -- its last bit is large
      have hek : k + 2 ≤ e := by
        by_contra hlt
        have h1 : (m : ℚ) * pow2 e ≤ pow2 (F.prec + 1 + k) := by
          calc (m : ℚ) * pow2 e ≤ ((2 ^ F.prec : Nat) : ℚ) * pow2 e := mul_le_mul_of_nonneg_right hmq hpe.le
            _ = pow2 (F.prec + e) := by rw [← pow2_nat, ← pow2_add]
            _ ≤ _ := pow2_le (by omega)
        rw [hv] at hc
        linarith
      obtain ⟨j, rfl⟩ := Int.le.dest hek
      -- so it is a multiple of `2 ^ (k + 2)`, and so is the bound
      have h1 : v = ((m * 2 ^ j : Int) : ℚ) * pow2 (k + 2) := by
        rw [hv, add_comm (k + 2), pow2_add, pow2_nat]; push_cast; ring
      have h2 : pow2 (F.prec + 1 + k) = ((2 ^ (F.prec - 1) : Int) : ℚ) * pow2 (k + 2) := by
        have : (F.prec + 1 + k : Int) = ((F.prec - 1 : Nat) : Int) + (k + 2) := by omega
        rw [this, pow2_add, pow2_nat]; push_cast; rfl
      have hp2 := pow2_pos (k + 2)
      have h3 : (2 ^ (F.prec - 1) : Int) + 1 ≤ m * 2 ^ j := by
        rw [h1, h2] at hc
        have := lt_of_mul_lt_mul_right hc hp2.le
        have : (2 ^ (F.prec - 1) : Int) < m * 2 ^ j := by exact_mod_cast this
        omega
      have h3' : (((2 ^ (F.prec - 1) : Int) : ℚ) + 1) ≤ ((m * 2 ^ j : Int) : ℚ) := by exact_mod_cast h3
      have h4 : pow2 (F.prec + 1 + k) + pow2 (k + 2) ≤ v := by
        rw [h1, h2]; nlinarith
      have h5 : pow2 (k + 2) = 4 * pow2 k := by
        rw [show k + 2 = (k + 1) + 1 by omega, pow2_succ, pow2_succ]; ring
      rw [abs_of_nonneg (by linarith), abs_sub_comm, abs_of_nonneg (by linarith)] at h6
      linarith
  rw [abs_le] at hs hx ⊢
  refine ⟨?_, up _ _ (rnd_rep F _) (rnd_best hF _ hB) (by linarith)⟩
  have h := up (-(s + x)) (-rnd F (s + x)) (rep_neg (rnd_rep F _)) (by
    have := rnd_best hF (s + x) (rep_neg hB)
    rw [show -rnd F (s + x) - -(s + x) = -(rnd F (s + x) - (s + x)) by ring,
      show pow2 (F.prec + 1 + k) - -(s + x) = -(-pow2 (F.prec + 1 + k) - (s + x)) by ring, abs_neg, abs_neg]
    exact this) (by linarith)
  linarith

/-- Results of bounded magnitude. -/
theorem round_bound {q : ℚ} {k : Int} (hk : -149 ≤ k) (hk' : k < 128) (h : |q| ≤ pow2 k) :
    ∃ v, round f32 q = .fin v ∧ v = rnd f32 q ∧ |v| ≤ pow2 k := by
  have h1 := rnd_abs (F := f32) (by decide) (rep_pow2 hk) h
  exact ⟨_, round_fin (lt_of_le_of_lt h1 (pow2_lt hk')), rfl, h1⟩

/-- A number of magnitude at most `2 ^ k`. -/
def Bd (k : Int) (x : Num) : Prop := ∃ q : ℚ, x = .fin q ∧ |q| ≤ pow2 k

theorem Bd.mono {j k : Int} {x : Num} (h : Bd j x) (hjk : j ≤ k) : Bd k x := by
  obtain ⟨q, rfl, h⟩ := h
  exact ⟨q, rfl, le_trans h (pow2_le hjk)⟩

theorem Bd.neg {k : Int} {x : Num} (h : Bd k x) : Bd k x.neg := by
  obtain ⟨q, rfl, h⟩ := h
  exact ⟨-q, rfl, by rw [abs_neg]; exact h⟩

theorem Bd.add {k : Int} {x y : Num} (hx : Bd k x) (hy : Bd k y) (hk : -150 ≤ k) (hk' : k < 127) :
    Bd (k + 1) (x.add f32 y) := by
  obtain ⟨a, rfl, ha⟩ := hx
  obtain ⟨b, rfl, hb⟩ := hy
  obtain ⟨v, h1, -, h2⟩ := round_bound (q := a + b) (k := k + 1) (by omega) (by omega) (by
    have := abs_add_le a b
    rw [pow2_succ]; linarith)
  exact ⟨v, h1, h2⟩

theorem Bd.sub {k : Int} {x y : Num} (hx : Bd k x) (hy : Bd k y) (hk : -150 ≤ k) (hk' : k < 127) :
    Bd (k + 1) (x.sub f32 y) := hx.add hy.neg hk hk'

theorem Bd.mul {j k : Int} {x y : Num} (hx : Bd j x) (hy : Bd k y) (hk : -149 ≤ j + k) (hk' : j + k < 128) :
    Bd (j + k) (x.mul f32 y) := by
  obtain ⟨a, rfl, ha⟩ := hx
  obtain ⟨b, rfl, hb⟩ := hy
  obtain ⟨v, h1, -, h2⟩ := round_bound (q := a * b) hk hk' (by
    rw [abs_mul, pow2_add]
    exact mul_le_mul ha hb (abs_nonneg _) (pow2_pos _).le)
  exact ⟨v, h1, h2⟩

/-- A sum of bounded terms does not grow for ever. -/
theorem Bd.acc {k : Int} {s x : Num} (hs : Bd (25 + k) s) (hx : Bd k x) (hk : -149 ≤ k) (hk' : k < 103) :
    Bd (25 + k) (s.add f32 x) := by
  obtain ⟨a, rfl, ha⟩ := hs
  obtain ⟨b, rfl, hb⟩ := hx
  have h := rnd_sum (F := f32) (by decide) hk (s := a) (x := b) ha hb
  exact ⟨_, round_fin (lt_of_le_of_lt h (pow2_lt (show (24 : Int) + 1 + k < 128 by omega))), h⟩

/-- A positive number, in powers of two. -/
def Pos (j k : Int) (x : Num) : Prop := ∃ q : ℚ, x = .fin q ∧ pow2 j ≤ q ∧ q ≤ pow2 k

theorem Pos.bd {j k : Int} {x : Num} (h : Pos j k x) : Bd k x := by
  obtain ⟨q, rfl, h1, h2⟩ := h
  have := pow2_pos j
  exact ⟨q, rfl, by rw [abs_of_nonneg (by linarith)]; exact h2⟩

theorem Bd.div {i j k : Int} {x y : Num} (hx : Bd k x) (hy : Pos i j y) (hk : -149 ≤ k - i) (hk' : k - i < 128) :
    Bd (k - i) (x.div f32 y) := by
  obtain ⟨a, rfl, ha⟩ := hx
  obtain ⟨b, rfl, hb, -⟩ := hy
  have hi := pow2_pos i
  have hb0 : b ≠ 0 := by intro h; rw [h] at hb; linarith
  obtain ⟨v, h1, -, h2⟩ := round_bound (q := a / b) hk hk' (by
    rw [abs_div, abs_of_nonneg (by linarith : 0 ≤ b), div_le_iff₀ (by linarith)]
    calc |a| ≤ pow2 k := ha
      _ = pow2 (k - i) * pow2 i := by rw [← pow2_add]; congr 1; omega
      _ ≤ _ := mul_le_mul_of_nonneg_left hb (pow2_pos _).le)
  exact ⟨v, by simp only [Num.div, if_neg hb0]; exact h1, h2⟩

theorem round_pos {q : ℚ} {j k : Int} (hj : -149 ≤ j) (hk : -149 ≤ k) (hk' : k < 128) (h1 : pow2 j ≤ q) (h2 : q ≤ pow2 k) :
    Pos j k (round f32 q) := by
  have := pow2_pos j
  obtain ⟨v, h3, h4, h5⟩ := round_bound (q := q) hk hk' (by rw [abs_of_nonneg (by linarith)]; exact h2)
  refine ⟨v, h3, ?_, le_trans (le_abs_self v) h5⟩
  rw [h4]
  exact le_rnd (by decide) (rep_pow2 hj) h1

end Fp

namespace PidFp
open Fp

/-- The elapsed time in milliseconds. -/
theorem elapsed_pos {n : Nat} (h0 : 0 < n) (h1 : n < 2 ^ 64) :
    Pos (-20) 45 ((ofInt f32 n).div f32 (.fin 1000000)) := by
  have n1 : (1 : ℚ) ≤ (n : ℚ) := by exact_mod_cast h0
  have n2 : (n : ℚ) ≤ pow2 64 := by
    have : (n : ℚ) ≤ ((2 ^ 64 : Nat) : ℚ) := by exact_mod_cast h1.le
    exact this
  obtain ⟨q, h2, h3, h4⟩ := round_pos (q := (n : ℚ)) (j := 0) (k := 64) (by decide) (by decide) (by decide)
    (by simpa [pow2] using n1) n2
  have e : ofInt f32 n = .fin q := by unfold ofInt; rw [← h2]; congr 1
  rw [e]
  simp only [Num.div, if_neg (show (1000000 : ℚ) ≠ 0 by norm_num)]
  have p1 : pow2 0 = 1 := by simp [pow2]
  have p2 : pow2 (-20) = 1 / 1048576 := by decide +kernel
  have p3 : pow2 64 = 524288 * pow2 45 := by decide +kernel
  have p4 := pow2_pos 45
  refine round_pos (by decide) (by decide) (by decide) ?_ ?_
  · rw [p2, le_div_iff₀ (by norm_num)]; linarith
  · rw [div_le_iff₀ (by norm_num)]; linarith

theorem limit_within {x l : Num} (hl : (Num.fin 0).le l = true) : ∃ y, limit x l = .ok y ∧ Within y l := by
  unfold limit Num.clamp
  cases l with
  | nan => simp [Num.le] at hl
  | inf b =>
    cases b with
    | true => simp [Num.le] at hl
    | false => cases x <;> simp [Num.neg, Num.le, Num.lt, Rs.ofOption, Within]
  | fin q =>
    have hq : 0 ≤ q := by simpa [Num.le] using hl
    have hn : (Num.fin q).neg.le (.fin q) = true := by
      simp only [Num.neg, Num.le, decide_eq_true_eq]; linarith
    rw [hn]
    simp only [Bool.not_true, Bool.false_eq_true, if_false]
    split
    · refine ⟨_, rfl, .inr ⟨?_, hn⟩⟩
      simp [Num.neg, Num.le]
    · split
      · exact ⟨_, rfl, .inr ⟨hn, by simp [Num.le]⟩⟩
      · refine ⟨x, rfl, ?_⟩
        rename_i h1 h2
        cases x with
        | nan => exact .inl rfl
        | inf b => cases b <;> simp [Num.neg, Num.lt] at h1 h2
        | fin y =>
          simp only [Num.neg, Num.lt, decide_eq_true_eq, not_lt] at h1 h2
          exact .inr ⟨by simpa [Num.neg, Num.le] using h1, by simpa [Num.le] using h2⟩

theorem limit_num {x l : Num} (hl : (Num.fin 0).le l = true) (hb : Bd k l) (hx : ∃ q, x = .fin q) :
    ∃ y, limit x l = .ok y ∧ WithinNum y l ∧ Bd k y := by
  obtain ⟨y, h1, h2⟩ := limit_within (x := x) hl
  obtain ⟨q, rfl⟩ := hx
  obtain ⟨b, rfl, hb⟩ := hb
  have hy : ∃ v, y = .fin v := by
    unfold limit Num.clamp at h1
    split at h1
    · cases h1
    · split at h1
      · exact ⟨_, (Rs.ok.inj h1).symm⟩
      · split at h1
        · exact ⟨_, (Rs.ok.inj h1).symm⟩
        · exact ⟨_, (Rs.ok.inj h1).symm⟩
  obtain ⟨v, rfl⟩ := hy
  rcases h2 with h2 | ⟨h2, h3⟩
  · cases h2
  · refine ⟨_, h1, ⟨⟨v, rfl⟩, h2, h3⟩, v, rfl, ?_⟩
    have hb0 : 0 ≤ b := by simpa [Num.le] using hl
    rw [abs_of_nonneg hb0] at hb
    simp only [Num.neg, Num.le, decide_eq_true_eq] at h2 h3
    exact le_trans (abs_le.2 ⟨h2, h3⟩) hb

/-! ### Any inputs -/

/-- All the parts of an output are within the limits or NaN. -/
def OutWithin (cfg : Cfg) (o : Out) : Prop :=
  Within o.p cfg.pLimit ∧ Within o.i cfg.iLimit ∧ Within o.d cfg.dLimit ∧ Within o.output cfg.outputLimit

theorem within_zero {l : Num} (h : (Num.fin 0).le l = true) : Within (.fin 0) l := by
  right
  refine ⟨?_, h⟩
  cases l with
  | nan => exact h
  | inf b => cases b <;> simp [Num.le, Num.neg] at h ⊢
  | fin q => simpa [Num.le, Num.neg] using h

theorem next_within {cfg : Cfg} (hs : cfg.Sound) {c : Controller} (hc : OutWithin cfg c.lastOutput) (m : Num)
    {dt : Nat} (hb : c.elapsed + dt < 2 ^ 64) :
    ∃ c' o, c.next cfg m dt = .ok (c', o) ∧ OutWithin cfg c'.lastOutput ∧ OutWithin cfg o := by
  unfold Controller.next
  simp only
  rw [if_neg (by omega)]
  split
  · exact ⟨_, _, rfl, hc, hc⟩
  · obtain ⟨p, h1, w1⟩ := limit_within (x := cfg.kp.mul f32 (cfg.setpoint.sub f32 m)) hs.p
    rw [h1, Rs.ok_bind]
    generalize (cfg.setpoint.sub f32 m) = error
    generalize (ofInt f32 ((c.elapsed + dt : Nat) : Int)).div f32 (.fin 1000000) = t
    obtain ⟨i, h2, w2⟩ := limit_within (x := cfg.ki.mul f32 (c.integral.add f32 (error.mul f32 t))) hs.i
    rw [h2, Rs.ok_bind]
    obtain ⟨d, h3, w3⟩ := limit_within (x := cfg.kd.mul f32 ((error.sub f32 c.lastError).div f32 t)) hs.d
    rw [h3, Rs.ok_bind]
    obtain ⟨u, h4, w4⟩ := limit_within (x := (p.add f32 i).add f32 d) hs.output
    rw [h4, Rs.ok_bind]
    exact ⟨_, _, rfl, ⟨w1, w2, w3, w4⟩, w1, w2, w3, w4⟩

theorem next_panic {cfg : Cfg} {c : Controller} {m : Num} {dt : Nat} (h : ¬ c.elapsed + dt < 2 ^ 64) :
    c.next cfg m dt = .panic := by
  unfold Controller.next
  simp only
  rw [if_pos (by omega)]

/-- What an iteration does, with what the controller says. -/
theorem process_cases {t t' : Task} {x r} (hp : t.process x = .ok (t', r)) :
    (t' = t ∧ (∀ o, r ≠ .produced o)) ∨
    (∃ tov m, x = some (some tov, m) ∧ t.firstRun = true ∧ r = .cleared ∧
      t' = { t with firstRun := false, lastTov := tov, pid := t.pid.init t.cfg m }) ∨
    ∃ tov m c o, x = some (some tov, m) ∧ t.firstRun = false ∧ t.lastTov ≤ tov ∧
      t.pid.next t.cfg m (tov - t.lastTov) = .ok (c, o) ∧
      t' = { t with lastTov := tov, pid := c } ∧
      ((∀ o', r ≠ .produced o') ∨ r = .produced o ∧ (t.cfg.setpoint.add f32 t.cfg.cutoff).lt m = false ∧
        m.lt (t.cfg.setpoint.sub f32 t.cfg.cutoff) = false) := by
  match x, hp with
  | none, hp => obtain ⟨rfl, rfl⟩ := Prod.mk.inj (Rs.ok.inj hp); exact .inl ⟨rfl, by simp⟩
  | some (none, _), hp => obtain ⟨rfl, rfl⟩ := Prod.mk.inj (Rs.ok.inj hp); exact .inl ⟨rfl, by simp⟩
  | some (some tov, m), hp =>
    unfold Task.process at hp
    simp only at hp
    split at hp
    · rename_i hf
      obtain ⟨rfl, rfl⟩ := Prod.mk.inj (Rs.ok.inj hp)
      exact .inr (.inl ⟨tov, m, rfl, hf, rfl, rfl⟩)
    · rename_i hf
      split at hp
      · cases hp
      · rename_i hle
        cases hn : t.pid.next t.cfg m (tov - t.lastTov) with
        | panic => rw [hn] at hp; cases hp
        | ok y =>
          obtain ⟨c, o⟩ := y
          rw [hn, Rs.ok_bind] at hp
          refine .inr (.inr ⟨tov, m, c, o, rfl, by simpa using hf, by omega, hn, ?_⟩)
          simp only at hp
          split at hp
          · obtain ⟨rfl, rfl⟩ := Prod.mk.inj (Rs.ok.inj hp)
            exact ⟨rfl, .inl (by simp)⟩
          · split at hp
            · obtain ⟨rfl, rfl⟩ := Prod.mk.inj (Rs.ok.inj hp)
              exact ⟨rfl, .inl (by simp)⟩
            · obtain ⟨rfl, rfl⟩ := Prod.mk.inj (Rs.ok.inj hp)
              rename_i h1 h2 _
              exact ⟨rfl, .inr ⟨rfl, by simpa using h1, by simpa using h2⟩⟩

theorem reach_within {cfg : Cfg} (hs : cfg.Sound) {ok : Num → Prop} {t : Task} (h : Reach cfg ok t) :
    t.cfg = cfg ∧ OutWithin cfg t.pid.lastOutput := by
  induction h with
  | new => exact ⟨rfl, within_zero hs.p, within_zero hs.i, within_zero hs.d, within_zero hs.output⟩
  | @process t t' x r h hx hp ih =>
    obtain ⟨rfl, ih⟩ := ih
    rcases process_cases hp with ⟨rfl, -⟩ | ⟨tov, m, -, -, -, rfl⟩ | ⟨tov, m, c, o, -, -, -, hn, rfl, -⟩
    · exact ⟨rfl, ih⟩
    · exact ⟨rfl, ih⟩
    · refine ⟨rfl, ?_⟩
      by_cases hb : t.pid.elapsed + (tov - t.lastTov) < 2 ^ 64
      · obtain ⟨c', o', h1, h2, -⟩ := next_within hs ih m hb
        rw [hn] at h1
        obtain ⟨rfl, rfl⟩ := Prod.mk.inj (Rs.ok.inj h1)
        exact h2
      · rw [next_panic hb] at hn; cases hn
  | stop h ih => exact ih

/-! ### Bounded inputs -/

def OutNum (cfg : Cfg) (o : Out) : Prop :=
  WithinNum o.p cfg.pLimit ∧ WithinNum o.i cfg.iLimit ∧ WithinNum o.d cfg.dLimit ∧ WithinNum o.output cfg.outputLimit

structure Bounded (cfg : Cfg) (c : Controller) : Prop where
  integral : Bd 91 c.integral
  lastError : Bd 21 c.lastError
  out : OutNum cfg c.lastOutput

theorem Small.bd {x : Num} (h : Small x) : Bd 20 x := by
  obtain ⟨q, rfl, h1, h2⟩ := h
  have : pow2 20 = 1048576 := by decide +kernel
  exact ⟨q, rfl, by rw [this, abs_le]; exact ⟨h1, h2⟩⟩

theorem next_bounded {cfg : Cfg} (hs : cfg.Sound) (hsm : cfg.Small) (h0 : 0 < cfg.sampling) {c : Controller}
    (hc : Bounded cfg c) {m : Num} (hm : Small m) {dt : Nat} (hb : c.elapsed + dt < 2 ^ 64) :
    ∃ c' o, c.next cfg m dt = .ok (c', o) ∧ Bounded cfg c' ∧ OutNum cfg o := by
  unfold Controller.next
  simp only
  rw [if_neg (by omega)]
  split
  · exact ⟨_, _, rfl, ⟨hc.integral, hc.lastError, hc.out⟩, hc.out⟩
  · rename_i hsam
    have he : Bd 21 (cfg.setpoint.sub f32 m) := hsm.setpoint.bd.sub hm.bd (by decide) (by decide)
    have ht := elapsed_pos (n := c.elapsed + dt) (by omega) hb
    generalize (cfg.setpoint.sub f32 m) = error at he
    generalize (ofInt f32 ((c.elapsed + dt : Nat) : Int)).div f32 (.fin 1000000) = t at ht
    have num : ∀ {k x}, Bd k x → ∃ q, x = Num.fin q := fun h => ⟨h.choose, h.choose_spec.1⟩
    have hp : Bd 41 (cfg.kp.mul f32 error) := hsm.kp.bd.mul he (by decide) (by decide)
    have hi1 : Bd 66 (error.mul f32 t) := he.mul ht.bd (by decide) (by decide)
    have hi2 : Bd 91 (c.integral.add f32 (error.mul f32 t)) := Bd.acc (k := 66) hc.integral hi1 (by decide) (by decide)
    have hi : Bd 111 (cfg.ki.mul f32 (c.integral.add f32 (error.mul f32 t))) := hsm.ki.bd.mul hi2 (by decide) (by decide)
    have hd1 : Bd 42 ((error.sub f32 c.lastError).div f32 t) :=
      (he.sub hc.lastError (by decide) (by decide)).div ht (by decide) (by decide)
    have hd : Bd 62 (cfg.kd.mul f32 ((error.sub f32 c.lastError).div f32 t)) := hsm.kd.bd.mul hd1 (by decide) (by decide)
    obtain ⟨p, h1, w1, b1⟩ := limit_num hs.p hsm.pLimit.bd (num hp)
    obtain ⟨i, h2, w2, b2⟩ := limit_num hs.i hsm.iLimit.bd (num hi)
    obtain ⟨d, h3, w3, b3⟩ := limit_num hs.d hsm.dLimit.bd (num hd)
    have hu : Bd 22 ((p.add f32 i).add f32 d) :=
      Bd.add (k := 21) (b1.add b2 (by decide) (by decide)) (b3.mono (by decide)) (by decide) (by decide)
    obtain ⟨u, h4, w4, -⟩ := limit_num hs.output hsm.outputLimit.bd (num hu)
    rw [h1, Rs.ok_bind, h2, Rs.ok_bind, h3, Rs.ok_bind, h4, Rs.ok_bind]
    exact ⟨_, _, rfl, ⟨hi2, he, w1, w2, w3, w4⟩, w1, w2, w3, w4⟩

theorem bd_zero (k : Int) : Bd k (.fin 0) := ⟨0, rfl, by simpa using (pow2_pos k).le⟩

theorem num_zero {l : Num} (h : (Num.fin 0).le l = true) : WithinNum (.fin 0) l := by
  rcases within_zero h with h | h
  · cases h
  · exact ⟨⟨0, rfl⟩, h⟩

theorem reach_bounded {cfg : Cfg} (hs : cfg.Sound) (hsm : cfg.Small) (h0 : 0 < cfg.sampling) {t : Task}
    (h : Reach cfg Small t) : t.cfg = cfg ∧ Bounded cfg t.pid := by
  induction h with
  | new => exact ⟨rfl, bd_zero _, bd_zero _, num_zero hs.p, num_zero hs.i, num_zero hs.d, num_zero hs.output⟩
  | @process t t' x r h hx hp ih =>
    obtain ⟨rfl, ih⟩ := ih
    rcases process_cases hp with ⟨rfl, -⟩ | ⟨tov, m, hxm, -, -, rfl⟩ | ⟨tov, m, c, o, hxm, -, -, hn, rfl, -⟩
    · exact ⟨rfl, ih⟩
    · exact ⟨rfl, ih.integral, hsm.setpoint.bd.sub (hx _ _ hxm).bd (by decide) (by decide), ih.out⟩
    · refine ⟨rfl, ?_⟩
      by_cases hb : t.pid.elapsed + (tov - t.lastTov) < 2 ^ 64
      · obtain ⟨c', o', h1, h2, -⟩ := next_bounded hs hsm h0 ih (hx _ _ hxm) hb
        rw [hn] at h1
        obtain ⟨rfl, rfl⟩ := Prod.mk.inj (Rs.ok.inj h1)
        exact h2
      · rw [next_panic hb] at hn; cases hn
  | stop h ih => exact ⟨ih.1, bd_zero _, bd_zero _, ih.2.out⟩

/-! ### Accuracy -/

theorem limit_fin {x l : ℚ} (hl : 0 ≤ l) : limit (.fin x) (.fin l) = .ok (.fin (clampQ x l)) := by
  have hn : (Num.fin l).neg.le (.fin l) = true := by
    simp only [Num.neg, Num.le, decide_eq_true_eq]; linarith
  unfold limit Num.clamp clampQ
  rw [hn]
  simp only [Bool.not_true, Bool.false_eq_true, if_false, Num.neg, Num.lt, decide_eq_true_eq]
  split
  · rename_i h
    rw [min_eq_left (by linarith), max_eq_left h.le]; rfl
  · rename_i h
    split
    · rename_i h'
      rw [min_eq_right h'.le, max_eq_right (by linarith)]; rfl
    · rename_i h'
      rw [min_eq_left (not_lt.1 h'), max_eq_right (not_lt.1 h)]; rfl

/-- A limit does not increase an error. -/
theorem clampQ_lip (x y l : ℚ) : |clampQ x l - clampQ y l| ≤ |x - y| := by
  unfold clampQ
  refine le_trans (abs_max_sub_max_le_max _ _ _ _) (max_le (by simp) ?_)
  exact le_trans (abs_min_sub_min_le_max _ _ _ _) (max_le (le_refl _) (by simp))

theorem clamp_near {x y a b : ℚ} {k t : ℚ} (h : Appr x y a k t) (hk : k ≤ 32) (ht : t ≤ 1 / 10 ^ 18)
    (l : ℚ) (hb : a = b) : Near (clampQ x l) (clampQ y l) b := by
  subst hb
  refine le_trans (clampQ_lip x y l) (le_trans h.err (add_le_add ?_ ht))
  have ha := h.nonneg
  have : k * ulp ≤ 1 / 500000 := by
    have : ulp = 1 / 16777216 := rfl
    rw [this]; linarith
  calc a * (k * ulp) ≤ a * (1 / 500000) := mul_le_mul_of_nonneg_left this ha
    _ = _ := by ring

theorem near_of {x y a b : ℚ} {k t : ℚ} (h : Appr x y a k t) (hk : k ≤ 32) (ht : t ≤ 1 / 10 ^ 18)
    (hb : a = b) : Near x y b := by
  subst hb
  refine le_trans h.err (add_le_add ?_ ht)
  have ha := h.nonneg
  have : k * ulp ≤ 1 / 500000 := by
    have : ulp = 1 / 16777216 := rfl
    rw [this]; linarith
  calc a * (k * ulp) ≤ a * (1 / 500000) := mul_le_mul_of_nonneg_left this ha
    _ = _ := by ring

theorem bd_rnd {q : ℚ} {k : Int} (h : Bd k (round f32 q)) : round f32 q = .fin (rnd f32 q) := by
  obtain ⟨v, h1, -⟩ := h
  rw [round_eq] at h1 ⊢
  split at h1
  · cases h1
  · rename_i h2
    rw [if_neg h2]
    split at h1
    · cases h1
    · rename_i h3
      rw [if_neg h3]

/-- The time in milliseconds, up to its roundings. -/
theorem elapsed_near {n : Nat} (h0 : 0 < n) (h1 : n < 2 ^ 64) :
    ∃ q : ℚ, (ofInt f32 n).div f32 (.fin 1000000) = .fin q ∧ |q - (n : ℚ) / 1000000| ≤ (n : ℚ) / 1000000 * (8 * ulp) := by
  have n1 : (1 : ℚ) ≤ (n : ℚ) := by exact_mod_cast h0
  have n2 : (n : ℚ) ≤ pow2 64 := by
    have : (n : ℚ) ≤ ((2 ^ 64 : Nat) : ℚ) := by exact_mod_cast h1.le
    exact this
  have e : ofInt f32 n = .fin (rnd f32 (n : ℚ)) := by
    obtain ⟨v, h2, h3, -⟩ := round_bound (q := (n : ℚ)) (k := 64) (by decide) (by decide)
      (by rw [abs_of_nonneg (by linarith)]; exact n2)
    unfold ofInt
    rw [← h3, ← h2]
    congr 1
  have hd := elapsed_pos h0 h1
  rw [e] at hd ⊢
  simp only [Num.div, if_neg (show (1000000 : ℚ) ≠ 0 by norm_num)] at hd ⊢
  refine ⟨_, bd_rnd hd.bd, ?_⟩
  have a1 := ((Appr.exact (n : ℚ)).rnd (le_refl _) (by norm_num) (le_refl _)).div (z := 1000000) (w := 1000000)
    (l := 0) (by simp) (by norm_num) (by norm_num) (by norm_num) (le_refl _) (by norm_num)
  have a2 := a1.rnd (by norm_num) (by norm_num) (by have := tiny_pos; positivity)
  have h := a2.err
  have tp := tiny_pos
  have tl : tiny ≤ pow2 (-60) := tiny_le (by decide)
  have p60 : pow2 (-60) = 1 / 1152921504606846976 := by decide +kernel
  have u : ulp = 1 / 16777216 := rfl
  rw [abs_of_nonneg (by linarith : (0 : ℚ) ≤ n)] at h
  refine le_trans h ?_
  rw [p60] at tl
  rw [u]
  norm_num
  linarith

theorem next_near {cfg : Cfg} (hs : cfg.Sound) (hsm : cfg.Small) (h0 : 0 < cfg.sampling) {g : Gains} (hg : cfg.Is g)
    {c : Controller} (hc : Bounded cfg c) {m : ℚ} (hm : Small (.fin m)) {dt : Nat} (hb : c.elapsed + dt < 2 ^ 64)
    (hsam : cfg.sampling ≤ c.elapsed + dt) :
    ∃ I L I' L' p i d u : ℚ, c.integral = .fin I ∧ c.lastError = .fin L ∧
      c.next cfg (.fin m) dt =
        .ok (⟨.fin I', .fin L', 0, ⟨.fin p, .fin i, .fin d, .fin u⟩⟩, ⟨.fin p, .fin i, .fin d, .fin u⟩) ∧
      Near L' (g.setpoint - m) |g.setpoint - m| ∧
      Near I' (I + (g.setpoint - m) * (((c.elapsed + dt : Nat) : ℚ) / 1000000))
        (|I| + |g.setpoint - m| * (((c.elapsed + dt : Nat) : ℚ) / 1000000)) ∧
      Near p (clampQ (g.kp * (g.setpoint - m)) g.pLimit) (|g.kp| * |g.setpoint - m|) ∧
      Near i (clampQ (g.ki * I') g.iLimit) (|g.ki| * |I'|) ∧
      Near d (clampQ (g.kd * ((g.setpoint - m - L) / (((c.elapsed + dt : Nat) : ℚ) / 1000000))) g.dLimit)
        (|g.kd| * ((|g.setpoint - m| + |L|) / (((c.elapsed + dt : Nat) : ℚ) / 1000000))) ∧
      Near u (clampQ (p + i + d) g.outputLimit) (|p| + |i| + |d|) := by
  obtain ⟨k1, k2, k3, k4, k5, k6, k7, k8⟩ := hg
  obtain ⟨I, hI, bI⟩ := hc.integral
  obtain ⟨L, hL, bL⟩ := hc.lastError
  have n0 : 0 < c.elapsed + dt := by omega
  obtain ⟨q, hq, nq⟩ := elapsed_near n0 hb
  have ht := elapsed_pos n0 hb
  have T0 : (1 : ℚ) ≤ ((c.elapsed + dt : Nat) : ℚ) := by exact_mod_cast n0
  have T1 : ((c.elapsed + dt : Nat) : ℚ) ≤ 18446744073709551616 := by exact_mod_cast hb.le
  generalize hT : ((c.elapsed + dt : Nat) : ℚ) / 1000000 = T at *
  have T2 : 1 / 1000000 ≤ T := by rw [← hT]; linarith
  have T3 : T ≤ 18446744073710 := by rw [← hT]; linarith
  have Tpos : 0 < T := by linarith
  -- magnitudes
  have he : Bd 21 (cfg.setpoint.sub f32 (.fin m)) := hsm.setpoint.bd.sub hm.bd (by decide) (by decide)
  have hp : Bd 41 (cfg.kp.mul f32 (cfg.setpoint.sub f32 (.fin m))) := hsm.kp.bd.mul he (by decide) (by decide)
  have hi1 := he.mul ht.bd (by decide) (by decide)
  have hi2 := Bd.acc (k := 66) hc.integral hi1 (by decide) (by decide)
  have hi := hsm.ki.bd.mul hi2 (by decide) (by decide)
  have hd0 := he.sub hc.lastError (by decide) (by decide)
  have hd1 := hd0.div ht (by decide) (by decide)
  have hd := hsm.kd.bd.mul hd1 (by decide) (by decide)
  -- the roundings
  have qpos : q ≠ 0 := by
    rw [hq] at ht
    obtain ⟨q', h1, h2, -⟩ := ht
    have := pow2_pos (-20)
    rw [Num.fin.inj h1]
    intro h; rw [h] at h2; linarith
  have e1 : cfg.setpoint.sub f32 (.fin m) = .fin (rnd f32 (g.setpoint - m)) := by
    rw [k4] at he ⊢
    simp only [Num.sub, Num.neg, Num.add, ← sub_eq_add_neg] at he ⊢
    exact bd_rnd he
  rw [e1] at hp hi1 hi2 hi hd0 hd1 hd
  rw [k1] at hp; rw [hq] at hi1 hi2 hi hd1 hd; rw [hI] at hi2 hi; rw [k2] at hi; rw [hL] at hd0 hd1 hd; rw [k3] at hd
  have e2 := bd_rnd hp
  have e3 := bd_rnd hi1
  have e3' : (Num.fin (rnd f32 (g.setpoint - m))).mul f32 (.fin q) = .fin (rnd f32 (rnd f32 (g.setpoint - m) * q)) := e3
  rw [e3'] at hi2 hi
  have e4 := bd_rnd hi2
  have e4' : (Num.fin I).add f32 (.fin (rnd f32 (rnd f32 (g.setpoint - m) * q))) =
    .fin (rnd f32 (I + rnd f32 (rnd f32 (g.setpoint - m) * q))) := e4
  rw [e4'] at hi
  have e5 := bd_rnd hi
  have e6 : (Num.fin (rnd f32 (g.setpoint - m))).sub f32 (.fin L) = .fin (rnd f32 (rnd f32 (g.setpoint - m) - L)) := by
    simp only [Num.sub, Num.neg, Num.add, ← sub_eq_add_neg] at hd0 ⊢
    exact bd_rnd hd0
  rw [e6] at hd1 hd
  have e7 : (Num.fin (rnd f32 (rnd f32 (g.setpoint - m) - L))).div f32 (.fin q) =
      .fin (rnd f32 (rnd f32 (rnd f32 (g.setpoint - m) - L) / q)) := by
    simp only [Num.div, if_neg qpos] at hd1 ⊢
    exact bd_rnd hd1
  rw [e7] at hd
  have e8 := bd_rnd hd
  generalize hI' : rnd f32 (I + rnd f32 (rnd f32 (g.setpoint - m) * q)) = I' at *
  have hl : ∀ {x : Num} {l : ℚ}, (Num.fin 0).le x = true → x = .fin l → 0 ≤ l := by
    intro x l h h'; rw [h'] at h; simpa [Num.le] using h
  have lp := hl hs.p k5
  have li := hl hs.i k6
  have ld := hl hs.d k7
  have lo := hl hs.output k8
  -- the output
  have b : ∀ {l y : ℚ}, 0 ≤ l → l ≤ 1048576 → Bd 20 (.fin (clampQ y l)) := by
    intro l y h0 h1
    have : pow2 20 = 1048576 := by decide +kernel
    refine ⟨_, rfl, ?_⟩
    rw [this, abs_le]
    unfold clampQ
    exact ⟨le_trans (by linarith) (le_max_left _ _), max_le (by linarith) (le_trans (min_le_right _ _) h1)⟩
  have sm : ∀ {x : Num} {l : ℚ}, Small x → x = .fin l → l ≤ 1048576 := by
    intro x l h h'
    obtain ⟨y, h1, -, h2⟩ := h
    rw [h1] at h'
    rw [← Num.fin.inj h']; exact h2
  generalize hP : clampQ (rnd f32 (g.kp * rnd f32 (g.setpoint - m))) g.pLimit = P
  generalize hQ : clampQ (rnd f32 (g.ki * I')) g.iLimit = Q
  generalize hR : clampQ (rnd f32 (g.kd * rnd f32 (rnd f32 (rnd f32 (g.setpoint - m) - L) / q))) g.dLimit = R
  have bP : Bd 20 (.fin P) := hP ▸ b lp (sm hsm.pLimit k5)
  have bQ : Bd 20 (.fin Q) := hQ ▸ b li (sm hsm.iLimit k6)
  have bR : Bd 20 (.fin R) := hR ▸ b ld (sm hsm.dLimit k7)
  have hu1 := bP.add bQ (by decide) (by decide)
  have e9 := bd_rnd hu1
  have e9' : (Num.fin P).add f32 (.fin Q) = .fin (rnd f32 (P + Q)) := e9
  have hu2 := hu1.add (bR.mono (show (20 : Int) ≤ 20 + 1 by decide)) (by decide) (by decide)
  rw [e9'] at hu2
  have e10 := bd_rnd hu2
  have e10' : (Num.fin (rnd f32 (P + Q))).add f32 (.fin R) = .fin (rnd f32 (rnd f32 (P + Q) + R)) := e10
  refine ⟨I, L, I', rnd f32 (g.setpoint - m), P, Q, R, clampQ (rnd f32 (rnd f32 (P + Q) + R)) g.outputLimit,
    hI, hL, ?_, ?_⟩
  · unfold Controller.next
    simp only
    rw [if_neg (by omega), if_neg (by omega), hq, e1, hI, hL, e3', e4', k1, k2, k3, k5, k6, k7, k8, e6, e7]
    have e2' : (Num.fin g.kp).mul f32 (.fin (rnd f32 (g.setpoint - m))) = .fin (rnd f32 (g.kp * rnd f32 (g.setpoint - m))) := e2
    have e5' : (Num.fin g.ki).mul f32 (.fin I') = .fin (rnd f32 (g.ki * I')) := e5
    have e8' : (Num.fin g.kd).mul f32 (.fin (rnd f32 (rnd f32 (rnd f32 (g.setpoint - m) - L) / q))) =
      .fin (rnd f32 (g.kd * rnd f32 (rnd f32 (rnd f32 (g.setpoint - m) - L) / q))) := e8
    rw [e2', limit_fin lp, Rs.ok_bind, e5', limit_fin li, Rs.ok_bind, e8', limit_fin ld, Rs.ok_bind, hP, hQ, hR, e9', e10',
      limit_fin lo, Rs.ok_bind]
  · have tp := tiny_pos
    have tl : tiny ≤ 1 / 10 ^ 40 := le_trans (tiny_le (k := -140) (by decide)) (by decide +kernel)
    have small : ∀ {x : Num} {l : ℚ}, Small x → x = .fin l → |l| ≤ 1048576 := by
      intro x l h h'
      obtain ⟨y, h1, h2, h3⟩ := h
      rw [h1] at h'
      rw [← Num.fin.inj h', abs_le]; exact ⟨h2, h3⟩
    have akp := small hsm.kp k1
    have aki := small hsm.ki k2
    have akd := small hsm.kd k3
    have ae := (Appr.exact (g.setpoint - m)).rnd (le_refl _) (by norm_num) (le_refl _)
    have aq : Appr q T T 8 0 := ⟨by rw [abs_of_pos Tpos], by linarith⟩
    refine ⟨near_of ae (by norm_num) (by linarith) rfl, ?_, ?_, ?_, ?_, ?_⟩
    · have a1 := ((ae.mul aq (by norm_num) (by norm_num) (by norm_num) (by norm_num) (by linarith) (le_refl _)).rnd
        (by norm_num) (by norm_num) (by nlinarith))
      have a2 := (((Appr.exact I).weaken (l := 2 * (0 + 2) + 8 + 2) (s := 0) (by norm_num) (le_refl _)).add a1).rnd
        (by norm_num) (by norm_num) (by nlinarith)
      rw [hI'] at a2
      exact near_of a2 (by norm_num) (by nlinarith) rfl
    · have a1 := ((Appr.exact g.kp).mul ae (le_refl _) (by norm_num) (by norm_num) (by norm_num) (le_refl _)
        (by linarith)).rnd (by norm_num) (by norm_num) (by have := abs_nonneg g.kp; nlinarith)
      rw [← hP]
      exact clamp_near a1 (by norm_num) (by nlinarith) _ rfl
    · have a1 := ((Appr.exact g.ki).mul (Appr.exact I') (le_refl _) (by norm_num) (le_refl _) (by norm_num) (le_refl _)
        (le_refl _)).rnd (by norm_num) (by norm_num) (by norm_num)
      rw [← hQ]
      exact clamp_near a1 (by norm_num) (by linarith) _ rfl
    · have a1 := (ae.sub ((Appr.exact L).weaken (l := 0 + 2) (s := 0) (by norm_num) (le_refl _))).rnd (by norm_num)
        (by norm_num) (by linarith)
      have t1 : 2 * (2 * (2 * 0 + tiny + 0) + tiny) / T ≤ 1 / 10 ^ 30 := by
        rw [div_le_iff₀ Tpos]; nlinarith
      have t0 : 0 ≤ 2 * (2 * (2 * 0 + tiny + 0) + tiny) / T := by positivity
      have a2 := (a1.div nq Tpos (by norm_num) (by norm_num) (by norm_num) (by norm_num)).rnd (by norm_num)
        (by norm_num) t0
      have a3 := ((Appr.exact g.kd).mul a2 (le_refl _) (by norm_num) (by norm_num) (by norm_num) (le_refl _)
        (by linarith)).rnd (by norm_num) (by norm_num) (by have := abs_nonneg g.kd; nlinarith)
      rw [← hR]
      refine clamp_near a3 (by norm_num) ?_ _ rfl
      have := abs_nonneg g.kd
      nlinarith
    · have a1 := ((Appr.exact P).add (Appr.exact Q)).rnd (le_refl _) (by norm_num) (by norm_num)
      have a2 := (a1.add ((Appr.exact R).weaken (l := 0 + 2) (s := 0) (by norm_num) (le_refl _))).rnd (by norm_num)
        (by norm_num) (by linarith)
      exact clamp_near a2 (by norm_num) (by linarith) _ rfl

end PidFp
end Verif
