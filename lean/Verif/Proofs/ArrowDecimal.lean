import Verif.Spec.ArrowDecimal
import Verif.Proofs.ArrowArity
import Mathlib.Algebra.Order.Field.Power
import Mathlib.Tactic.FieldSimp
import Mathlib.Tactic.Linarith
import Mathlib.Tactic.Positivity
import Mathlib.Tactic.Ring
/-! Lemmas for C103. -/
namespace Verif
namespace Arrow

theorem worth_add (x y s : Int) : worth (x + y) s = worth x s + worth y s := by
  unfold worth; push_cast; ring

theorem worth_sub (x y s : Int) : worth (x - y) s = worth x s - worth y s := by
  unfold worth; push_cast; ring

theorem worth_mul (x y s u : Int) : worth (x * y) (s + u) = worth x s * worth y u := by
  unfold worth
  rw [neg_add, zpow_add₀ (by norm_num)]
  push_cast; ring

theorem worth_shift (a s : Int) (k : Nat) : worth (a * 10 ^ k) (s + k) = worth a s := by
  unfold worth
  rw [neg_add, zpow_add₀ (by norm_num), zpow_neg (10 : ℚ) (k : Int), zpow_natCast]
  push_cast
  field_simp

theorem worth_ne {b s : Int} (h : b ≠ 0) : worth b s ≠ 0 := by
  unfold worth
  have : (b : ℚ) ≠ 0 := by exact_mod_cast h
  positivity

theorem tmod_bounds (x : Int) {y : Int} (h : y ≠ 0) :
    (x.tmod y).natAbs < y.natAbs ∧ (0 ≤ x → 0 ≤ x.tmod y) ∧ (x ≤ 0 → x.tmod y ≤ 0) := by
  refine ⟨?_, fun hx => Int.tmod_nonneg _ hx, fun hx => ?_⟩
  · rw [Int.natAbs_tmod]
    exact Nat.mod_lt _ (by omega)
  · have := Int.tmod_nonneg y (a := -x) (by omega)
    rw [Int.neg_tmod] at this
    omega

theorem cut_div {x y : Int} (h : y ≠ 0) : cut ((x : ℚ) / y) = x.tdiv y := by
  have e : x = y * x.tdiv y + x.tmod y := (Int.mul_tdiv_add_tmod x y).symm
  have hy : (y : ℚ) ≠ 0 := by exact_mod_cast h
  obtain ⟨h1, h2, h3⟩ := tmod_bounds x h
  have q : (x : ℚ) / y = x.tdiv y + (x.tmod y : ℚ) / y := by
    have : (x : ℚ) = y * x.tdiv y + x.tmod y := by exact_mod_cast e
    rw [this]
    field_simp
  rw [q]
  generalize x.tdiv y = d at *
  generalize hr : x.tmod y = r at *
  have main : ∀ {r y : Int}, r.natAbs < y.natAbs → 0 < y → (0 ≤ r → (0 : ℚ) ≤ r / y ∧ (r : ℚ) / y < 1) ∧
      (r ≤ 0 → (r : ℚ) / y ≤ 0 ∧ -1 < (r : ℚ) / y) := by
    intro r y h hp
    have hp' : (0 : ℚ) < y := by exact_mod_cast hp
    constructor
    · intro h0
      have a : (r : ℚ) < y := by exact_mod_cast (by omega : r < y)
      have b : (0 : ℚ) ≤ r := by exact_mod_cast h0
      exact ⟨by positivity, by rw [div_lt_one hp']; exact a⟩
    · intro h0
      have a : (-y : ℚ) < r := by exact_mod_cast (by omega : -y < r)
      have b : (r : ℚ) ≤ 0 := by exact_mod_cast h0
      exact ⟨div_nonpos_of_nonpos_of_nonneg b hp'.le, by rw [lt_div_iff₀ hp']; linarith⟩
  have up : 0 ≤ (r : ℚ) / y → (r : ℚ) / y < 1 := by
    intro _
    rcases Int.lt_or_gt_of_ne h with hn | hp
    · rcases Int.le_total 0 r with h0 | h0
      · have := ((main (r := r) (y := -y) (by omega) (by omega)).1 h0).1
        push_cast at this
        rw [div_neg] at this
        linarith
      · have := ((main (r := r) (y := -y) (by omega) (by omega)).2 h0).2
        push_cast at this
        rw [div_neg] at this
        linarith
    · rcases Int.le_total 0 r with h0 | h0
      · exact ((main (r := r) (y := y) (by omega) (by omega)).1 h0).2
      · have := ((main (r := r) (y := y) (by omega) (by omega)).2 h0).1
        linarith
  have down : -1 < (r : ℚ) / y := by
    rcases Int.lt_or_gt_of_ne h with hn | hp
    · rcases Int.le_total 0 r with h0 | h0
      · have := ((main (r := r) (y := -y) (by omega) (by omega)).1 h0).2
        push_cast at this
        rw [div_neg] at this
        linarith
      · have := ((main (r := r) (y := -y) (by omega) (by omega)).2 h0).1
        push_cast at this
        rw [div_neg] at this
        linarith
    · rcases Int.le_total 0 r with h0 | h0
      · have := ((main (r := r) (y := y) (by omega) (by omega)).1 h0).1
        linarith
      · exact ((main (r := r) (y := y) (by omega) (by omega)).2 h0).2
  have sgn : (0 ≤ (x : ℚ) / y → 0 ≤ (r : ℚ) / y) ∧ ((x : ℚ) / y < 0 → (r : ℚ) / y ≤ 0) := by
    have cp : ∀ z : Int, 0 ≤ z → (0 : ℚ) ≤ z := fun z hz => by exact_mod_cast hz
    have cn : ∀ z : Int, z ≤ 0 → (z : ℚ) ≤ 0 := fun z hz => by exact_mod_cast hz
    rcases Int.lt_or_gt_of_ne h with hn | hp
    · have hyn : (y : ℚ) < 0 := by exact_mod_cast hn
      constructor
      · intro hq
        have : (x : ℚ) ≤ 0 := by
          by_contra hc
          exact absurd (div_neg_of_pos_of_neg (not_le.1 hc) hyn) (not_lt.2 hq)
        exact div_nonneg_of_nonpos (cn _ (h3 (by exact_mod_cast this))) hyn.le
      · intro hq
        have : (0 : ℚ) ≤ x := by
          by_contra hc
          exact absurd (div_pos_of_neg_of_neg (not_le.1 hc) hyn) (not_lt.2 hq.le)
        exact div_nonpos_of_nonneg_of_nonpos (cp _ (h2 (by exact_mod_cast this))) hyn.le
    · have hyp : (0 : ℚ) < y := by exact_mod_cast hp
      constructor
      · intro hq
        have : (0 : ℚ) ≤ x := by
          by_contra hc
          exact absurd (div_neg_of_neg_of_pos (not_le.1 hc) hyp) (not_lt.2 hq)
        exact div_nonneg (cp _ (h2 (by exact_mod_cast this))) hyp.le
      · intro hq
        have : (x : ℚ) ≤ 0 := by
          by_contra hc
          exact absurd (div_pos (not_le.1 hc) hyp) (not_lt.2 hq.le)
        exact div_nonpos_of_nonpos_of_nonneg (cn _ (h3 (by exact_mod_cast this))) hyp.le
  rw [q] at sgn
  unfold cut
  split
  · rename_i h0
    have := up (sgn.1 h0)
    have := sgn.1 h0
    rw [Int.floor_eq_iff]
    constructor <;> linarith
  · rename_i h0
    have := sgn.2 (not_le.1 h0)
    rw [Int.ceil_eq_iff]
    constructor <;> linarith

theorem scaled_cases {N : Native} (hb : 0 < N.bits) (f : Int → Int → Except ArrowErr Int) (m1 m2 a b : Int) :
    (N.Holds (a * m1) ∧ N.Holds (b * m2) ∧ scaled N f m1 m2 a b = f (a * m1) (b * m2)) ∨
    ((¬ N.Holds (a * m1) ∨ ¬ N.Holds (b * m2)) ∧ scaled N f m1 m2 a b = .error .overflow) := by
  unfold scaled
  rcases check_ok hb (a * m1) with ⟨h1, e1⟩ | ⟨h1, e1⟩
  · rcases check_ok hb (b * m2) with ⟨h2, e2⟩ | ⟨h2, e2⟩
    · left
      refine ⟨h1, h2, ?_⟩
      rw [e1, e2]
      rfl
    · right
      refine ⟨.inr h2, ?_⟩
      rw [e1, e2]
      rfl
  · right
    refine ⟨.inl h1, ?_⟩
    rw [e1]
    rfl

/-- What each operation does with two elements. -/
def Op.element (D : Decimal) (op : Op) (t1 t2 : DecTy) : Int → Int → Except ArrowErr Int :=
  let m1 := 10 ^ (op.shifts D t1 t2).1
  let m2 := 10 ^ (op.shifts D t1 t2).2
  match op with
  | .add | .addWrapping => scaled D.native (fun x y => D.native.check (x + y)) m1 m2
  | .sub | .subWrapping => scaled D.native (fun x y => D.native.check (x - y)) m1 m2
  | .mul | .mulWrapping => fun x y => D.native.check (x * y)
  | .div => scaled D.native D.native.divChecked m1 m2
  | .rem => scaled D.native D.native.modChecked m1 m2

theorem worth_left (a : Int) (t1 t2 : DecTy) :
    worth (a * 10 ^ (t2.s - t1.s).toNat) (max t1.s t2.s) = worth a t1.s := by
  rw [← worth_shift a t1.s (t2.s - t1.s).toNat]
  congr 1
  omega

theorem worth_right (a : Int) (t1 t2 : DecTy) :
    worth (a * 10 ^ (t1.s - t2.s).toNat) (max t1.s t2.s) = worth a t2.s := by
  rw [← worth_shift a t2.s (t1.s - t2.s).toNat]
  congr 1
  omega

theorem worth_div {x y s : Int} : worth x s / worth y s = (x : ℚ) / y := by
  unfold worth
  have : (10 : ℚ) ^ (-s) ≠ 0 := by positivity
  rw [mul_div_mul_right _ _ this]

theorem quotient {a b : Int} {s s1 s2 : Int} :
    worth a s1 / worth b s2 * 10 ^ s =
      ((a * 10 ^ (s - s1 + s2).toNat : Int) : ℚ) / ((b * 10 ^ (-(s - s1 + s2)).toNat : Int) : ℚ) := by
  have e : (10 : ℚ) ^ (s - s1 + s2) = 10 ^ (s - s1 + s2).toNat / 10 ^ (-(s - s1 + s2)).toNat := by
    rw [← zpow_natCast, ← zpow_natCast, ← zpow_sub₀ (by norm_num)]
    congr 1
    omega
  have e' : worth a s1 / worth b s2 * 10 ^ s = (a : ℚ) / b * 10 ^ (s - s1 + s2) := by
    unfold worth
    rw [show s - s1 + s2 = s + -s1 - -s2 by ring, zpow_sub₀ (by norm_num), zpow_add₀ (by norm_num)]
    have h1 : (10 : ℚ) ^ (-s2) ≠ 0 := by positivity
    by_cases hb : (b : ℚ) = 0
    · rw [hb]; simp
    · field_simp
  rw [e', e]
  push_cast
  rw [div_mul_div_comm]

theorem tmod_sub (x y : Int) : x.tmod y = x - y * x.tdiv y := by
  have := Int.mul_tdiv_add_tmod x y
  omega

theorem element_right {D : Decimal} (hb : 0 < D.native.bits) (op : Op) (t1 t2 : DecTy) (a b : Int) :
    DecRight D op t1 t2 a b (op.element D t1 t2 a b) := by
  have add : ∀ op : Op, op.shifts D t1 t2 = ((t2.s - t1.s).toNat, (t1.s - t2.s).toNat) →
      op.scale D t1 t2 = max t1.s t2.s → ∀ f : Int → Int → Int,
      op.numbers D t1 t2 a b = [a * 10 ^ (t2.s - t1.s).toNat, b * 10 ^ (t1.s - t2.s).toNat,
        f (a * 10 ^ (t2.s - t1.s).toNat) (b * 10 ^ (t1.s - t2.s).toNat)] →
      op.decimal t1 t2 (max t1.s t2.s) a b (f (a * 10 ^ (t2.s - t1.s).toNat) (b * 10 ^ (t1.s - t2.s).toNat)) →
      DecRight D op t1 t2 a b
        (scaled D.native (fun x y => D.native.check (f x y)) (10 ^ (t2.s - t1.s).toNat) (10 ^ (t1.s - t2.s).toNat) a b) := by
    intro op h1 h2 f h3 h4
    rcases scaled_cases hb (fun x y => D.native.check (f x y)) (10 ^ (t2.s - t1.s).toNat) (10 ^ (t1.s - t2.s).toNat) a b
      with ⟨u, v, e⟩ | ⟨u, e⟩
    · rw [e]
      rcases check_ok hb (f (a * 10 ^ (t2.s - t1.s).toNat) (b * 10 ^ (t1.s - t2.s).toNat)) with ⟨w, e⟩ | ⟨w, e⟩
      · simp only [e, DecRight, h2, h3]
        refine ⟨h4, ?_⟩
        simp [u, v, w]
      · simp only [e, DecRight, h3]
        right
        exact ⟨trivial, _, by simp, w⟩
    · simp only [e, DecRight, h3]
      right
      refine ⟨trivial, ?_⟩
      rcases u with u | u
      · exact ⟨_, by simp, u⟩
      · exact ⟨_, List.mem_cons_of_mem _ (List.mem_cons_self ..), u⟩
  have quo : ∀ op : Op, (op = .div ∨ op = .rem) → ∀ f : Int → Int → Except ArrowErr Int,
      (∀ x y, y = 0 → f x y = .error .divZero) →
      (∀ x y, y ≠ 0 → ¬ D.native.Holds (x.tdiv y) → f x y = .error .overflow) →
      (∀ x y, x = a * 10 ^ (op.shifts D t1 t2).1 → y = b * 10 ^ (op.shifts D t1 t2).2 → y ≠ 0 →
        D.native.Holds (x.tdiv y) → ∃ v, f x y = .ok v ∧ op.decimal t1 t2 (op.scale D t1 t2) a b v) →
      DecRight D op t1 t2 a b
        (scaled D.native f (10 ^ (op.shifts D t1 t2).1) (10 ^ (op.shifts D t1 t2).2) a b) := by
    intro op hop f h0 h1 h2
    have h3 : op.numbers D t1 t2 a b = [a * 10 ^ (op.shifts D t1 t2).1, b * 10 ^ (op.shifts D t1 t2).2,
        (a * 10 ^ (op.shifts D t1 t2).1).tdiv (b * 10 ^ (op.shifts D t1 t2).2)] := by
      rcases hop with rfl | rfl <;> rfl
    rcases scaled_cases hb f (10 ^ (op.shifts D t1 t2).1) (10 ^ (op.shifts D t1 t2).2) a b
      with ⟨u, v, e⟩ | ⟨u, e⟩
    · rw [e]
      by_cases hz : b * 10 ^ (op.shifts D t1 t2).2 = 0
      · rw [h0 _ _ hz]
        left
        refine ⟨rfl, hop, ?_⟩
        rcases Int.mul_eq_zero.1 hz with h | h
        · exact h
        · exact absurd h (by positivity)
      · by_cases hh : D.native.Holds ((a * 10 ^ (op.shifts D t1 t2).1).tdiv (b * 10 ^ (op.shifts D t1 t2).2))
        · obtain ⟨r, e, hd⟩ := h2 _ _ rfl rfl hz hh
          rw [e]
          refine ⟨hd, ?_⟩
          rw [h3]
          simp [u, v, hh]
        · rw [h1 _ _ hz hh]
          right
          exact ⟨rfl, _, by rw [h3]; simp, hh⟩
    · rw [e]
      right
      refine ⟨rfl, ?_⟩
      rw [h3]
      rcases u with u | u
      · exact ⟨_, by simp, u⟩
      · exact ⟨_, List.mem_cons_of_mem _ (List.mem_cons_self ..), u⟩
  have mul : ∀ op : Op, op = .mul ∨ op = .mulWrapping → DecRight D op t1 t2 a b (D.native.check (a * b)) := by
    intro op hop
    have h3 : op.numbers D t1 t2 a b = [a * b] := by
      rcases hop with rfl | rfl <;> simp [Op.numbers, Op.shifts]
    rcases check_ok hb (a * b) with ⟨w, e⟩ | ⟨w, e⟩
    · rw [e]
      refine ⟨?_, by rw [h3]; simpa using w⟩
      rcases hop with rfl | rfl <;> exact worth_mul _ _ _ _
    · rw [e]
      exact .inr ⟨rfl, _, by rw [h3]; simp, w⟩
  have nz : ∀ op : Op, b * 10 ^ (op.shifts D t1 t2).2 ≠ 0 → b ≠ 0 := by
    intro op h hb
    rw [hb, Int.zero_mul] at h
    exact h rfl
  cases op with
  | add => exact add .add rfl rfl (· + ·) rfl (by
      show worth (_ + _) _ = _
      rw [worth_add, worth_left, worth_right])
  | addWrapping => exact add .addWrapping rfl rfl (· + ·) rfl (by
      show worth (_ + _) _ = _
      rw [worth_add, worth_left, worth_right])
  | sub => exact add .sub rfl rfl (· - ·) rfl (by
      show worth (_ - _) _ = _
      rw [worth_sub, worth_left, worth_right])
  | subWrapping => exact add .subWrapping rfl rfl (· - ·) rfl (by
      show worth (_ - _) _ = _
      rw [worth_sub, worth_left, worth_right])
  | mul => exact mul _ (.inl rfl)
  | mulWrapping => exact mul _ (.inr rfl)
  | div =>
    refine quo .div (.inl rfl) D.native.divChecked ?_ ?_ ?_
    · intro x y h; exact if_pos h
    · intro x y h hh
      unfold Native.divChecked
      rw [if_neg h]
      rcases check_ok hb (x.tdiv y) with ⟨w, e⟩ | ⟨w, e⟩
      · exact absurd w hh
      · exact e
    · rintro x y rfl rfl h hh
      unfold Native.divChecked
      rw [if_neg h]
      rcases check_ok hb ((a * 10 ^ (Op.div.shifts D t1 t2).1).tdiv (b * 10 ^ (Op.div.shifts D t1 t2).2)) with ⟨w, e⟩ | ⟨w, e⟩
      · refine ⟨_, e, nz _ h, ?_⟩
        show _ = cut (worth a t1.s / worth b t2.s * 10 ^ (min (t1.s + 4) (D.max : Int)))
        have h' : b * 10 ^ (-(min (t1.s + 4) (D.max : Int) - t1.s + t2.s)).toNat ≠ 0 := h
        rw [quotient, cut_div h']
        rfl
      · exact absurd hh w
  | rem =>
    refine quo .rem (.inr rfl) D.native.modChecked ?_ ?_ ?_
    · intro x y h; exact if_pos h
    · intro x y h hh
      unfold Native.modChecked
      rw [if_neg h]
      rcases check_ok hb (x.tdiv y) with ⟨w, e⟩ | ⟨w, e⟩
      · exact absurd w hh
      · rw [e]
    · rintro x y rfl rfl h hh
      unfold Native.modChecked
      rw [if_neg h]
      rcases check_ok hb ((a * 10 ^ (Op.rem.shifts D t1 t2).1).tdiv (b * 10 ^ (Op.rem.shifts D t1 t2).2)) with ⟨w, e⟩ | ⟨w, e⟩
      · rw [e]
        refine ⟨_, rfl, nz _ h, ?_⟩
        have h' : b * 10 ^ (t1.s - t2.s).toNat ≠ 0 := h
        show worth ((a * 10 ^ (t2.s - t1.s).toNat).tmod (b * 10 ^ (t1.s - t2.s).toNat)) (max t1.s t2.s) = _
        rw [← worth_left a t1 t2, ← worth_right b t1 t2, worth_div, cut_div h', tmod_sub, worth_sub]
        congr 1
        unfold worth
        push_cast
        ring
      · exact absurd hh w

theorem i8_ok {o : Overflow} {x : Int} (h : -128 ≤ x) (h' : x ≤ 127) : i8 o x = .ok x := if_pos ⟨h, h'⟩

theorem asU8_ok {x : Int} (h : 0 ≤ x) (h' : x ≤ 255) : asU8 x = x.toNat := by
  unfold asU8
  rw [Int.emod_eq_of_lt h (by omega)]

theorem asU32_ok {x : Int} (h : 0 ≤ x) (h' : x ≤ 127) : asU32 x = x.toNat := by
  unfold asU32
  rw [Int.emod_eq_of_lt h (by omega)]

/-- The two types of decimals. -/
structure Real (D : Decimal) : Prop where
  signed : D.native.signed = true
  bits : 0 < D.native.bits
  top : D.max ≤ 76
  least : 38 ≤ D.max
  room : (10 : Int) ^ D.max < 2 ^ (D.native.bits - 1)

theorem real {D : Decimal} (h : D = decimal128 ∨ D = decimal256) : Real D := by
  rcases h with rfl | rfl
  · exact ⟨rfl, by decide, by decide, by decide, by norm_num [decimal128]⟩
  · exact ⟨rfl, by decide, by decide, by decide, by norm_num [decimal256]⟩

theorem Real.holds {D : Decimal} (h : Real D) {x : Int} (hx : |x| ≤ 10 ^ D.max) : D.native.Holds x := by
  have := h.room
  unfold Native.Holds
  rw [if_pos h.signed]
  rw [abs_le] at hx
  constructor <;> linarith [hx.1, hx.2]

theorem Real.pow {D : Decimal} (h : Real D) {k : Nat} (hk : k ≤ D.max) : D.native.powChecked k = .ok (10 ^ k) := by
  unfold Native.powChecked
  rcases check_ok h.bits (10 ^ k) with ⟨_, e⟩ | ⟨w, e⟩
  · exact e
  · exact absurd (h.holds (by rw [abs_of_nonneg (by positivity)]; exact pow_le_pow_right₀ (by norm_num) hk)) w

theorem wrap_holds {N : Native} (hb : 0 < N.bits) {x : Int} (h : N.Holds x) : N.wrap x = x := by
  have h := (has_iff hb x).2 h
  unfold Native.has at h
  rw [Bool.and_eq_true, decide_eq_true_eq, decide_eq_true_eq] at h
  unfold Native.wrap
  rw [Int.emod_eq_of_lt (by omega) (by omega)]
  omega

theorem Real.powWrapping {D : Decimal} (h : Real D) {k : Nat} (hk : k ≤ D.max) : D.native.powWrapping k = 10 ^ k :=
  wrap_holds h.bits (h.holds (by rw [abs_of_nonneg (by positivity)]; exact pow_le_pow_right₀ (by norm_num) hk))

theorem decimal_eq {o : Overflow} {D : Decimal} (hD : Real D) {op : Op} {t1 t2 : DecTy} (h1 : t1.Ok D) (h2 : t2.Ok D)
    (hp : op.Possible D t1 t2) (hs : (op = .mul ∨ op = .mulWrapping ∨ op = .div) ∨ (t1.p - t1.s ≤ 127 ∧ t2.p - t2.s ≤ 127))
    (l r : Datum Int) :
    decimalOp o D op l t1 r t2 = withType D (op.type D t1 t2) (tryOpMacro 0 l r (op.element D t1 t2)) := by
  obtain ⟨p1, q1, s1, l1⟩ := h1
  obtain ⟨p2, q2, s2, l2⟩ := h2
  have ht := hD.top
  have hl := hD.least
  obtain ⟨k1, k2, k3, k4, k5, k6⟩ := hp
  have add : ∀ f : Int → Int → Int, (t2.s - t1.s).toNat ≤ D.max → (t1.s - t2.s).toNat ≤ D.max →
      t1.p - t1.s ≤ 127 ∧ t2.p - t2.s ≤ 127 →
      decimalAdd o D f l r t1 t2 =
        withType D ⟨(min (max t1.s t2.s + max (t1.p - t1.s) (t2.p - t2.s) + 1) (D.max : Int)).toNat, max t1.s t2.s⟩
        (tryOpMacro 0 l r (scaled D.native (fun x y => D.native.check (f x y)) (10 ^ (t2.s - t1.s).toNat)
          (10 ^ (t1.s - t2.s).toNat))) := by
    intro f k1 k2 hs
    unfold decimalAdd
    simp only [i8_ok (o := o) (x := t1.p - t1.s) (by omega) (by omega),
      i8_ok (o := o) (x := t2.p - t2.s) (by omega) (by omega),
      i8_ok (o := o) (x := max t1.s t2.s - t1.s) (by omega) (by omega),
      i8_ok (o := o) (x := max t1.s t2.s - t2.s) (by omega) (by omega), Rs.ok_bind,
      asU32_ok (x := max t1.s t2.s - t1.s) (by omega) (by omega),
      asU32_ok (x := max t1.s t2.s - t2.s) (by omega) (by omega)]
    rw [show (max t1.s t2.s - t1.s).toNat = (t2.s - t1.s).toNat by omega,
      show (max t1.s t2.s - t2.s).toNat = (t1.s - t2.s).toNat by omega, hD.pow k1, hD.pow k2]
    simp only
    congr 2
    unfold satAdd
    rw [asU8_ok (by omega) (by omega)]
    omega
  cases op with
  | add => exact add _ k1 k2 (by simpa using hs)
  | addWrapping => exact add _ k1 k2 (by simpa using hs)
  | sub => exact add _ k1 k2 (by simpa using hs)
  | subWrapping => exact add _ k1 k2 (by simpa using hs)
  | mul =>
    change -128 ≤ t1.s + t2.s at k3
    change t1.s + t2.s ≤ D.max at k4
    have e : satAdd t1.s t2.s = t1.s + t2.s := by unfold satAdd; omega
    show decimalMul D l r t1 t2 = _
    unfold decimalMul
    simp only [e]
    rw [if_neg (by omega)]
    show withType D ⟨_, _⟩ _ = withType D ⟨_, _⟩ _
    congr 2
    show _ = (min ((t1.p : Int) + t2.p + 1) (D.max : Int)).toNat
    omega
  | mulWrapping =>
    change -128 ≤ t1.s + t2.s at k3
    change t1.s + t2.s ≤ D.max at k4
    have e : satAdd t1.s t2.s = t1.s + t2.s := by unfold satAdd; omega
    show decimalMul D l r t1 t2 = _
    unfold decimalMul
    simp only [e]
    rw [if_neg (by omega)]
    show withType D ⟨_, _⟩ _ = withType D ⟨_, _⟩ _
    congr 2
    show _ = (min ((t1.p : Int) + t2.p + 1) (D.max : Int)).toNat
    omega
  | div =>
    change (min (t1.s + 4) (D.max : Int) - t1.s + t2.s).toNat ≤ D.max at k1
    change (-(min (t1.s + 4) (D.max : Int) - t1.s + t2.s)).toNat ≤ D.max at k2
    change 1 ≤ t1.p + (min (t1.s + 4) (D.max : Int) - t1.s + t2.s) at k5
    show decimalDiv o D l r t1 t2 = withType D ⟨(min ((t1.p : Int) + (min (t1.s + 4) (D.max : Int) - t1.s + t2.s)) (D.max : Int)).toNat,
      min (t1.s + 4) (D.max : Int)⟩ (tryOpMacro 0 l r (scaled D.native D.native.divChecked
        (10 ^ (min (t1.s + 4) (D.max : Int) - t1.s + t2.s).toNat) (10 ^ (-(min (t1.s + 4) (D.max : Int) - t1.s + t2.s)).toNat)))
    have e : satAdd t1.s 4 = t1.s + 4 := by unfold satAdd; omega
    unfold decimalDiv
    simp only [e, i8_ok (o := o) (x := min (t1.s + 4) (D.max : Int) - t1.s) (by omega) (by omega),
      i8_ok (o := o) (x := min (t1.s + 4) (D.max : Int) - t1.s + t2.s) (by omega) (by omega), Rs.ok_bind]
    have hp : min (asU8 (satAdd (min (t1.s + 4) (D.max : Int) - t1.s + t2.s) t1.p)) D.max =
        (min ((t1.p : Int) + (min (t1.s + 4) (D.max : Int) - t1.s + t2.s)) (D.max : Int)).toNat := by
      unfold satAdd
      rw [asU8_ok (by omega) (by omega)]
      omega
    rw [hp]
    generalize hk : min (t1.s + 4) (D.max : Int) - t1.s + t2.s = k at *
    have hf : divFactors D.native k = .ok (10 ^ k.toNat, 10 ^ (-k).toNat) := by
      unfold divFactors
      split
      · rw [asU32_ok (by omega) (by omega), hD.pow (by omega), show (-k).toNat = 0 by omega]
        rfl
      · split
        · rename_i h; rw [h]; rfl
        · rw [if_neg (by omega), asU32_ok (by omega) (by omega), hD.pow (by omega), show k.toNat = 0 by omega]
          rfl
    rw [hf]
  | rem =>
    change (t2.s - t1.s).toNat ≤ D.max at k1
    change (t1.s - t2.s).toNat ≤ D.max at k2
    have hs : t1.p - t1.s ≤ 127 ∧ t2.p - t2.s ≤ 127 := by simpa using hs
    show decimalRem o D l r t1 t2 = withType D ⟨(min (max t1.s t2.s + min (t1.p - t1.s) (t2.p - t2.s)) (D.max : Int)).toNat,
      max t1.s t2.s⟩ (tryOpMacro 0 l r (scaled D.native D.native.modChecked (10 ^ (t2.s - t1.s).toNat)
          (10 ^ (t1.s - t2.s).toNat)))
    unfold decimalRem
    simp only [i8_ok (o := o) (x := t1.p - t1.s) (by omega) (by omega),
      i8_ok (o := o) (x := t2.p - t2.s) (by omega) (by omega),
      i8_ok (o := o) (x := max t1.s t2.s - t1.s) (by omega) (by omega),
      i8_ok (o := o) (x := max t1.s t2.s - t2.s) (by omega) (by omega), Rs.ok_bind,
      asU32_ok (x := max t1.s t2.s - t1.s) (by omega) (by omega),
      asU32_ok (x := max t1.s t2.s - t2.s) (by omega) (by omega)]
    rw [show (max t1.s t2.s - t1.s).toNat = (t2.s - t1.s).toNat by omega,
      show (max t1.s t2.s - t2.s).toNat = (t1.s - t2.s).toNat by omega, hD.powWrapping k1, hD.powWrapping k2]
    congr 2
    unfold satAdd
    rw [asU8_ok (by omega) (by omega)]
    omega

theorem type_valid {D : Decimal} (hD : Real D) {op : Op} {t1 t2 : DecTy} (hp : op.Possible D t1 t2) :
    (op.type D t1 t2).valid D = true := by
  obtain ⟨-, -, -, k4, k5, k6⟩ := hp
  have := hD.least
  unfold DecTy.valid Op.type
  generalize op.digits D t1 t2 = p at *
  generalize op.scale D t1 t2 = s at *
  simp only [ne_eq, decide_not, Bool.and_eq_true, Bool.not_eq_true', decide_eq_false_iff_not, decide_eq_true_eq,
    Bool.and_eq_false_iff]
  refine ⟨⟨⟨by omega, by omega⟩, by omega⟩, .inr (by omega)⟩

theorem decResult_withType {D : Decimal} {t : DecTy} (h : t.valid D = true) {r : Rs (Except ArrowErr (Prim Int))}
    {x : Except ArrowErr (List (Option Int))} (hr : result r = .ok x) :
    decResult (withType D t r) = .ok (x.map (·, t)) := by
  cases r with
  | panic => cases hr
  | ok r =>
    cases r with
    | error e =>
      injection hr with hr
      rw [← hr]
      rfl
    | ok a =>
      injection hr with hr
      rw [← hr]
      show Rs.ok (Except.map _ (if t.valid D then _ else _)) = _
      rw [if_pos h]
      rfl

theorem possible_add {D : Decimal} {op : Op} (hop : op = .add ∨ op = .addWrapping ∨ op = .sub ∨
    op = .subWrapping ∨ op = .rem) {t1 t2 : DecTy} (h1 : t1.Ok D) (h2 : t2.Ok D) (h : |t1.s - t2.s| ≤ D.max) :
    op.Possible D t1 t2 := by
  obtain ⟨p1, q1, s1, l1⟩ := h1
  obtain ⟨p2, q2, s2, l2⟩ := h2
  rw [abs_le] at h
  unfold Op.Possible
  rcases hop with rfl | rfl | rfl | rfl | rfl <;> simp only [Op.shifts, Op.scale, Op.digits] <;>
    refine ⟨by omega, by omega, by omega, by omega, by omega, by omega⟩

theorem shift_lt {a : Int} {p k : Nat} (h : |a| < 10 ^ p) : |a * 10 ^ k| < 10 ^ (p + k) := by
  rw [abs_mul, abs_of_nonneg (a := (10 : Int) ^ k) (by positivity), pow_add]
  exact mul_lt_mul_of_pos_right h (by positivity)

theorem pow_mono {m n : Nat} (h : m ≤ n) : (10 : Int) ^ m ≤ 10 ^ n := pow_le_pow_right₀ (by norm_num) h

theorem scaled_ok {N : Native} (hb : 0 < N.bits) {f : Int → Int → Except ArrowErr Int} {m1 m2 a b : Int}
    (h1 : N.Holds (a * m1)) (h2 : N.Holds (b * m2)) : scaled N f m1 m2 a b = f (a * m1) (b * m2) := by
  rcases scaled_cases hb f m1 m2 a b with ⟨_, _, e⟩ | ⟨h, _⟩
  · exact e
  · rcases h with h | h
    · exact absurd h1 h
    · exact absurd h2 h

/-- Sums, differences and products of numbers of so many digits are numbers of so many digits. -/
theorem element_fits {D : Decimal} (hD : Real D) {op : Op} (hop : op ≠ .div ∧ op ≠ .rem) {t1 t2 : DecTy}
    (h1 : t1.Ok D) (h2 : t2.Ok D) (hd : op.digits D t1 t2 ≤ D.max) {a b : Int} (ha : |a| < 10 ^ t1.p)
    (hb : |b| < 10 ^ t2.p) : ∃ v, op.element D t1 t2 a b = .ok v ∧ |v| < 10 ^ (op.type D t1 t2).p := by
  obtain ⟨p1, q1, s1, l1⟩ := h1
  obtain ⟨p2, q2, s2, l2⟩ := h2
  have check : ∀ {x : Int} {n : Nat}, |x| < 10 ^ n → n ≤ D.max → D.native.check x = .ok x := by
    intro x n h hn
    rcases check_ok hD.bits x with ⟨_, e⟩ | ⟨w, _⟩
    · exact e
    · exact absurd (hD.holds (h.le.trans (pow_mono hn))) w
  have add : ∀ f : Int → Int → Int, (∀ x y, |f x y| ≤ |x| + |y|) →
      max t1.s t2.s + max (t1.p - t1.s) (t2.p - t2.s) + 1 ≤ D.max →
      ∃ v, scaled D.native (fun x y => D.native.check (f x y)) (10 ^ (t2.s - t1.s).toNat)
          (10 ^ (t1.s - t2.s).toNat) a b = .ok v ∧
        |v| < 10 ^ (min (max t1.s t2.s + max (t1.p - t1.s) (t2.p - t2.s) + 1) (D.max : Int)).toNat := by
    intro f hf hd
    obtain ⟨m, hm⟩ : ∃ m : Nat, (m : Int) = max t1.s t2.s + max (t1.p - t1.s) (t2.p - t2.s) :=
      ⟨(max t1.s t2.s + max (t1.p - t1.s) (t2.p - t2.s)).toNat, by omega⟩
    have e : (min (max t1.s t2.s + max (t1.p - t1.s) (t2.p - t2.s) + 1) (D.max : Int)).toNat = m + 1 := by omega
    have x1 : |a * 10 ^ (t2.s - t1.s).toNat| < 10 ^ m :=
      (shift_lt (k := (t2.s - t1.s).toNat) ha).trans_le (pow_mono (by omega))
    have x2 : |b * 10 ^ (t1.s - t2.s).toNat| < 10 ^ m :=
      (shift_lt (k := (t1.s - t2.s).toNat) hb).trans_le (pow_mono (by omega))
    have x3 := hf (a * 10 ^ (t2.s - t1.s).toNat) (b * 10 ^ (t1.s - t2.s).toNat)
    have hm' : (10 : Int) ^ m ≤ 10 ^ D.max := pow_mono (by omega)
    have x4 : |f (a * 10 ^ (t2.s - t1.s).toNat) (b * 10 ^ (t1.s - t2.s).toNat)| < 10 ^ (m + 1) := by
      rw [pow_succ]
      linarith [abs_nonneg (f (a * 10 ^ (t2.s - t1.s).toNat) (b * 10 ^ (t1.s - t2.s).toNat))]
    refine ⟨_, ?_, by rw [e]; exact x4⟩
    rw [scaled_ok hD.bits (hD.holds (x1.le.trans hm')) (hD.holds (x2.le.trans hm')),
      check x4 (by omega)]
  have mul : ((t1.p : Int) + t2.p + 1 ≤ D.max) →
      ∃ v, D.native.check (a * b) = .ok v ∧ |v| < 10 ^ (min ((t1.p : Int) + t2.p + 1) (D.max : Int)).toNat := by
    intro hd
    have e : (min ((t1.p : Int) + t2.p + 1) (D.max : Int)).toNat = t1.p + t2.p + 1 := by omega
    have x : |a * b| < 10 ^ (t1.p + t2.p) := by
      rw [abs_mul, pow_add]
      exact mul_lt_mul'' ha hb (abs_nonneg _) (abs_nonneg _)
    refine ⟨_, check x (by omega), ?_⟩
    rw [e]
    exact x.trans_le (pow_mono (by omega))
  have hsub : ∀ x y : Int, |x - y| ≤ |x| + |y| := fun x y => by
    rw [Int.sub_eq_add_neg, ← abs_neg y]; exact abs_add_le _ _
  cases op with
  | add => exact add _ abs_add_le hd
  | addWrapping => exact add _ abs_add_le hd
  | sub => exact add _ hsub hd
  | subWrapping => exact add _ hsub hd
  | mul => exact mul hd
  | mulWrapping => exact mul hd
  | div => exact absurd rfl hop.1
  | rem => exact absurd rfl hop.2

theorem abs_tdiv_le {x y : Int} {m n : Nat} (hx : |x| < 10 ^ (m + n)) (hy : 10 ^ n ≤ |y|) : |x.tdiv y| < 10 ^ m := by
  have h : |x.tdiv y| * |y| ≤ |x| := by
    have hy0 : 0 < |y| := lt_of_lt_of_le (by positivity) hy
    rw [Int.abs_eq_natAbs, Int.abs_eq_natAbs, Int.abs_eq_natAbs, Int.natAbs_tdiv]
    exact_mod_cast Nat.div_mul_le_self _ _
  by_contra hc
  have hc := not_lt.1 hc
  have : (10 : Int) ^ (m + n) ≤ |x.tdiv y| * |y| := by
    rw [pow_add]
    exact mul_le_mul hc hy (by positivity) (abs_nonneg _)
  linarith

/-- A quotient or a remainder has no more digits than its type says. -/
theorem element_size {D : Decimal} (hD : Real D) {op : Op} (hop : op = .div ∨ op = .rem) {t1 t2 : DecTy}
    (h1 : t1.Ok D) (h2 : t2.Ok D) (hd : op.digits D t1 t2 ≤ D.max) (hd' : 1 ≤ op.digits D t1 t2) {a b v : Int}
    (ha : |a| < 10 ^ t1.p)
    (hb : |b| < 10 ^ t2.p) (hv : op.element D t1 t2 a b = .ok v) : |v| < 10 ^ (op.type D t1 t2).p := by
  obtain ⟨p1, q1, s1, l1⟩ := h1
  obtain ⟨p2, q2, s2, l2⟩ := h2
  rcases hop with rfl | rfl
  · change scaled D.native D.native.divChecked (10 ^ (min (t1.s + 4) (D.max : Int) - t1.s + t2.s).toNat)
      (10 ^ (-(min (t1.s + 4) (D.max : Int) - t1.s + t2.s)).toNat) a b = .ok v at hv
    change (t1.p : Int) + (min (t1.s + 4) (D.max : Int) - t1.s + t2.s) ≤ D.max at hd
    change 1 ≤ (t1.p : Int) + (min (t1.s + 4) (D.max : Int) - t1.s + t2.s) at hd'
    show |v| < 10 ^ (min ((t1.p : Int) + (min (t1.s + 4) (D.max : Int) - t1.s + t2.s)) (D.max : Int)).toNat
    generalize min (t1.s + 4) (D.max : Int) - t1.s + t2.s = k at *
    rcases scaled_cases hD.bits D.native.divChecked (10 ^ k.toNat) (10 ^ (-k).toNat) a b with ⟨_, _, e⟩ | ⟨_, e⟩
    · rw [e] at hv
      unfold Native.divChecked at hv
      split at hv
      · cases hv
      · rename_i hz
        rcases check_ok hD.bits ((a * 10 ^ k.toNat).tdiv (b * 10 ^ (-k).toNat)) with ⟨_, e⟩ | ⟨_, e⟩
        · rw [e] at hv
          injection hv with hv
          rw [← hv]
          refine abs_tdiv_le (n := (-k).toNat) ?_ ?_
          · rw [show (min ((t1.p : Int) + k) (D.max : Int)).toNat + (-k).toNat = t1.p + k.toNat by omega]
            exact shift_lt ha
          · have : b ≠ 0 := by rintro rfl; simp at hz
            rw [abs_mul, abs_of_nonneg (a := (10 : Int) ^ (-k).toNat) (by positivity)]
            have : 1 ≤ |b| := Int.one_le_abs this
            nlinarith [pow_pos (show (0 : Int) < 10 by norm_num) (-k).toNat]
        · rw [e] at hv; cases hv
    · rw [e] at hv; cases hv
  · change scaled D.native D.native.modChecked (10 ^ (t2.s - t1.s).toNat)
      (10 ^ (t1.s - t2.s).toNat) a b = .ok v at hv
    change max t1.s t2.s + min (t1.p - t1.s) (t2.p - t2.s) ≤ D.max at hd
    show |v| < 10 ^ (min (max t1.s t2.s + min (t1.p - t1.s) (t2.p - t2.s)) (D.max : Int)).toNat
    rcases scaled_cases hD.bits D.native.modChecked (10 ^ (t2.s - t1.s).toNat) (10 ^ (t1.s - t2.s).toNat) a b
      with ⟨_, _, e⟩ | ⟨_, e⟩
    · rw [e] at hv
      unfold Native.modChecked at hv
      split at hv
      · cases hv
      · rename_i hz
        split at hv
        · cases hv
        · injection hv with hv
          rw [← hv]
          have x1 := shift_lt (k := (t2.s - t1.s).toNat) ha
          have x2 := shift_lt (k := (t1.s - t2.s).toNat) hb
          generalize a * 10 ^ (t2.s - t1.s).toNat = x at *
          generalize b * 10 ^ (t1.s - t2.s).toNat = y at *
          have y1 : |x.tmod y| < |y| := by
            rw [Int.abs_eq_natAbs, Int.abs_eq_natAbs]
            exact_mod_cast (tmod_bounds x hz).1
          have y2 : |x.tmod y| ≤ |x| := by
            rw [Int.abs_eq_natAbs, Int.abs_eq_natAbs, Int.natAbs_tmod]
            exact_mod_cast Nat.mod_le _ _
          rcases Int.le_total (t1.p - t1.s) (t2.p - t2.s) with h | h
          · exact (y2.trans_lt x1).trans_le (pow_mono (by omega))
          · exact (y1.trans x2).trans_le (pow_mono (by omega))
    · rw [e] at hv; cases hv

/-! ### Products rounded to a scale -/

theorem product_eq {t1 t2 : DecTy} {required : Int} {k : Nat} (h : t1.s + t2.s - required = k) (a b : Int) :
    product t1 t2 required a b = ((a * b : Int) : ℚ) / ((10 ^ k : Int) : ℚ) := by
  have e : required = t1.s + t2.s - k := by omega
  unfold product worth
  have z : (10 : ℚ) ≠ 0 := by norm_num
  rw [e, zpow_sub₀ z, zpow_add₀ z, zpow_neg, zpow_neg, zpow_natCast]
  push_cast
  field_simp

theorem near_int (x : Int) : near ((x : ℚ) / ((10 ^ 0 : Int) : ℚ)) = x := by
  unfold near
  simp only [pow_zero, Int.cast_one, div_one]
  split
  · rw [Int.floor_eq_iff]
    constructor <;> linarith
  · rw [Int.ceil_eq_iff]
    constructor <;> linarith

theorem near_div {x d h q r n : Int} (hd : d = 2 * h) (hh : 0 < h) (hx : x = d * q + r)
    (hn : if 0 ≤ x then (n * d ≤ x + h ∧ x + h < (n + 1) * d) else ((n - 1) * d < x - h ∧ x - h ≤ n * d)) :
    near ((x : ℚ) / (d : ℚ)) = n := by
  have d0 : (0 : ℚ) < d := by
    have : 0 < d := by omega
    exact_mod_cast this
  have hd' : (d : ℚ) = 2 * h := by exact_mod_cast hd
  have e : (0 : ℚ) ≤ (x : ℚ) / d ↔ 0 ≤ x := by
    rw [div_nonneg_iff]
    constructor
    · rintro (⟨h, _⟩ | ⟨_, h⟩)
      · exact_mod_cast h
      · linarith
    · intro h
      exact .inl ⟨by exact_mod_cast h, d0.le⟩
  have h0 : (h : ℚ) ≠ 0 := by
    have : h ≠ 0 := by omega
    exact_mod_cast this
  unfold near
  by_cases h0x : 0 ≤ x
  · rw [if_pos (e.2 h0x)]
    rw [if_pos h0x] at hn
    have e2 : (x : ℚ) / d + 1 / 2 = (x + h) / d := by
      rw [hd']
      field_simp
    rw [Int.floor_eq_iff, e2, le_div_iff₀ d0, div_lt_iff₀ d0]
    exact ⟨by exact_mod_cast hn.1, by exact_mod_cast hn.2⟩
  · rw [if_neg (fun w => h0x (e.1 w))]
    rw [if_neg h0x] at hn
    have e2 : (x : ℚ) / d - 1 / 2 = (x - h) / d := by
      rw [hd']
      field_simp
    rw [Int.ceil_eq_iff, e2, lt_div_iff₀ d0, div_le_iff₀ d0]
    exact ⟨by exact_mod_cast hn.1, by exact_mod_cast hn.2⟩

theorem round_near {x : Int} {k : Nat} (hk : 1 ≤ k) (hk' : k ≤ 76) (hx : |x| ≤ 2 ^ 254) :
    divideAndRound decimal256.native (decimal256.native.wrap x) (decimal256.native.powWrapping k) =
      near ((x : ℚ) / ((10 ^ k : Int) : ℚ)) := by
  have hD : Real decimal256 := real (.inr rfl)
  have holds : ∀ y : Int, |y| ≤ 2 ^ 254 + 1 → decimal256.native.Holds y := fun y hy => by
    rw [abs_le] at hy
    unfold Native.Holds
    rw [if_pos (show decimal256.native.signed = true from rfl), show decimal256.native.bits - 1 = 255 from rfl]
    omega
  have wr : ∀ y : Int, |y| ≤ 2 ^ 254 + 1 → decimal256.native.wrap y = y := fun y hy => wrap_holds hD.bits (holds y hy)
  rw [hD.powWrapping (k := k) hk', wr x (by omega)]
  obtain ⟨h, hd, hh⟩ : ∃ h : Int, (10 : Int) ^ k = 2 * h ∧ 0 < h := by
    obtain ⟨j, rfl⟩ : ∃ j, k = j + 1 := ⟨k - 1, by omega⟩
    exact ⟨5 * 10 ^ j, by rw [pow_succ]; ring, by positivity⟩
  have hle : (10 : Int) ^ k ≤ 2 ^ 254 := (pow_mono hk').trans (by norm_num)
  generalize (10 : Int) ^ k = d at *
  have hdz : d ≠ 0 := by omega
  have hb := tmod_bounds x hdz
  have hq := Int.tmod_add_mul_tdiv x d
  have hqx : |x.tdiv d| ≤ |x| := by
    rw [Int.abs_eq_natAbs, Int.abs_eq_natAbs, Int.natAbs_tdiv]
    exact_mod_cast Nat.div_le_self _ _
  have hhalf : d.tdiv 2 = h := by rw [hd, Int.mul_tdiv_cancel_left _ (by norm_num)]
  unfold divideAndRound
  simp only [hhalf]
  have hr0 : 0 ≤ x → 0 ≤ x.tmod d := fun hx => Int.tmod_nonneg _ hx
  have hr1 : x ≤ 0 → x.tmod d ≤ 0 := fun hx => by
    have := Int.tmod_nonneg d (a := -x) (by omega)
    rw [Int.neg_tmod] at this
    omega
  have hrd : |x.tmod d| < d := by
    rw [Int.abs_eq_natAbs]
    have := hb.1
    omega
  generalize x.tdiv d = q at *
  generalize x.tmod d = r at *
  rw [abs_lt] at hrd
  rw [abs_le] at hx hqx
  have hqx' : |q| ≤ 2 ^ 254 := by
    rw [abs_le]
    constructor
    · rcases abs_cases x with h | h <;> omega
    · rcases abs_cases x with h | h <;> omega
  rw [wr q (by omega), wr r (by rw [abs_le]; omega), wr h (by rw [abs_le]; omega),
    wr (-h) (by rw [abs_le]; omega), wr (q + 1) (by rw [abs_le] at *; omega), wr (q - 1) (by rw [abs_le] at *; omega)]
  symm
  have hx2 : x = d * q + r := by omega
  by_cases h0 : 0 ≤ x
  · rw [if_pos h0]
    have := hr0 h0
    split
    · refine near_div hd hh hx2 ?_
      rw [if_pos h0]
      constructor <;> nlinarith
    · refine near_div hd hh hx2 ?_
      rw [if_pos h0]
      constructor <;> nlinarith
  · rw [if_neg h0]
    have := hr1 (by omega)
    split
    · refine near_div hd hh hx2 ?_
      rw [if_neg h0]
      constructor <;> nlinarith
    · refine near_div hd hh hx2 ?_
      rw [if_neg h0]
      constructor <;> nlinarith

theorem product_small {a b : Int} (ha : decimal128.native.Holds a) (hb : decimal128.native.Holds b) :
    |a * b| ≤ 2 ^ 254 := by
  have size : ∀ {x : Int}, decimal128.native.Holds x → |x| ≤ 2 ^ 127 := fun {x} hx => by
    unfold Native.Holds at hx
    rw [if_pos (show decimal128.native.signed = true from rfl), show decimal128.native.bits - 1 = 127 from rfl] at hx
    rw [abs_le]
    omega
  rw [abs_mul]
  calc |a| * |b| ≤ 2 ^ 127 * 2 ^ 127 := mul_le_mul (size ha) (size hb) (abs_nonneg _) (by positivity)
    _ = 2 ^ 254 := by norm_num

theorem fixed_info {o : Overflow} {t1 t2 : DecTy} {required : Int} {k : Nat} (h1 : -128 ≤ t1.s + t2.s)
    (h2 : t1.s + t2.s ≤ 127) (h : t1.s + t2.s - required = k) (hk : k ≤ 76) :
    fixedPointInfo o t1 t2 required =
      .ok (.ok (min (t1.p + t2.p + 1) 38, t1.s + t2.s, decimal256.native.powWrapping k)) := by
  unfold fixedPointInfo
  simp only [i8_ok (o := o) h1 h2, Rs.ok_bind]
  rw [if_neg (by omega), i8_ok (o := o) (x := t1.s + t2.s - required) (by omega) (by omega)]
  simp only [Rs.ok_bind]
  rw [if_neg (by omega), h]
  rfl

theorem fixed_valid {t1 t2 : DecTy} {required : Int} (h1 : t1.Ok decimal128) (h2 : t2.Ok decimal128)
    (h : required ≤ t1.s + t2.s) (h' : required ≤ 38) : (fixedType t1 t2 required).valid decimal128 = true := by
  obtain ⟨p1, q1, s1, l1⟩ := h1
  obtain ⟨p2, q2, s2, l2⟩ := h2
  have e : decimal128.max = 38 := rfl
  unfold DecTy.valid fixedType
  simp only [ne_eq, decide_not, Bool.and_eq_true, Bool.not_eq_true', decide_eq_false_iff_not, decide_eq_true_eq,
    Bool.and_eq_false_iff, e]
  refine ⟨⟨⟨by omega, by omega⟩, by omega⟩, .inr (by omega)⟩

theorem fixed_checked {o : Overflow} {t1 t2 : DecTy} {required : Int} (h1 : t1.Ok decimal128) (h2 : t2.Ok decimal128)
    (hs : -128 ≤ t1.s + t2.s) (h : required ≤ t1.s + t2.s) (hk : t1.s + t2.s - required ≤ 76) (hr : required ≤ 38) :
    ∃ f : Int → Int → Except ArrowErr Int,
      (∀ a b, decimal128.native.Holds a → decimal128.native.Holds b → FixedRight (product t1 t2 required a b) (f a b)) ∧
      ∀ l r : Prim Int, l.Ok → r.Ok → l.slots.length = r.slots.length →
        decResult (multiplyChecked o l t1 r t2 required) =
          .ok ((collect (List.zipWith (strictTry₂ f) l.slots r.slots)).map (·, fixedType t1 t2 required)) := by
  obtain ⟨k, hk0⟩ : ∃ k : Nat, t1.s + t2.s - required = k := ⟨(t1.s + t2.s - required).toNat, by omega⟩
  have hv := fixed_valid h1 h2 h hr
  have hd : Real decimal128 := real (.inl rfl)
  have e38 : decimal128.max = 38 := rfl
  have hi := fixed_info (o := o) hs (by have := h1.2; have := h2.2; have := h1.3; have := h2.3; omega) hk0 (by omega)
  have right : ∀ x q, x = near q → FixedRight q (decimal128.native.check x) := by
    intro x q hx
    rcases check_ok hd.bits x with ⟨w, e⟩ | ⟨w, e⟩
    · rw [e]; exact ⟨hx, w⟩
    · rw [e]; exact ⟨rfl, by rw [← hx]; exact w⟩
  by_cases h0 : required = t1.s + t2.s
  · refine ⟨fun x y => decimal128.native.check (x * y), fun a b _ _ => right _ _ ?_, fun l r hl hr hlr => ?_⟩
    · obtain rfl : k = 0 := by omega
      rw [product_eq hk0, near_int]
    · unfold multiplyChecked
      rw [hi]
      simp only [Rs.ok_bind]
      rw [if_pos h0]
      exact decResult_withType hv (tryBinary_ok 0 (a := l.access) (b := r.access) ⟨hl, hl⟩ ⟨hr, hr⟩ Iff.rfl Iff.rfl
        ((slots_length hl).symm.trans (hlr.trans (slots_length hr))) _)
  · refine ⟨fun x y => decimal128.native.check (divideAndRound decimal256.native (decimal256.native.wrap (x * y))
        (decimal256.native.powWrapping k)), fun a b ha hb => right _ _ ?_, fun l r hl hr hlr => ?_⟩
    · rw [product_eq hk0, round_near (by omega) (by omega) (product_small ha hb)]
    · unfold multiplyChecked
      rw [hi]
      simp only [Rs.ok_bind]
      rw [if_neg h0]
      exact decResult_withType hv (tryBinary_ok 0 (a := l.access) (b := r.access) ⟨hl, hl⟩ ⟨hr, hr⟩ Iff.rfl Iff.rfl
        ((slots_length hl).symm.trans (hlr.trans (slots_length hr))) _)

theorem fixed_wrapping {o : Overflow} {t1 t2 : DecTy} {required : Int} (h1 : t1.Ok decimal128) (h2 : t2.Ok decimal128)
    (hs : -128 ≤ t1.s + t2.s) (h : required ≤ t1.s + t2.s) (hk : t1.s + t2.s - required ≤ 76) (hr : required ≤ 38) :
    ∃ f : Int → Int → Int,
      (∀ a b, decimal128.native.Holds a → decimal128.native.Holds b →
        decimal128.native.Holds (f a b) ∧ (2 : Int) ^ 128 ∣ f a b - near (product t1 t2 required a b)) ∧
      ∀ l r : Prim Int, l.Ok → r.Ok → l.slots.length = r.slots.length →
        decResult (multiplyFixedPoint o l t1 r t2 required) =
          .ok (.ok (List.zipWith (strict f) l.slots r.slots, fixedType t1 t2 required)) := by
  obtain ⟨k, hk0⟩ : ∃ k : Nat, t1.s + t2.s - required = k := ⟨(t1.s + t2.s - required).toNat, by omega⟩
  have hv := fixed_valid h1 h2 h hr
  have hd : Real decimal128 := real (.inl rfl)
  have e38 : decimal128.max = 38 := rfl
  have hi := fixed_info (o := o) hs (by have := h1.2; have := h2.2; have := h1.3; have := h2.3; omega) hk0 (by omega)
  have right : ∀ x q, x = near q → decimal128.native.Holds (decimal128.native.wrap x) ∧
      (2 : Int) ^ 128 ∣ decimal128.native.wrap x - near q := by
    intro x q hx
    rw [← hx]
    exact wrap_ok hd.bits x
  by_cases h0 : required = t1.s + t2.s
  · refine ⟨fun x y => decimal128.native.wrap (x * y), fun a b _ _ => right _ _ ?_, fun l r hl hr hlr => ?_⟩
    · obtain rfl : k = 0 := by omega
      rw [product_eq hk0, near_int]
    · unfold multiplyFixedPoint
      rw [hi]
      simp only [Rs.ok_bind]
      rw [if_pos h0]
      exact decResult_withType hv (result_binary hl hr hlr _)
  · refine ⟨fun x y => decimal128.native.wrap (divideAndRound decimal256.native (decimal256.native.wrap (x * y))
        (decimal256.native.powWrapping k)), fun a b ha hb => right _ _ ?_, fun l r hl hr hlr => ?_⟩
    · rw [product_eq hk0, round_near (by omega) (by omega) (product_small ha hb)]
    · unfold multiplyFixedPoint
      rw [hi]
      simp only [Rs.ok_bind]
      rw [if_neg h0]
      exact decResult_withType hv (result_binary hl hr hlr _)

end Arrow
end Verif
