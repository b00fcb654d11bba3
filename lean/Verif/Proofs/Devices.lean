import Verif.Spec.Devices
import Mathlib.Tactic.Linarith
import Mathlib.Tactic.Ring
import Mathlib.Data.Rat.Cast.Order
/-!
Lemmas for `Props/Devices`.
-/
namespace Verif
namespace Devices
open Clock

theorem edge_ticks (m : Overflow) (e : Encoder) (high : Bool) (now : CuTime) (hp : e.poisoned = false)
    (h1 : -2147483648 ≤ e.ticks.toInt + (if high then 1 else -1))
    (h2 : e.ticks.toInt + (if high then 1 else -1) < 2147483648) :
    (e.edge m high now).poisoned = false ∧
    (e.edge m high now).ticks.toInt = e.ticks.toInt + (if high then 1 else -1) := by
  have hd : (if high then (1 : Int32) else -1).toInt = if high then 1 else -1 := by cases high <;> rfl
  have ha : addTicks m e.ticks (if high then 1 else -1) = some (e.ticks + if high then 1 else -1) := by
    cases m
    · simp only [addTicks, hd]
      rw [if_pos ⟨h1, h2⟩]
    · rfl
  have hs : (e.ticks + if high then (1 : Int32) else -1).toInt = e.ticks.toInt + (if high then 1 else -1) := by
    rw [Int32.toInt_add, hd]
    exact Int.bmod_eq_of_le (by omega) (by omega)
  unfold Encoder.edge
  rw [hp, ha]
  simp [hs]

theorem edges_ticks (m : Overflow) (l : List (Bool × CuTime)) (e : Encoder) (hp : e.poisoned = false)
    (h1 : -2147483648 ≤ e.ticks.toInt - l.length) (h2 : e.ticks.toInt + l.length < 2147483648) :
    (e.edges m l).poisoned = false ∧ (e.edges m l).ticks.toInt = e.ticks.toInt + turned l := by
  induction l generalizing e with
  | nil => exact ⟨hp, by simp [Encoder.edges, turned]⟩
  | cons x l ih =>
    obtain ⟨high, now⟩ := x
    simp only [List.length_cons] at h1 h2
    have hs := edge_ticks m e high now hp (by cases high <;> simp <;> omega) (by cases high <;> simp <;> omega)
    have := ih (e.edge m high now) hs.1 (by rw [hs.2]; cases high <;> simp <;> omega)
      (by rw [hs.2]; cases high <;> simp <;> omega)
    refine ⟨this.1, ?_⟩
    simp only [Encoder.edges, turned]
    rw [this.2, hs.2]
    omega

theorem turned_replicate (n : Nat) (t : CuTime) : turned (List.replicate n (true, t)) = n := by
  induction n with
  | zero => rfl
  | succ n ih => simp only [List.replicate_succ, turned, ih]; simp; omega

theorem toInt16_word (lo hi : UInt8) :
    (UInt16.ofNat (lo.toNat + hi.toNat * 256)).toInt16.toInt = word lo hi := by
  have h1 := lo.toNat_lt
  have h2 := hi.toNat_lt
  have h3 : (UInt16.ofNat (lo.toNat + hi.toNat * 256)).toNat = lo.toNat + hi.toNat * 256 := by
    rw [UInt16.toNat_ofNat']
    exact Nat.mod_eq_of_lt (by omega)
  unfold word
  rw [← Int16.toInt_toBitVec, UInt16.toBitVec_toInt16, BitVec.toInt_eq_toNat_cond, UInt16.toNat_toBitVec, h3]
  split <;> split <;> omega

theorem getI16_vec (buf : Vector UInt8 spanSize) (i : Fin 12) :
    ∃ n : Int16, getI16 buf.toList (2 * i.val) = .ok n ∧ n.toInt = register buf i := by
  have hi := i.isLt
  have hs : spanSize = 24 := rfl
  refine ⟨_, ?_, toInt16_word (buf[2 * i.val]'(by omega)) (buf[2 * i.val + 1]'(by omega))⟩
  unfold getI16
  rw [List.getElem?_eq_getElem (by simp; omega), List.getElem?_eq_getElem (by simp; omega)]
  simp only [Vector.getElem_toList]

theorem read3_vec (buf : Vector UInt8 spanSize) (r : Fin 3 → Register) (k : Nat) (hk : k + 2 < 12)
    (h : ∀ i : Fin 3, (r i).offset = 2 * (k + i.val)) (f : Int16 → Rat) (c : Rat)
    (hf : ∀ n, f n = (n.toInt : Rat) * c) :
    ∃ v, read3 buf.toList r f = .ok v ∧
      ∀ i : Fin 3, v i = (register buf ⟨k + i.val, by omega⟩ : Rat) * c := by
  obtain ⟨x, hx, hx'⟩ := getI16_vec buf ⟨k + 0, by omega⟩
  obtain ⟨y, hy, hy'⟩ := getI16_vec buf ⟨k + 1, by omega⟩
  obtain ⟨z, hz, hz'⟩ := getI16_vec buf ⟨k + 2, by omega⟩
  refine ⟨fun i => if i = 0 then f x else if i = 1 then f y else f z, ?_, ?_⟩
  · unfold read3
    rw [h 0, h 1, h 2]
    show (getI16 _ (2 * (k + 0)) >>= _) = _
    simp only at hx hy hz
    rw [hx]
    show (getI16 _ (2 * (k + 1)) >>= _) = _
    rw [hy]
    show (getI16 _ (2 * (k + 2)) >>= _) = _
    rw [hz]
    rfl
  · intro i
    match i with
    | 0 => simp only [if_true]; rw [hf, hx']; rfl
    | 1 => simp only [if_true]; rw [if_neg (by decide), hf, hy']; rfl
    | 2 => simp only; rw [if_neg (by decide), if_neg (by decide), hf, hz']; rfl

theorem wt901_read (buf : Vector UInt8 spanSize) (out : Msg Reading) :
    ∃ r, wt901Process (some buf) out = .ok (out.setPayload r) ∧
      ∀ i : Fin 3,
        r.acc i = (register buf ⟨i.val, by omega⟩ : Rat) * (16 / 32768) ∧
        r.gyro i = (register buf ⟨3 + i.val, by omega⟩ : Rat) * (2000 / 32768) ∧
        r.mag i = (register buf ⟨6 + i.val, by omega⟩ : Rat) * (8333 / 1000 / 32768) ∧
        r.angle i = (register buf ⟨9 + i.val, by omega⟩ : Rat) * (180 / 32768) := by
  obtain ⟨a, ha, ha'⟩ := read3_vec buf .acc 0 (by omega)
    (by intro i; simp [Register.offset, Register.address]; omega) convertAcc (16 / 32768)
    (by intro n; unfold convertAcc; ring)
  obtain ⟨g, hg, hg'⟩ := read3_vec buf .gyro 3 (by omega)
    (by intro i; simp [Register.offset, Register.address]; omega) convertAngVel (2000 / 32768)
    (by intro n; unfold convertAngVel; ring)
  obtain ⟨m, hm, hm'⟩ := read3_vec buf .mag 6 (by omega)
    (by intro i; simp [Register.offset, Register.address]; omega) convertMag (8333 / 1000 / 32768)
    (by intro n; unfold convertMag; ring)
  obtain ⟨t, ht, ht'⟩ := read3_vec buf .angle 9 (by omega)
    (by intro i; simp [Register.offset, Register.address]; omega) convertAngle (180 / 32768)
    (by intro n; unfold convertAngle; ring)
  refine ⟨⟨a, g, m, t⟩, ?_, fun i => ⟨?_, hg' i, hm' i, ht' i⟩⟩
  · unfold wt901Process bulkRead
    simp only [ha, hg, hm, ht]
    rfl
  · have := ha' i
    simpa using this

end Devices
end Verif
