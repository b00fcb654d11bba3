import Verif.Model.Payload
import Verif.Proofs.Bincode
/-! Bounded arrays. -/
namespace Verif
namespace Payload
open Bincode
variable {T : Type} {N : Nat}

theorem pushAll_ok (a : ArrayVec T N) (l : List T) (h : a.elems.length + l.length ≤ N) :
    a.pushAll l = .ok ⟨a.elems ++ l⟩ := by
  induction l generalizing a with
  | nil => simp [ArrayVec.pushAll]
  | cons x l ih =>
    simp only [List.length_cons] at h
    unfold ArrayVec.pushAll ArrayVec.push
    rw [if_pos (by omega)]
    simp only
    rw [ih]
    · simp
    · simp only [List.length_append, List.length_singleton]; omega

theorem new_ok (h : N ≤ 4294967295) : ArrayVec.new T N = .ok ⟨[]⟩ := if_neg (by omega)

theorem decPush_ok [Codec T] (a : ArrayVec T N) (l : List T) (hl : ∀ x ∈ l, RoundTrips x)
    (h : a.elems.length + l.length ≤ N) (rest : Bytes) :
    decPush l.length a (encAll l ++ rest) = .ok (.ok ⟨a.elems ++ l⟩, rest) := by
  induction l generalizing a with
  | nil => simp only [List.length_nil, List.append_nil]; rfl
  | cons x l ih =>
    simp only [List.length_cons] at h ⊢
    unfold decPush encAll
    rw [List.append_assoc, Dec.bind_ok (hl x (by simp) _)]
    unfold ArrayVec.push
    rw [if_pos (by omega)]
    simp only
    rw [ih _ (fun y hy => hl y (by simp [hy]))]
    · simp
    · simp only [List.length_append, List.length_singleton]; omega

theorem decPush_bounded [Codec T] (n : Nat) (a : ArrayVec T N) (h : a.elems.length + n ≤ N)
    {bs rest : Bytes} {r : Rs (ArrayVec T N)} (hd : decPush n a bs = .ok (r, rest)) :
    ∃ b, r = .ok b ∧ b.elems.length = a.elems.length + n := by
  induction n generalizing a bs with
  | zero =>
    unfold decPush at hd
    injection hd with hd
    injection hd with hd _
    exact ⟨a, hd.symm, rfl⟩
  | succ n ih =>
    unfold decPush at hd
    cases hx : (dec : Dec T) bs with
    | error e => rw [Dec.bind_err hx] at hd; cases hd
    | ok q =>
      obtain ⟨x, r1⟩ := q
      rw [Dec.bind_ok hx] at hd
      unfold ArrayVec.push at hd
      rw [if_pos (by omega)] at hd
      simp only at hd
      obtain ⟨b, h1, h2⟩ := ih _ (by simp only [List.length_append, List.length_singleton]; omega) hd
      refine ⟨b, h1, ?_⟩
      rw [h2]
      simp only [List.length_append, List.length_singleton]
      omega

end Payload
end Verif
