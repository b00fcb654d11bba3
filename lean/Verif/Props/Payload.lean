import Verif.Proofs.Payload
/-!
C35: bounded arrays as payloads never exceed their capacity and round trip.
-/
namespace Verif
namespace Payload
open Bincode
variable {T : Type}

/-- Filling an array keeps the first `N` values, whatever it held and whatever is offered; it does
not panic. -/
theorem C35_fill (N : Nat) (a : ArrayVec T N) (iter : List T) :
    a.fillFromIter iter = .ok ⟨iter.take N⟩ := by
  unfold ArrayVec.fillFromIter
  rw [pushAll_ok]
  · simp
  · simp only [List.length_take, List.length_nil]; omega

example : (⟨[9]⟩ : ArrayVec Nat 3).fillFromIter [1, 2, 3, 4, 5] = .ok ⟨[1, 2, 3]⟩ := by decide

/-- An array of any capacity that can be created (it fits in 32 bits), with at most that many
elements, is decoded to itself by both kinds of payload arrays, which consume exactly its bytes. -/
theorem C35_round_trip [Codec T] (N : Nat) (hN : N ≤ 4294967295) (l : List T) (hl : l.length ≤ N)
    (hrt : ∀ x ∈ l, RoundTrips x) (rest : Bytes) :
    decArr T N (encArr (⟨l⟩ : ArrayVec T N) ++ rest) = .ok (.ok ⟨l⟩, rest) ∧
    decVec T N (encVec (⟨l⟩ : ArrayVec T N) ++ rest) = .ok (.ok ⟨l⟩, rest) := by
  constructor
  · unfold decArr encArr
    rw [List.append_assoc, Dec.bind_ok (rt_u32 _ _)]
    have h : (UInt32.ofNat l.length).toNat = l.length := by
      simp only [UInt32.toNat_ofNat']; omega
    simp only [h]
    rw [if_neg (by omega), new_ok hN]
    simp only
    rw [decPush_ok _ _ hrt]
    · simp
    · simpa using hl
  · unfold decVec encVec
    rw [Dec.bind_ok (rt_list (by omega) hrt _)]
    rw [if_neg (by omega), new_ok hN]
    simp only
    rw [pushAll_ok]
    · rfl
    · simpa using hl

example : decArr UInt16 4 (encArr (⟨[1, 500, 65535]⟩ : ArrayVec UInt16 4) ++ [7]) =
    .ok (.ok ⟨[1, 500, 65535]⟩, [7]) := by rfl

/-- The bytes of a longer array are rejected with an error. -/
theorem C35_longer_rejected [Codec T] (N M : Nat) (l : List T) (hl : N < l.length)
    (h32 : l.length ≤ 4294967295) (hrt : ∀ x ∈ l, RoundTrips x) (rest : Bytes) :
    decArr T N (encArr (⟨l⟩ : ArrayVec T M) ++ rest) = .error .other ∧
    decVec T N (encVec (⟨l⟩ : ArrayVec T M) ++ rest) = .error .lengthMismatch := by
  constructor
  · unfold decArr encArr
    rw [List.append_assoc, Dec.bind_ok (rt_u32 _ _)]
    have h : (UInt32.ofNat l.length).toNat = l.length := by
      simp only [UInt32.toNat_ofNat']; omega
    simp only [h]
    rw [if_pos (by omega)]
    rfl
  · unfold decVec encVec
    rw [Dec.bind_ok (rt_list (by omega) hrt _)]
    rw [if_pos (by omega)]
    rfl

example : decArr UInt16 2 (encArr (⟨[1, 500, 65535]⟩ : ArrayVec UInt16 4)) = .error .other := by
  rfl

/-- Whatever bytes are decoded, and whatever the decoder of the elements does with them: the result
is an error or an array within its capacity, never a panic. -/
theorem C35_any_bytes [Codec T] (N : Nat) (hN : N ≤ 4294967295) (bs rest : Bytes)
    (r : Rs (ArrayVec T N)) :
    (decArr T N bs = .ok (r, rest) → ∃ a, r = .ok a ∧ a.elems.length ≤ N) ∧
    (decVec T N bs = .ok (r, rest) → ∃ a, r = .ok a ∧ a.elems.length ≤ N) := by
  constructor
  · intro h
    unfold decArr at h
    cases hx : (dec : Dec UInt32) bs with
    | error e => rw [Dec.bind_err hx] at h; cases h
    | ok q =>
      obtain ⟨len, r1⟩ := q
      rw [Dec.bind_ok hx] at h
      split at h
      · cases h
      · rename_i hlen
        rw [new_ok hN] at h
        simp only at h
        obtain ⟨b, h1, h2⟩ := decPush_bounded _ _ (by simp only [List.length_nil]; omega) h
        exact ⟨b, h1, by rw [h2]; simp only [List.length_nil]; omega⟩
  · intro h
    unfold decVec at h
    cases hx : (dec : Dec (List T)) bs with
    | error e => rw [Dec.bind_err hx] at h; cases h
    | ok q =>
      obtain ⟨inner, r1⟩ := q
      rw [Dec.bind_ok hx] at h
      split at h
      · cases h
      · rename_i hlen
        rw [new_ok hN] at h
        simp only at h
        rw [pushAll_ok _ _ (by simp only [List.length_nil]; omega)] at h
        injection h with h
        injection h with h _
        exact ⟨_, h.symm, by simp only [List.nil_append]; omega⟩

example : decVec UInt8 2 [1, 200, 5] = .ok (.ok ⟨[200]⟩, [5]) := by rfl

end Payload
end Verif
