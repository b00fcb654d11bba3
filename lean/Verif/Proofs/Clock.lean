import Verif.Model.Clock
import Verif.Proofs.Bincode
namespace Verif
open Bincode
namespace Clock

theorem rt_duration (d : CuDuration) : RoundTrips d := by
  intro rest
  show ((dec : Dec UInt64) >>= fun n => pure (⟨n⟩ : CuDuration)) (enc d.ns ++ rest) = _
  rw [Dec.bind_ok (rt_u64 _ _)]; rfl

theorem rt_optionCuTime (d : OptionCuTime) : RoundTrips d := by
  intro rest
  show ((dec : Dec CuDuration) >>= fun n => pure (⟨n⟩ : OptionCuTime)) (enc d.inner ++ rest) = _
  rw [Dec.bind_ok (rt_duration _ _)]; rfl

theorem rt_timeRange (r : CuTimeRange) : RoundTrips r := by
  intro rest
  show ((dec : Dec CuDuration) >>= fun a => (dec : Dec CuDuration) >>= fun b =>
    pure (⟨a, b⟩ : CuTimeRange)) ((enc r.start ++ enc r.stop) ++ rest) = _
  rw [List.append_assoc, Dec.bind_ok (rt_duration _ _), Dec.bind_ok (rt_duration _ _)]; rfl

theorem rt_partialTimeRange (r : PartialCuTimeRange) : RoundTrips r := by
  intro rest
  show ((dec : Dec OptionCuTime) >>= fun a => (dec : Dec OptionCuTime) >>= fun b =>
    pure (⟨a, b⟩ : PartialCuTimeRange)) ((enc r.start ++ enc r.stop) ++ rest) = _
  rw [List.append_assoc, Dec.bind_ok (rt_optionCuTime _ _), Dec.bind_ok (rt_optionCuTime _ _)]; rfl

theorem rt_tov (t : Tov) : RoundTrips t := by
  intro rest
  cases t with
  | none => rfl
  | time t =>
    show ((dec : Dec CuDuration) >>= fun a => pure (Tov.time a)) (enc t ++ rest) = _
    rw [Dec.bind_ok (rt_duration _ _)]; rfl
  | range r =>
    show ((dec : Dec CuTimeRange) >>= fun a => pure (Tov.range a)) (enc r ++ rest) = _
    rw [Dec.bind_ok (rt_timeRange _ _)]; rfl

theorem foldl_min_spec (l : List CuTime) (a : CuTime) :
    let r := l.foldl (fun m t => if t.ns < m.ns then t else m) a
    r ∈ a :: l ∧ ∀ t ∈ a :: l, r.ns ≤ t.ns := by
  induction l generalizing a with
  | nil => simp
  | cons b l ih =>
    simp only [List.foldl_cons]
    obtain ⟨h1, h2⟩ := ih (if b.ns < a.ns then b else a)
    refine ⟨?_, ?_⟩
    · rcases List.mem_cons.1 h1 with h | h
      · rw [h]; split <;> simp
      · simp [h]
    · intro t ht
      have h3 := h2 _ (List.mem_cons_self)
      rcases List.mem_cons.1 ht with rfl | ht
      · refine UInt64.le_trans h3 ?_
        split
        · exact UInt64.le_of_lt ‹_›
        · exact UInt64.le_refl _
      · rcases List.mem_cons.1 ht with rfl | ht
        · refine UInt64.le_trans h3 ?_
          split
          · exact UInt64.le_refl _
          · exact UInt64.not_lt.1 ‹_›
        · exact h2 t (List.mem_cons_of_mem _ ht)

theorem foldl_max_spec (l : List CuTime) (a : CuTime) :
    let r := l.foldl (fun m t => if m.ns ≤ t.ns then t else m) a
    r ∈ a :: l ∧ ∀ t ∈ a :: l, t.ns ≤ r.ns := by
  induction l generalizing a with
  | nil => simp
  | cons b l ih =>
    simp only [List.foldl_cons]
    obtain ⟨h1, h2⟩ := ih (if a.ns ≤ b.ns then b else a)
    refine ⟨?_, ?_⟩
    · rcases List.mem_cons.1 h1 with h | h
      · rw [h]; split <;> simp
      · simp [h]
    · intro t ht
      have h3 := h2 _ (List.mem_cons_self)
      rcases List.mem_cons.1 ht with rfl | ht
      · refine UInt64.le_trans ?_ h3
        split
        · exact ‹_›
        · exact UInt64.le_refl _
      · rcases List.mem_cons.1 ht with rfl | ht
        · refine UInt64.le_trans ?_ h3
          split
          · exact UInt64.le_refl _
          · exact UInt64.le_of_lt (UInt64.not_le.1 ‹_›)
        · exact h2 t (List.mem_cons_of_mem _ ht)

theorem u64Arith_exact (o : Overflow) (n : Nat) (h : n < 18446744073709551616) :
    u64Arith o (n : Int) = some (UInt64.ofNat n) := by
  unfold u64Arith
  rw [if_pos ⟨by omega, by omega⟩]; simp

theorem u64Arith_panics (r : Int) (h : r < 0 ∨ 18446744073709551616 ≤ r) :
    u64Arith .checked r = none := by
  unfold u64Arith
  rw [if_neg (by omega)]

end Clock
end Verif
