import Verif.Spec.VideoSource
/-!
Lemmas for `Props/VideoSource`.
-/
namespace Verif
namespace VideoSource
open Clock
variable {F : Type}

theorem pushBack_drop {N k : Nat} {a : List F} {f : F} (hk : k ≤ a.length) :
    Ring.pushBack N (a.drop (max k (a.length - N))) f = (a ++ [f]).drop (max k (a.length + 1 - N)) := by
  unfold Ring.pushBack
  by_cases h0 : N = 0
  · subst h0
    rw [if_pos rfl, List.drop_of_length_le (by omega), List.drop_of_length_le (by simp; omega)]
  · rw [if_neg h0]
    by_cases h : k ≤ a.length - N
    · rw [Nat.max_eq_right h, Nat.max_eq_right (by omega)]
      by_cases hl : N ≤ a.length
      · rw [if_neg (by simp; omega), List.drop_drop, List.drop_append_of_le_length (by omega)]
        congr 2
        omega
      · rw [if_pos (by simp; omega), List.drop_append_of_le_length (by omega)]
        congr 2
        omega
    · rw [Nat.max_eq_left (by omega), if_pos (by simp; omega), Nat.max_eq_left (by omega),
        List.drop_append_of_le_length hk]

theorem run_deliveries (N : Nat) (l : List (Event F)) (s : Source F) (v : Seen F)
    (hb : s.buffer = v.arrived.drop (v.due N)) (hn : v.next ≤ v.arrived.length) :
    (run N s l).map (·.payload) = (deliveries N v l).map (·.map (·.2)) := by
  induction l generalizing s v with
  | nil => rfl
  | cons e l ih =>
    cases e with
    | frame f =>
      simp only [run, deliveries]
      refine ih _ _ ?_ (by simp; omega)
      simp only [Source.step, hb]
      unfold Seen.due
      simp only [List.length_append, List.length_cons, List.length_nil]
      exact pushBack_drop hn
    | start =>
      simp only [run, deliveries]
      refine ih _ _ ?_ (by simp)
      simp only [Source.step, Seen.due]
      rw [List.drop_of_length_le (by omega)]
    | stop =>
      simp only [run, deliveries]
      refine ih _ _ ?_ (by simp)
      simp only [Source.step, Seen.due]
      rw [List.drop_of_length_le (by omega)]
    | process now =>
      simp only [run, deliveries, Source.step]
      cases hd : v.arrived[v.due N]? with
      | none =>
        have hle := List.getElem?_eq_none_iff.1 hd
        have he : s.buffer = [] := by rw [hb, List.drop_of_length_le hle]
        simp only [Source.process, he, Msg.clearPayload, List.map_cons, Option.map_none]
        congr 1
        exact ih _ _ (by rw [← he, hb]) hn
      | some f =>
        obtain ⟨hlt, hf⟩ := List.getElem?_eq_some_iff.1 hd
        have he : s.buffer = f :: v.arrived.drop (v.due N + 1) := by
          rw [hb, List.drop_eq_getElem_cons hlt, hf]
        simp only [Source.process, he, Msg.setPayload, List.map_cons, Option.map_some]
        congr 1
        refine ih _ _ ?_ (by simp; omega)
        simp only [Seen.due]
        congr 1
        unfold Seen.due at hlt
        omega

theorem deliveries_bound (N : Nat) (l : List (Event F)) (v : Seen F) (hn : v.next ≤ v.arrived.length) :
    ((deliveries N v l).filterMap id).Pairwise (fun a b => a.1 < b.1) ∧
    ∀ x ∈ (deliveries N v l).filterMap id, v.next ≤ x.1 := by
  induction l generalizing v with
  | nil => simp [deliveries]
  | cons e l ih =>
    cases e with
    | frame f => exact ih _ (by simp; omega)
    | start =>
      have := ih { v with next := v.arrived.length } (Nat.le_refl _)
      exact ⟨this.1, fun x hx => Nat.le_trans hn (this.2 x hx)⟩
    | stop =>
      have := ih { v with next := v.arrived.length } (Nat.le_refl _)
      exact ⟨this.1, fun x hx => Nat.le_trans hn (this.2 x hx)⟩
    | process now =>
      simp only [deliveries]
      cases hd : v.arrived[v.due N]? with
      | none => simpa using ih v hn
      | some f =>
        obtain ⟨hlt, _⟩ := List.getElem?_eq_some_iff.1 hd
        have := ih { v with next := v.due N + 1 } (by simp; omega)
        have hdue : v.next ≤ v.due N := Nat.le_max_left _ _
        simp only [List.filterMap_cons, id_eq, List.pairwise_cons, List.mem_cons]
        refine ⟨⟨fun x hx => ?_, this.1⟩, ?_⟩
        · have := this.2 x hx; simp only at this; omega
        · rintro x (rfl | hx)
          · exact hdue
          · have := this.2 x hx; simp only at this; omega

theorem deliveries_all (N : Nat) (l : List (Event F)) (v : Seen F) (hn : v.next ≤ v.arrived.length)
    (hw : v.arrived.length - v.next ≤ N) (hk : KeepsUp N (v.arrived.length - v.next) l) :
    ∃ k, ((deliveries N v l).filterMap id).map (·.1) = List.range' v.next k := by
  induction l generalizing v with
  | nil => exact ⟨0, rfl⟩
  | cons e l ih =>
    cases e with
    | frame f =>
      obtain ⟨h1, h2⟩ := hk
      refine ih { v with arrived := v.arrived ++ [f] } (by simp; omega) (by simp; omega) ?_
      simp only [List.length_append, List.length_cons, List.length_nil]
      rwa [show v.arrived.length + (0 + 1) - v.next = v.arrived.length - v.next + 1 by omega]
    | start => exact hk.elim
    | stop => exact hk.elim
    | process now =>
      have hdue : v.due N = v.next := Nat.max_eq_left (by omega)
      simp only [deliveries, hdue]
      simp only [KeepsUp] at hk
      cases hd : v.arrived[v.next]? with
      | none =>
        have hle := List.getElem?_eq_none_iff.1 hd
        have := ih v hn hw (by rwa [show v.arrived.length - v.next - 1 = v.arrived.length - v.next by omega] at hk)
        simpa using this
      | some f =>
        obtain ⟨hlt, _⟩ := List.getElem?_eq_some_iff.1 hd
        obtain ⟨k, hk'⟩ := ih { v with next := v.next + 1 } (by simp; omega) (by simp; omega)
          (by simp only; rwa [show v.arrived.length - (v.next + 1) = v.arrived.length - v.next - 1 by omega])
        refine ⟨k + 1, ?_⟩
        simp only [List.filterMap_cons, id_eq, List.map_cons, hk', List.range'_succ]

end VideoSource
end Verif
