import Verif.Spec.Velodyne
/-! Lemmas for `Props/Velodyne`. -/
namespace Verif
namespace Velodyne
open Bincode Clock

theorem push_singles (narrow : F64 → F32) (l : List Return) (c : List CloudPoint) (h : ¬ hasDual l)
    (hc : c.length + l.length ≤ 10000) :
    pushPoints narrow c l = .ok (c ++ (points l).map (cloudPoint narrow)) := by
  induction l generalizing c with
  | nil => simp [pushPoints, points]
  | cons r l ih =>
    have hl : ¬ hasDual l := fun ⟨a, b, h'⟩ => h ⟨a, b, List.mem_cons_of_mem _ h'⟩
    simp only [List.length_cons] at hc
    cases r with
    | single p =>
      rw [pushPoints, if_pos (by omega), ih _ hl (by simp; omega)]
      simp [points]
    | dual a b => exact absurd ⟨a, b, by simp⟩ h

theorem shown_points (narrow : F64 → F32) (l : List Point) : Pointwise (Shown narrow) l (l.map (cloudPoint narrow)) := by
  induction l with
  | nil => exact .nil
  | cons p l ih =>
    refine .cons ⟨fun h => ?_, rfl, rfl, rfl⟩ ih
    show (UInt64.ofNat p.toh).toNat = p.toh
    rw [UInt64.toNat_ofNat']
    omega

theorem push_dual (narrow : F64 → F32) (l : List Return) (c : List CloudPoint) (h : hasDual l) :
    pushPoints narrow c l = .panic := by
  induction l generalizing c with
  | nil => obtain ⟨a, b, h⟩ := h; cases h
  | cons r l ih =>
    cases r with
    | single p =>
      rw [pushPoints]
      split
      · refine ih _ ?_
        obtain ⟨a, b, h⟩ := h
        rcases List.mem_cons.1 h with h | h
        · cases h
        · exact ⟨a, b, h⟩
      · rfl
    | dual a b => rw [pushPoints]

theorem play_payloads (ps : Nat) (l : List Packet) (fuel : Nat) (hf : l.length < fuel) (last : Option Nat) (t : Nat) :
    ((⟨l, last⟩ : Streamer).play ps fuel t).map Prod.snd = payloads ps l := by
  induction l generalizing fuel last t with
  | nil =>
    cases fuel with
    | zero => simp at hf
    | succ fuel => simp [Streamer.play, Streamer.sendNext, payloads]
  | cons p l ih =>
    cases fuel with
    | zero => simp at hf
    | succ fuel =>
      simp only [List.length_cons] at hf
      by_cases h : p.data.length < 42 + ps
      · have h' : ¬ 42 + ps ≤ p.data.length := by omega
        have := ih fuel (by omega) last t
        simp only [payloads] at this ⊢
        simp [Streamer.play, Streamer.sendNext, h, h', this]
      · have h' : 42 + ps ≤ p.data.length := by omega
        simp only [Streamer.play, Streamer.sendNext, h, if_false, List.map_cons]
        rw [ih fuel (by omega)]
        simp [payloads, h']

theorem play_times (ps : Nat) (l : List Packet) (fuel : Nat) (hf : l.length < fuel) (c t : Nat) :
    Paced (t :: ((⟨l, some c⟩ : Streamer).play ps fuel t).map Prod.fst)
      (c :: (l.filter fun p => 42 + ps ≤ p.data.length).map (·.ts)) := by
  induction l generalizing fuel c t with
  | nil =>
    cases fuel with
    | zero => simp at hf
    | succ fuel => simp [Streamer.play, Streamer.sendNext, Paced]
  | cons p l ih =>
    cases fuel with
    | zero => simp at hf
    | succ fuel =>
      simp only [List.length_cons] at hf
      by_cases h : p.data.length < 42 + ps
      · have h' : ¬ 42 + ps ≤ p.data.length := by omega
        have := ih fuel (by omega) c t
        simpa [Streamer.play, Streamer.sendNext, h, h'] using this
      · have h' : 42 + ps ≤ p.data.length := by omega
        simp only [Streamer.play, Streamer.sendNext, h, if_false, List.map_cons, h', decide_true,
          List.filter_cons_of_pos, Paced]
        refine ⟨?_, ih fuel (by omega) _ _⟩
        split
        · split <;> omega
        · omega

end Velodyne
end Verif
