import Verif.Proofs.VideoSource
/-!
C68: frames of a video pipeline.
-/
namespace Verif
namespace VideoSource
open Clock
variable {F : Type}

/-- Each call of `process` delivers the frame that is due, or no payload if there is none, whatever the
history of arrivals, calls, starts and stops. -/
theorem C68_delivered (N : Nat) (m : Msg F) (l : List (Event F)) :
    (run N (Source.new m) l).map (·.payload) = (deliveries N ⟨[], 0⟩ l).map (·.map (·.2)) :=
  run_deliveries N l _ _ (by simp [Source.new]) (Nat.le_refl _)

/-- Frames are delivered in the order they arrived, each at most once. -/
theorem C68_order (N : Nat) (l : List (Event F)) :
    ((deliveries N (⟨[], 0⟩ : Seen F) l).filterMap id).Pairwise (fun a b => a.1 < b.1) :=
  (deliveries_bound N l _ (Nat.le_refl _)).1

/-- After a start only frames that arrived after it are delivered. -/
theorem C68_fresh (N : Nat) (l : List (Event F)) (v : Seen F) (_ : v.next ≤ v.arrived.length) :
    ∀ x ∈ (deliveries N v (.start :: l)).filterMap id, v.arrived.length ≤ x.1 :=
  (deliveries_bound N l { v with next := v.arrived.length } (Nat.le_refl _)).2

/-- As long as there are never more than `N` frames waiting, none is lost: the delivered ones are the
first, the second, and so on. -/
theorem C68_lossless (N : Nat) (l : List (Event F)) (h : KeepsUp N 0 l) :
    ∃ k, ((deliveries N (⟨[], 0⟩ : Seen F) l).filterMap id).map (·.1) = List.range' 0 k :=
  deliveries_all N l _ (Nat.le_refl _) (Nat.zero_le _) h

/-- A call without a frame leaves no payload; the time in the message is the one of an earlier frame. -/
theorem C68_stale_time_violated : ∃ (l : List (Event Nat)) (m : Msg Nat),
    m ∈ run 8 (Source.new (Msg.new none)) l ∧ m.payload = none ∧ m.md.tov ≠ .none :=
  ⟨[.frame 1, .process ⟨5⟩, .process ⟨6⟩], ⟨none, { MsgMeta.default with tov := .time ⟨5⟩ }⟩, by
    simp [run, Source.step, Source.process, Ring.pushBack, Source.new, Msg.new, Msg.setPayload, Msg.clearPayload]⟩

/-! A case: two places, three frames before the first call, the first frame is lost. -/
example : deliveries 2 ⟨[], 0⟩ [.frame 10, .frame 11, .frame 12, .process ⟨1⟩, .process ⟨2⟩, .process ⟨3⟩] =
    [some (1, 11), some (2, 12), none] := rfl
example : KeepsUp 1 0 [Event.frame 10, .process ⟨1⟩, .process ⟨2⟩, .frame 11] := by simp [KeepsUp]

end VideoSource
end Verif
