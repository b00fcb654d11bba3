import Verif.Proofs.DynThreshold
/-! C46: the adaptive threshold. -/
namespace Verif
namespace Threshold

/-- C46.  Whatever the size of the images, the radius and the contents: if the sum of the pixels of a white
image of this size fits in 32 bits, a task that has been created thresholds every image of a sequence of images
of the right size by the mean of the window around every pixel, clipped to the image; it refuses every image
of a wrong size, and nothing of an earlier image or of an earlier use of a buffer shows. -/
theorem C46_threshold_partial (w h r : Nat) (t : Task) (ht : Task.new w h r = .ok t) (hb : 255 * (w * h) < 2 ^ 32)
    (h0 : 0 < r) (hr : r < 2 ^ 31) (xs : List (List UInt8 × List UInt8)) (hd : ∀ x ∈ xs, x.2.length = w * h) :
    ∃ outs, t.run xs = .ok outs ∧ Pointwise (fun (x : List UInt8 × List UInt8) o =>
      (x.1.length = w * h → ∃ out, o = some out ∧ Thresholded x.1 w h r out) ∧ (x.1.length ≠ w * h → o = none)) xs outs := by
  have hg := new_good ht
  clear ht
  induction xs generalizing t with
  | nil => exact ⟨[], rfl, .nil⟩
  | cons x xs ih =>
    obtain ⟨src, dst⟩ := x
    obtain ⟨t', o, h1, h2, h3⟩ := process_good hg hb h0 hr (src := src) (hd _ (List.mem_cons_self ..))
    obtain ⟨outs, h4, h5⟩ := ih t' (fun x hx => hd x (by simp [hx])) h2
    refine ⟨o :: outs, ?_, .cons h3 h5⟩
    simp only [Task.run, h1, Rs.ok_bind, h4]

/-- The tasks of the sizes the theorem speaks of can be created. -/
theorem C46_new (w h r : Nat) (hb : (w + 1) * (h + 1) < 2 ^ 32) : ∃ t, Task.new w h r = .ok t := by
  have h1 : w * h ≤ (w + 1) * (h + 1) := Nat.mul_le_mul (by omega) (by omega)
  refine ⟨⟨List.replicate ((w + 1) * (h + 1)) 0, w, h, r⟩, ?_⟩
  simp only [Task.new, u32]
  rw [if_pos (by omega)]
  simp only [Rs.ok_bind]
  rw [if_pos hb]
  rfl

/-- C46, violated for large images: a white image of more pixels than 32 bits can sum makes the task panic. -/
theorem C46_violated_large (w h r : Nat) (t : Task) (ht : Task.new w h r = .ok t) (hb : 2 ^ 32 ≤ 255 * (w * h))
    (dst : List UInt8) : t.process (List.replicate (w * h) 255) dst = .panic := by
  obtain ⟨rfl, rfl, rfl, hbo⟩ := new_good ht
  have hl : (List.replicate (t.width * t.height) (255 : UInt8)).length = t.width * t.height := by simp
  have hw : t.width ≠ 0 := by intro h; rw [h] at hb; simp at hb
  have hh : t.height ≠ 0 := by intro h; rw [h] at hb; simp at hb
  unfold Task.process
  rw [if_neg (by simpa using hl)]
  have ha : ¬ area (pixel (List.replicate (t.width * t.height) 255) t.width) t.width t.height < 2 ^ 32 := by
    rw [white_area _ _ _ (Nat.le_refl _)]
    omega
  have hp := (rows_eq hl t.height 0 t.integral (by omega) (hbo.inv _)).2 hh hw ha
  rw [← List.range_eq_range'] at hp
  simp only [integralImage, hp]
  rfl

/-- C46, violated for a radius of zero, which nothing refuses when the task is created: it panics on every
image of the right size. -/
theorem C46_violated_zero (w h : Nat) (t : Task) (ht : Task.new w h 0 = .ok t) (src dst : List UInt8)
    (hl : src.length = w * h) : t.process src dst = .panic := by
  obtain ⟨rfl, rfl, h0, hbo⟩ := new_good ht
  unfold Task.process
  rw [if_neg (by simpa using hl)]
  cases integralImage src t.integral t.width t.height with
  | panic => rfl
  | ok i => simp only [Rs.ok_bind, adaptiveThreshold, h0]; rfl

/-- C46, violated for radii of 2^31 or more, which wrap to negative ones: the task panics. -/
theorem C46_violated_radius : ∃ t, Task.new 1 1 (2 ^ 32 - 1) = .ok t ∧ t.process [7] [0] = .panic := by
  refine ⟨⟨[0, 0, 0, 0], 1, 1, 2 ^ 32 - 1⟩, by decide, by decide +kernel⟩

/-- Two images of three by two pixels, an image of a wrong size between them. -/
example : ∃ t, Task.new 3 2 1 = .ok t ∧
    t.run [([10, 20, 30, 40, 50, 60], [1, 2, 3, 4, 5, 6]), ([1, 2], [0, 0, 0, 0, 0, 0]), ([9, 9, 9, 9, 9, 10], [0, 0, 0, 0, 0, 0])] =
      .ok [some [0, 0, 0, 255, 255, 255], none, some [0, 0, 0, 0, 0, 255]] :=
  ⟨⟨List.replicate 12 0, 3, 2, 1⟩, by decide, by decide +kernel⟩

example : Brighter [10, 20, 30, 40, 50, 60] 3 2 1 0 1 ∧ ¬ Brighter [10, 20, 30, 40, 50, 60] 3 2 1 2 0 := by
  unfold Brighter; decide +kernel

example : window [10, 20, 30, 40, 50, 60] 3 2 1 0 1 = [10, 20, 40, 50] := by decide +kernel

end Threshold
end Verif
