import Verif.Proofs.Camera
/-! C72: the camera delivers each frame once, in order, and leaves delivered images alone. -/
namespace Verif
namespace Camera
variable {D : Type}

/-- For any history without two starts in a row, on a device that granted the buffers, the calls give what
the queue of frames says, unless one panics. -/
theorem C72_frames_partial (n G : Nat) (hG : n ≤ G) (d : D) (es : List (Event D)) (hs : startsOnce true es = true)
    (s : Cam D) (os : List (Out D)) (h : (Cam.new n d).run G es = .ok (s, os)) :
    os = (View.new.run n es).2 :=
  (rel_run hG es (rel_new n d) hs h).2

/-- The image of a delivery is that of the message. -/
theorem C72_message (n G : Nat) (hG : n ≤ G) (d : D) (es : List (Event D)) (hs : startsOnce true es = true)
    (s : Cam D) (os : List (Out D)) (h : (Cam.new n d).run G es = .ok (s, os))
    (arrivals : List (Frame D)) (s' : Cam D) (x : D) (t : UInt64)
    (hp : s.step G (.process arrivals) = .ok (s', .image x t)) : ∃ b, s'.msg = some b ∧ s'.mem b = x := by
  obtain ⟨-, -, -, -, -, -, h7⟩ := rel_process hG (rel_run hG es (rel_new n d) hs h).1 arrivals hp
  obtain ⟨b, h1, h2, -⟩ := h7 x t rfl
  exact ⟨b, h1, h2⟩

/-- Whatever happens, an image in the message or kept by a task is not written to. -/
theorem C72_images_stay (n G : Nat) (hG : n ≤ G) (d : D) (es : List (Event D)) (e : Event D)
    (hs : startsOnce true (es ++ [e]) = true) (s s' : Cam D) (os : List (Out D)) (o : Out D)
    (h : (Cam.new n d).run G es = .ok (s, os)) (he : s.step G e = .ok (s', o)) (b : Buf)
    (hb : s.msg = some b ∨ b ∈ s.kept) : s'.mem b = s.mem b := by
  obtain ⟨h1, h2⟩ := startsOnce_snoc e es true hs
  have hr := (rel_run hG es (rel_new n d) h1 h).1
  refine (rel_step hG hr e (fun m r he' => ?_) he).2.2.1 b hb
  rw [run_active hG es (rel_new n d) h1 h]
  exact h2 m r he'

/-- Frames for the examples. -/
def frame (k : Nat) : Frame Nat := ⟨k, 100, k⟩
/-- The source with the default number of buffers. -/
abbrev cam : Cam Nat := Cam.new 4 0

/-- Five frames arrive, of which there is room for four; a task keeps the first. -/
example : ∃ s os, cam.run 4 [.start 0 0, .process [frame 1, frame 2], .keep, .capture (frame 3), .capture (frame 4),
      .scribble 0 9, .capture (frame 5), .process [], .stop] = .ok (s, os) ∧
    os = [.quiet, .image 1 1, .quiet, .quiet, .quiet, .quiet, .quiet, .image 2 2, .quiet] := by
  refine ⟨_, _, rfl, ?_⟩
  decide +kernel

/-- From the first start on, as long as a frame which is not empty is there at each call and no task keeps an
image, no call panics. -/
theorem C72_no_panic_partial (n G : Nat) (hn : 0 < n) (hG : n ≤ G) (d : D) (m r : Nat) (es : List (Event D))
    (hes : ∀ e ∈ es, (∃ f, e = .capture f) ∨ (∃ k x, e = .scribble k x) ∨ e = .clear ∨ ∃ a, e = .process a)
    (hos : ∀ o ∈ (View.new.run n (.start m r :: es)).2, o = .quiet ∨ ∃ x t, o = .image x t) :
    ∃ s, (Cam.new n d).run G (.start m r :: es) = .ok (s, (View.new.run n (.start m r :: es)).2) := by
  -- the start
  have hr0 := rel_new n d
  have hstart : ∃ s1, (Cam.new n d).step G (.start m r) = .ok (s1, .quiet) ∧ s1.kept = [] ∧ s1.msg = none ∧ s1.last = 0 := by
    have hc0 : Core n ({ Cam.new n d with offset := (m : Int) - r } : Cam D) :=
      { len := hr0.core.len, nodup := hr0.core.nodup, apart := hr0.core.apart, all := hr0.core.all, inj := hr0.core.inj,
        idx := hr0.core.idx, bufs := hr0.core.bufs, out := hr0.core.out, mem := hr0.core.mem }
    have hl : (Cam.new n d).arena.length = n := hr0.core.len
    obtain ⟨⟨s1, ok⟩, h1⟩ := queueAll_ok hG (List.range' 1 (n - 1)) hc0 (fun i b hi => by cases hi) rfl rfl
      List.nodup_range' (fun i hi => ⟨by have := List.mem_range'_1.1 hi; omega, by simp [Cam.taken, Cam.new]⟩)
    obtain ⟨rfl, -, -, r4, -⟩ := queueAll_spec hG _ hc0 (fun i b hi => by cases hi) List.nodup_range'
      (fun i _ => by simp [Cam.taken, Cam.new]) h1
    refine ⟨{ s1 with last := 0, active := true }, ?_, r4.kept, r4.msg, rfl⟩
    simp only [Cam.step, Cam.start, hl, h1, if_true]
  obtain ⟨s1, h1, hk, hm, hlast⟩ := hstart
  have hr1 := (rel_step hG hr0 (.start m r) (fun _ _ _ => rfl) h1).1
  -- the rest
  have main : ∀ (es : List (Event D)) (s : Cam D) (v : View D), Rel n s v → s.kept = [] →
      (∀ b, s.msg = some b → some b ∈ s.arena) → s.last < n →
      (∀ e ∈ es, (∃ f, e = .capture f) ∨ (∃ k x, e = .scribble k x) ∨ e = .clear ∨ ∃ a, e = .process a) →
      (∀ o ∈ (v.run n es).2, o = .quiet ∨ ∃ x t, o = .image x t) → ∃ s', s.run G es = .ok (s', (v.run n es).2) := by
    intro es
    induction es with
    | nil => exact fun s v _ _ _ _ _ _ => ⟨s, rfl⟩
    | cons e es ih =>
      intro s v hr hk hm hl hes hos
      have key : ∃ s1 o, s.step G e = .ok (s1, o) ∧ s1.kept = [] ∧ (∀ b, s1.msg = some b → some b ∈ s1.arena) ∧
          s1.last < n := by
        rcases hes e (by simp) with ⟨f, rfl⟩ | ⟨k, x, rfl⟩ | rfl | ⟨a, rfl⟩
        · obtain ⟨-, -, c3, c4, -, -, c7, c8, -⟩ := capture_spec hr.core f
          exact ⟨_, _, rfl, c8.trans hk, by rw [c7, c3]; exact hm, by rw [c4]; exact hl⟩
        · refine ⟨_, _, rfl, ?_⟩
          unfold Cam.scribble
          split <;> exact ⟨hk, hm, hl⟩
        · exact ⟨_, _, rfl, by rw [reclaim_kept]; exact hk, (by rw [reclaim_msg]; intro b hb; cases hb),
            by rw [reclaim_last]; exact hl⟩
        · obtain ⟨⟨s1, o⟩, h1⟩ := process_ok hG hr a (free_ne hr.core hk hm) hl
          obtain ⟨-, r2, -, r4, -, r6, r7⟩ := rel_process hG hr a h1
          refine ⟨s1, o, h1, r4.trans hk, ?_, process_last hl hr.core.len a h1⟩
          intro b hb
          have hq := hos o (by rw [r2]; exact List.mem_cons_self ..)
          rcases hq with hq | ⟨x, t, hq⟩
          · exfalso
            rw [r2] at hq
            simp only [View.process] at hq
            split at hq
            · cases hq
            · split at hq
              · cases hq
              · split at hq <;> cases hq
          · obtain ⟨b', q1, -, q3⟩ := r7 x t hq
            rw [q1] at hb
            cases hb
            exact q3
      obtain ⟨s1, o, h1, k1, k2, k3⟩ := key
      obtain ⟨r1, r2, -, -⟩ := rel_step hG hr e
        (fun m r he => by rcases hes e (by simp) with ⟨f, rfl⟩ | ⟨k, x, rfl⟩ | rfl | ⟨a, rfl⟩ <;> cases he) h1
      obtain ⟨s', h2⟩ := ih s1 _ r1 k1 k2 k3 (fun e he => hes e (by simp [he]))
        (fun o ho => hos o (List.mem_cons_of_mem _ ho))
      refine ⟨s', ?_⟩
      simp only [Cam.run, h1, h2, View.run, r2]
  obtain ⟨s', h2⟩ := main es s1 _ hr1 hk (by rw [hm]; intro b h; cases h) (by omega) hes
    (fun o ho => hos o (List.mem_cons_of_mem _ ho))
  exact ⟨s', by simp only [Cam.run, h1, h2, View.run]; rfl⟩

example : (View.new.run 4 [.start 5 3, .process [frame 1, frame 2], .capture (frame 3), .clear, .process []]).2 =
    [.quiet, .image 1 3, .quiet, .quiet, .image 2 4] := by decide +kernel

/-- Once a frame did not come in time, every later call fails until the source is stopped, whatever comes. -/
theorem C72_timeout_violated (n G : Nat) (hG : n ≤ G) (d : D) (es es' : List (Event D)) (arrivals : List (Frame D))
    (hs : startsOnce true (es ++ .process arrivals :: es') = true) (hstop : Event.stop ∉ es')
    (s : Cam D) (os os' : List (Out D)) (s0 : Cam D) (h0 : (Cam.new n d).run G es = .ok (s0, os))
    (hrun : s0.active = true)
    (h : (Cam.new n d).run G (es ++ .process arrivals :: es') = .ok (s, os ++ .failed :: os')) :
    ∀ (k : Nat) (a : List (Frame D)), es'[k]? = some (.process a) → os'[k]? = some .failed := by
  have h1 := C72_frames_partial n G hG d _ hs _ _ h
  obtain ⟨hr, h2⟩ := rel_run hG es (rel_new n d) (startsOnce_prefix _ _ _ hs) h0
  rw [view_append] at h1
  have h3 : os = ((View.new : View D).run n es).2 := h2
  rw [← h3] at h1
  have h4 := List.append_cancel_left h1
  simp only [View.run, View.step, List.cons.injEq] at h4
  obtain ⟨h5, h6⟩ := h4
  -- the view is stuck from there on
  generalize hv : ((View.new : View D).run n es).1 = v at *
  have hrun' : v.running = true := by rw [hr.running, hrun]
  have hstuck : (v.process arrivals).1.stuck = true ∧ (v.process arrivals).1.running = true := by
    unfold View.process at h5 ⊢
    split at h5
    · rename_i hc
      rw [if_pos hc]
      rcases hc with hc | hc
      · rw [hrun'] at hc; cases hc
      · exact ⟨hc, hrun'⟩
    · rename_i hc
      rw [if_neg hc]
      simp only at h5 ⊢
      have := captures_running arrivals { v with room := v.room + 1 }
      generalize arrivals.foldl View.capture { v with room := v.room + 1 } = v2 at *
      split at h5
      · rename_i hw
        rw [hw]
        exact ⟨rfl, this.trans hrun'⟩
      · split at h5 <;> cases h5
  -- no start may follow
  obtain ⟨may, hm1, hm2⟩ := startsOnce_suffix es _ _ hs
  have hmay : may = false := by
    have := view_running n es (View.new : View D)
    rw [hv, hrun'] at this
    rw [hm2, fold_not]
    simp only [Bool.not_true]
    have h' : (View.new : View D).running = false := rfl
    rw [h'] at this
    rw [← this]; rfl
  subst hmay
  have hm3 : startsOnce false es' = true := by simpa [startsOnce] using hm1
  intro k a hk
  rw [h6]
  exact stuck_run n es' _ hstuck.1 hstuck.2 hstop hm3 k a hk

/-- Frames come again after a time without, and are not delivered. -/
example : ∃ s, cam.run 4 [.start 0 0, .process [frame 1], .process [], .clear, .process [frame 2, frame 3],
      .process [frame 4]] = .ok (s, [.quiet, .image 1 1, .failed, .quiet, .failed, .failed]) := by
  refine ⟨_, rfl⟩

/-- And when the runtime does not clear the message, the next call panics. -/
theorem C72_timeout_panic_violated :
    cam.run 4 [.start 0 0, .process [frame 1], .process [], .process [frame 2]] = .panic := rfl

/-- An empty frame after an image makes the next call panic. -/
theorem C72_empty_violated :
    cam.run 4 [.start 0 0, .process [frame 1], .process [⟨2, 0, 2⟩], .process [frame 3]] = .panic := rfl

/-- A task that keeps one image makes a later call panic. -/
theorem C72_keep_violated :
    cam.run 4 [.start 0 0, .process [frame 1], .keep, .process [frame 2], .process [frame 3]] = .panic := rfl

/-- Starting again after a stop may panic. -/
theorem C72_restart_violated :
    cam.run 4 [.start 0 0, .process [frame 1], .stop, .start 10 10] = .panic := rfl

/-! ### Times -/

/-- A frame taken `after` nanoseconds after the start gets the time of the robot then only if the two clocks
show the same at the start: their difference is added where it should be taken away. -/
theorem C72_time_partial (monotonic robot after : Nat) (h : monotonic + after < 2 ^ 62) (h' : robot ≤ monotonic) :
    (toRobot (monotonic - robot : Int) (monotonic + after)).toNat = robot + after ↔ monotonic = robot := by
  have : (toRobot (monotonic - robot : Int) (monotonic + after)).toNat = 2 * monotonic + after - robot := by
    have he : ((↑(monotonic + after) : Int) + (monotonic - robot)) = ((2 * monotonic + after - robot : Nat) : Int) := by omega
    rw [toRobot, he, UInt64.ofInt, UInt64.toNat_ofNat']
    omega
  rw [this]
  omega

/-- On a machine up for an hour, an image is dated two hours late. -/
theorem C72_time_violated : (toRobot (3600000000000 - 0) (3600000000000 + 5)).toNat = 7200000000005 := by decide

/-! ### The format -/

/-- The size asked of the device is the one configured when the device offers it, or its first one. -/
theorem C72_size_partial (sizes : List (Nat × Nat)) (w h : Nat) (hw : (w, h) ∈ sizes) :
    chooseSize (some w, some h) (sizes.map fun s => .discrete s.1 s.2) = .ok (w, h) ∧
    chooseSize (none, none) (sizes.map fun s => .discrete s.1 s.2) = .ok (sizes.head (List.ne_nil_of_mem hw)) := by
  constructor
  · simp only [chooseSize]
    induction sizes with
    | nil => cases hw
    | cons s sizes ih =>
      simp only [List.map_cons, findSize]
      split
      · rename_i h; rw [h.1, h.2]
      · rename_i hne
        rcases List.mem_cons.1 hw with rfl | hw
        · exact absurd ⟨rfl, rfl⟩ hne
        · exact ih hw
  · cases sizes with
    | nil => cases hw
    | cons s sizes => rfl

example : chooseSize (some 640, some 480) [.discrete 1920 1080, .discrete 640 480] = .ok (640, 480) := by decide

/-- A size the device does not have is asked as 0 by 0; a device with other kinds of sizes is a panic. -/
theorem C72_size_violated : chooseSize (some 640, some 481) [.discrete 1920 1080, .discrete 640 480] = .ok (0, 0) ∧
    chooseSize (some 640, some 480) [.stepwise] = .panic ∧ chooseSize (some 640, none) [.discrete 1920 1080] = .ok (1920, 1080) := by
  decide

/-- The pixel format is one the device has: the one configured, if any. -/
theorem C72_fourcc (req : Option (List UInt8)) (formats : List (List UInt8)) (c : List UInt8) :
    chooseFourcc req formats = some c ↔
      c ∈ formats ∧ (∀ r, req = some r → c = r ∧ r.length = 4) ∧ (req = none → formats.head? = some c) := by
  cases formats with
  | nil => simp [chooseFourcc]
  | cons f l =>
    cases req with
    | none =>
      simp only [chooseFourcc, Option.some.injEq, List.head?_cons, forall_const]
      constructor
      · rintro rfl; simp
      · exact fun h => h.2.2
    | some r =>
      simp only [chooseFourcc]
      by_cases hl : r.length = 4
      · by_cases hm : r ∈ f :: l
        · simp only [hl, ne_eq, not_true_eq_false, if_false, List.contains_iff_mem, hm, if_true, Option.some.injEq]
          constructor
          · rintro rfl; exact ⟨hm, fun r h => by cases h; exact ⟨rfl, hl⟩, nofun⟩
          · exact fun h => (h.2.1 r rfl).1.symm
        · simp only [hl, ne_eq, not_true_eq_false, if_false, List.contains_iff_mem, hm]
          constructor
          · exact nofun
          · intro h; exact absurd ((h.2.1 r rfl).1 ▸ h.1) hm
      · simp only [ne_eq, hl, not_false_eq_true, if_true]
        constructor
        · exact nofun
        · intro h; exact absurd (h.2.1 r rfl).2 hl

example : chooseFourcc (some [89, 85, 89, 86]) [[77, 74, 80, 71], [89, 85, 89, 86]] = some [89, 85, 89, 86] := by decide

/-! ### Opening and dropping -/

/-- If the device lets itself be stopped, or is gone, and the timeout is at most that of `poll`, opening it gives a
source exactly if both requests are granted, and an error otherwise; dropping the source does not panic. -/
theorem C72_open_partial (dev : Answers) (ms : Nat) (hoff : ∀ e ∈ dev.off, e = 19) (hms : ms < 2 ^ 31) :
    (∃ r, openStream dev ms = .ok r ∧
      ∀ g t, r = some (g, t) ↔ dev.format = none ∧ (∃ n, dev.request = .ok n ∧ n = g) ∧ ms = t) ∧
    dropStream dev = .ok () := by
  obtain ⟨fmt, req, off⟩ := dev
  have hd : dropStream ⟨fmt, req, off⟩ = .ok () := by
    cases off with
    | none => rfl
    | some e => simp only [dropStream]; rw [if_pos (hoff e rfl)]
  refine ⟨?_, hd⟩
  unfold openStream withBuffers
  rw [hd]
  cases fmt with
  | some e => exact ⟨none, rfl, by simp⟩
  | none =>
    cases req with
    | error e => exact ⟨none, rfl, by simp⟩
    | ok n =>
      refine ⟨some (n, ms), ?_, by simp⟩
      simp only
      rw [if_pos (by omega)]

example : openStream ⟨none, .ok 4, none⟩ 500 = .ok (some (4, 500)) ∧ openStream ⟨none, .error 22, some 19⟩ 500 = .ok none := by
  decide +kernel

/-- A camera in use by another program (EBUSY, to both requests): the program that opens it panics instead of getting
an error.  So it does with a timeout of 25 days, and when the device has trouble (EIO) as the source is dropped. -/
theorem C72_open_violated : openStream ⟨none, .error 16, some 16⟩ 500 = .panic ∧
    openStream ⟨none, .ok 4, none⟩ 2160000000 = .panic ∧ dropStream ⟨none, .ok 4, some 5⟩ = .panic := by
  decide +kernel

theorem queueAll_short {n G : Nat} (k : Nat) : ∀ (i : Nat) (s : Cam D), i + k = n → s.arena.length = n →
    (∀ j, i ≤ j → j < n → s.arena[j]? = some none) → k ≤ s.free.length → (∃ j, i ≤ j ∧ j < n ∧ G ≤ j) →
    ∃ s', s.queueAll G (List.range' i k) = .ok (s', false) := by
  induction k with
  | zero => intro i s hk _ _ _ ⟨j, h1, h2, _⟩; omega
  | succ k ih =>
    intro i s hk hl hnone hfree ⟨j, h1, h2, h3⟩
    obtain ⟨s1, ok, b, hq, q1, q2, q3⟩ : ∃ s1 ok b, s.queue G i = .ok (s1, ok) ∧ (ok = true → i < G) ∧
        s1.arena = s.arena.set i (some b) ∧ s.free.length = s1.free.length + 1 := by
      obtain ⟨q, hq⟩ : ∃ q, s.queue G i = q := ⟨_, rfl⟩
      rw [hq]
      unfold Cam.queue at hq
      rw [hnone i (Nat.le_refl _) (by omega)] at hq
      match hf : s.free with
      | [] => rw [hf] at hfree; exact absurd hfree (by simp)
      | b :: free =>
        rw [hf] at hq
        simp only at hq
        split at hq
        · rename_i hc
          subst hq
          exact ⟨_, true, b, rfl, fun _ => hc.1, rfl, rfl⟩
        · subst hq
          exact ⟨_, false, b, rfl, nofun, rfl, rfl⟩
    simp only [List.range'_succ, Cam.queueAll, hq]
    cases ok with
    | false => exact ⟨_, rfl⟩
    | true =>
      have := q1 rfl
      refine ih (i + 1) s1 (by omega) (by rw [q2]; simpa using hl) (fun j' h h' => ?_) (by omega) ⟨j, by omega, h2, h3⟩
      rw [q2, List.getElem?_set_ne (by omega)]
      exact hnone j' (by omega) h'

/-- A device that grants fewer buffers than it was asked for, as it may: the source is opened all the same, and starting
it fails, with any number of buffers. -/
theorem C72_granted_violated (n G ms m r : Nat) (d : D) (hG : G < n) (hn : 1 < n) (hms : ms < 2 ^ 31) :
    openStream ⟨none, .ok G, none⟩ ms = .ok (some (G, ms)) ∧
    ∃ s, (Cam.new n d).step G (.start m r) = .ok (s, .failed) := by
  constructor
  · simp only [openStream, withBuffers]
    rw [if_pos (by omega)]
  · have hl : (Cam.new n d).arena.length = n := by simp [Cam.new]
    obtain ⟨s, h⟩ := queueAll_short (G := G) (n := n) (n - 1) 1
      ({ Cam.new n d with offset := (m : Int) - r } : Cam D) (by omega) hl
      (fun j _ hj => by simp [Cam.new, hj]) (by simp [Cam.new]; omega)
      (by
        by_cases h : G = 0
        · exact ⟨1, by omega, hn, by omega⟩
        · exact ⟨G, by omega, hG, by omega⟩)
    refine ⟨s, ?_⟩
    simp only [Cam.step, Cam.start, hl, h]
    rfl

example : ∃ s, cam.step 3 (.start 0 0) = .ok (s, .failed) := ⟨_, rfl⟩

end Camera
end Verif
