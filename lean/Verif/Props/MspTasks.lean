import Verif.Proofs.MspTasks
/-! C55: the MSP source delivers what comes on the line.  C56: the MSP sink sends what it is given. -/
namespace Verif
namespace Msp

/-- However the bytes of a stream of frames are split over reads of at most 90 bytes, with any failed
reads in between, the batches of the source put together are the responses of the packets in order; an
iteration leaves its output alone exactly if its read failed. -/
theorem C55_delivers_partial {table : UInt16 → Kind} {f : Packet → Response} {ks : List Packet} {bs : Bytes}
    (hs : Stream ks bs) {reads : List (Option Bytes)} (hr : (reads.filterMap id).flatten = bs)
    (hl : ∀ c : Bytes, some c ∈ reads → c.length ≤ 90) (hf : ∀ k ∈ ks, respond table k = .ok (f k)) :
    ∃ p' outs, srcRun table Parser.new reads = .ok (p', outs) ∧ (outs.filterMap id).flatten = ks.map f ∧
      outs.map Option.isSome = reads.map Option.isSome := by
  obtain ⟨w, h⟩ := feed_stream hs .v1
  rw [← hr] at h
  obtain ⟨outs, h1, h2, h3⟩ := srcRun_eq (table := table) (f := f) h hl (by rw [packets_map_ok]; exact hf)
  rw [packets_map_ok] at h2
  exact ⟨_, outs, h1, h2, h3⟩

/-- A frame cut in two by the reads. -/
example : ∃ (f1 f2 : Bytes), written .v1 ⟨200, .fromFlightController, []⟩ = .ok f1 ∧
    written .v1 ⟨130, .fromFlightController, [1, 2, 3, 4, 5, 6, 7, 8, 9]⟩ = .ok f2 ∧
    Stream [⟨200, .fromFlightController, []⟩, ⟨130, .fromFlightController, [1, 2, 3, 4, 5, 6, 7, 8, 9]⟩]
      ([] ++ f1 ++ ([] ++ f2 ++ [])) ∧
    (srcRun someTable Parser.new [some (f1 ++ f2.take 4), none, some (f2.drop 4)]).map' (·.2) =
      .ok [some [.unknown], none, some [.sized 130 [1, 2, 3, 4, 5, 6, 7, 8, 9]]] := by
  refine ⟨_, _, rfl, rfl, ?_, by decide +kernel⟩
  exact .cons (by decide) (v := .v1) ⟨by decide, by decide⟩ rfl
    (.cons (by decide) (v := .v1) ⟨by decide, by decide⟩ rfl (.nil (by decide)))

/-- More than sixteen packets in one read: the rest is never delivered. -/
theorem C55_violated_batch : ∃ f : Bytes, written .v1 ⟨200, .fromFlightController, []⟩ = .ok f ∧
    (srcRun someTable Parser.new [some (List.replicate 17 f).flatten, some []]).map' (·.2) =
      .ok [some (List.replicate 16 .unknown), some []] :=
  ⟨_, rfl, by decide +kernel⟩

/-- A correct frame with a command code that is not listed, or with too little data for its structure
(a request looped back for instance), makes the source panic. -/
theorem C55_violated_panic (table : UInt16 → Kind) {k : Packet} {v : Version} {f : Bytes} (hk : Fits v k)
    (hf : written v k = .ok f)
    (h : table k.cmd = .invalid ∨ ∃ n, table k.cmd = .sized n ∧ k.data.length < n) :
    srcRun table Parser.new [some f] = .panic := by
  have hr : respond table k = .panic := by
    unfold respond
    rcases h with h | ⟨n, h, hl⟩
    · rw [h]
    · rw [h]; simp [hl]
  have hfeed := feed_written (v := .v1) hk hf
  have key : ∀ (bs : Bytes) (p p' : Parser), p.feed bs = .ok (p', [.ok k]) → drain table p [] bs = .panic := by
    intro bs
    induction bs with
    | nil => intro p p' h; simp [Parser.feed] at h
    | cons b bs ih =>
      intro p p' h
      simp only [Parser.feed] at h
      split at h
      · simp at h
      · rename_i p1 r h1
        split at h
        · simp at h
        · rename_i p2 rs2 h2
          simp only [Rs.ok.injEq, Prod.mk.injEq] at h
          obtain ⟨rfl, he⟩ := h
          cases r with
          | error e => simp at he
          | ok r =>
            cases r with
            | none =>
              simp only at he
              subst he
              simp only [drain, h1]
              exact ih _ _ h2
            | some k' =>
              simp only [List.cons.injEq, Except.ok.injEq] at he
              obtain ⟨rfl, rfl⟩ := he
              simp only [drain, h1, hr]
  have h0 : drain table Parser.new [] f = .panic := key f _ _ hfeed
  simp only [srcRun, srcProcess, h0, Rs.panic_bind]

example : someTable 7 = .invalid ∧ ∃ n, someTable 102 = .sized n ∧ ([] : Bytes).length < n := ⟨rfl, 18, rfl, by decide⟩

/-- Whatever requests the sink is given over its iterations, it writes frames that a parser at the other
end reads as exactly these requests in order, without error. -/
theorem C56_sends (batches : List (List Request)) (h : ∀ b ∈ batches, ∀ c, Request.setRawRc c ∈ b → c.length = 16) :
    (∀ b ∈ batches, (sinkProcess b).2 = none) ∧
    ∃ p', Parser.new.feed (batches.map fun b => (sinkProcess b).1).flatten =
        .ok (p', (batches.flatten.map fun r => .ok r.toPacket)) ∧ p'.betweenPackets = true := by
  have hs : Stream (batches.flatten.map Request.toPacket) (batches.map fun b => (sinkProcess b).1).flatten := by
    induction batches with
    | nil => exact .nil (by simp)
    | cons b bs ih =>
      have h1 := (sink_stream b (h b (by simp))).2 (ih (fun b hb => h b (by simp [hb])))
      simpa using h1
  refine ⟨fun b hb => (sink_stream b (h b hb)).1, ?_⟩
  obtain ⟨w, hw⟩ := feed_stream hs .v1
  rw [List.map_map] at hw
  exact ⟨_, hw, rfl⟩

/-- Distinct requests are distinct packets, and the sixteen channels can be read from the data. -/
theorem C56_requests {r s : Request} (h : r.toPacket = s.toPacket) : r = s := by
  have inj : ∀ {a b : List UInt16}, a.flatMap toLe = b.flatMap toLe → a = b := by
    intro a
    induction a with
    | nil =>
      intro b h
      cases b with
      | nil => rfl
      | cons x b => simp [toLe] at h
    | cons x a ih =>
      intro b h
      cases b with
      | nil => simp [toLe] at h
      | cons y b =>
        simp only [List.flatMap_cons, toLe, List.cons_append, List.nil_append, List.cons.injEq] at h
        obtain ⟨h1, h2, h3⟩ := h
        have hx := le_toNat x
        have hy := le_toNat y
        rw [h1, h2, hy] at hx
        rw [UInt16.toNat_inj.mp hx, ih h3]
  cases r <;> cases s <;> simp [Request.toPacket] at h ⊢ <;> exact inj h

example : ∀ b ∈ [[Request.rc, .setRawRc (List.replicate 16 1500)], [.batteryState]],
    ∀ c, Request.setRawRc c ∈ b → c.length = 16 := by simp

end Msp
end Verif
