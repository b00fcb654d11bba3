import Verif.Model.MspTasks
import Verif.Proofs.Msp
/-! Lemmas on the MSP tasks. -/
namespace Verif
namespace Msp

/-- The packets among the results of the parser. -/
def packets (rs : List (Except Err Packet)) : List Packet :=
  rs.filterMap fun r => match r with | .ok k => some k | .error _ => none

theorem packets_append (a b : List (Except Err Packet)) : packets (a ++ b) = packets a ++ packets b := by
  simp [packets]

theorem packets_map_ok (ks : List Packet) : packets (ks.map .ok) = ks := by
  induction ks with
  | nil => rfl
  | cons k ks ih => simp [packets] at *; exact ih

/-- How far a frame has come, at least, up to its checksum. -/
def progress : State → Nat
  | .header1 => 0
  | .header2 => 1
  | .direction => 2
  | .dataLength => 3
  | .flagV2 => 3
  | .command => 4
  | .commandV2 => 4
  | .dataLengthV2 => 5
  | .data => 5
  | .dataV2 => 5
  | .crc => 5

theorem progress_parse {p p' : Parser} {b : UInt8} {r : Except Err (Option Packet)}
    (h : p.parse b = .ok (p', r)) :
    (∀ k, r = .ok (some k) → p'.state = .header1 ∧ p.state = .crc) ∧ progress p'.state ≤ progress p.state + 1 := by
  obtain ⟨st, v, dir, cmd, rem, data, crc, crc2⟩ := p
  unfold Parser.parse at h
  cases st <;> simp only at h
  all_goals
    repeat' split at h
    all_goals first
      | (simp only [Rs.ok.injEq, Prod.mk.injEq] at h
         obtain ⟨rfl, rfl⟩ := h
         refine ⟨by simp [Parser.reset], ?_⟩
         simp only [progress, Parser.reset]
         try split
         all_goals simp_all
         done)
      | (simp only [Rs.bind_eq_ok, Rs.ok.injEq, Prod.mk.injEq] at h
         obtain ⟨n, _, rfl, rfl⟩ := h
         refine ⟨by simp, ?_⟩
         simp only [progress]
         try split
         all_goals simp_all
         done)
      | simp at h

theorem progress_feed {p p' : Parser} {bs : Bytes} {rs : List (Except Err Packet)}
    (h : p.feed bs = .ok (p', rs)) :
    6 * (packets rs).length + progress p'.state ≤ progress p.state + bs.length := by
  induction bs generalizing p rs with
  | nil =>
    simp only [Parser.feed, Rs.ok.injEq, Prod.mk.injEq] at h
    obtain ⟨rfl, rfl⟩ := h
    simp [packets]
  | cons b bs ih =>
    simp only [Parser.feed] at h
    split at h
    · simp at h
    · rename_i p1 r h1
      split at h
      · simp at h
      · rename_i p2 rs2 h2
        simp only [Rs.ok.injEq, Prod.mk.injEq] at h
        obtain ⟨rfl, rfl⟩ := h
        have h3 := ih h2
        obtain ⟨h4, h5⟩ := progress_parse h1
        cases r with
        | error e =>
          simp only [packets, List.filterMap_cons] at *
          simp only [List.length_cons] at *
          omega
        | ok r =>
          cases r with
          | none => simp only [List.length_cons]; omega
          | some k =>
            obtain ⟨h6, h7⟩ := h4 k rfl
            rw [h6] at h3
            rw [h7]
            simp only [packets, List.filterMap_cons, List.length_cons, progress] at *
            omega

theorem packets_lt {p p' : Parser} {bs : Bytes} {rs : List (Except Err Packet)} (hl : bs.length ≤ 90)
    (h : p.feed bs = .ok (p', rs)) : (packets rs).length < 16 := by
  have h1 := progress_feed h
  have h2 : progress p.state ≤ 5 := by cases p.state <;> simp [progress]
  omega

theorem drain_eq {table : UInt16 → Kind} {f : Packet → Response} {p p' : Parser} {bs : Bytes}
    {rs : List (Except Err Packet)} (h : p.feed bs = .ok (p', rs))
    (hf : ∀ k ∈ packets rs, respond table k = .ok (f k)) (batch : List Response)
    (hb : batch.length + (packets rs).length < 16) :
    drain table p batch bs = .ok (p', batch ++ (packets rs).map f) := by
  induction bs generalizing p rs batch with
  | nil =>
    simp only [Parser.feed, Rs.ok.injEq, Prod.mk.injEq] at h
    obtain ⟨rfl, rfl⟩ := h
    simp [packets, drain]
  | cons b bs ih =>
    simp only [Parser.feed] at h
    split at h
    · simp at h
    · rename_i p1 r h1
      split at h
      · simp at h
      · rename_i p2 rs2 h2
        simp only [Rs.ok.injEq, Prod.mk.injEq] at h
        obtain ⟨rfl, rfl⟩ := h
        cases r with
        | error e =>
          simp only [drain, h1]
          exact ih h2 hf batch hb
        | ok r =>
          cases r with
          | none =>
            simp only [drain, h1]
            exact ih h2 hf batch hb
          | some k =>
            have e : packets (.ok k :: rs2) = k :: packets rs2 := rfl
            simp only [e] at hf hb ⊢
            simp only [drain, h1, hf k (by simp)]
            rw [if_neg (by simp at hb ⊢; omega)]
            rw [ih h2 (fun k hk => hf k (by simp [hk])) _ (by simp at hb ⊢; omega)]
            simp

theorem feed_split {p p2 : Parser} {a b : Bytes} {rs : List (Except Err Packet)}
    (h : p.feed (a ++ b) = .ok (p2, rs)) : ∃ p1 r1 r2, p.feed a = .ok (p1, r1) ∧ p1.feed b = .ok (p2, r2) ∧ rs = r1 ++ r2 := by
  cases h1 : p.feed a with
  | panic =>
    exfalso
    have : ∀ (a : Bytes) (p : Parser), p.feed a = .panic → p.feed (a ++ b) = .panic := by
      intro a
      induction a with
      | nil => intro p h; simp [Parser.feed] at h
      | cons x a ih =>
        intro p h
        simp only [List.cons_append, Parser.feed] at h ⊢
        split at h
        · simp
        · rename_i p1 r hp1
          split at h
          · rename_i hp2
            rw [ih _ hp2]
          · simp at h
    rw [this a p h1] at h
    simp at h
  | ok r =>
    obtain ⟨p1, r1⟩ := r
    cases h2 : p1.feed b with
    | panic =>
      exfalso
      have : ∀ (a : Bytes) (p : Parser) (r1 : List (Except Err Packet)), p.feed a = .ok (p1, r1) → p.feed (a ++ b) = .panic := by
        intro a
        induction a with
        | nil =>
          intro p r1 h
          simp only [Parser.feed, Rs.ok.injEq, Prod.mk.injEq] at h
          rw [h.1]
          exact h2
        | cons x a ih =>
          intro p r1 h
          simp only [List.cons_append, Parser.feed] at h ⊢
          split at h
          · simp at h
          · rename_i q r hq
            split at h
            · simp at h
            · rename_i q2 rs2 hq2
              simp only [Rs.ok.injEq, Prod.mk.injEq] at h
              obtain ⟨rfl, -⟩ := h
              rw [ih _ _ hq2]
      rw [this a p r1 h1] at h
      simp at h
    | ok r =>
      obtain ⟨p2', r2⟩ := r
      have := feed_append h1 h2
      rw [h] at this
      simp only [Rs.ok.injEq, Prod.mk.injEq] at this
      obtain ⟨rfl, rfl⟩ := this
      exact ⟨p1, r1, r2, rfl, h2, rfl⟩

theorem srcRun_eq {table : UInt16 → Kind} {f : Packet → Response} {p p' : Parser} {reads : List (Option Bytes)}
    {rs : List (Except Err Packet)} (h : p.feed (reads.filterMap id).flatten = .ok (p', rs))
    (hl : ∀ c : Bytes, some c ∈ reads → c.length ≤ 90)
    (hf : ∀ k ∈ packets rs, respond table k = .ok (f k)) :
    ∃ outs, srcRun table p reads = .ok (p', outs) ∧ (outs.filterMap id).flatten = (packets rs).map f ∧
      outs.map Option.isSome = reads.map Option.isSome := by
  induction reads generalizing p rs with
  | nil =>
    simp [Parser.feed] at h
    obtain ⟨rfl, rfl⟩ := h
    exact ⟨[], rfl, rfl, rfl⟩
  | cons r reads ih =>
    cases r with
    | none =>
      simp only [List.filterMap_cons, id_eq] at h
      obtain ⟨outs, h1, h2, h3⟩ := ih h (fun c hc => hl c (by simp [hc])) hf
      refine ⟨none :: outs, ?_, ?_, by simp [h3]⟩
      · simp [srcRun, srcProcess, h1]
      · simpa using h2
    | some c =>
      simp only [List.filterMap_cons, id_eq, List.flatten_cons] at h
      obtain ⟨p1, r1, r2, h1, h2, rfl⟩ := feed_split h
      rw [packets_append] at hf ⊢
      have hd := drain_eq (table := table) (f := f) h1 (fun k hk => hf k (by simp [hk])) []
        (by have := packets_lt (hl c (by simp)) h1; simpa using this)
      obtain ⟨outs, h4, h5, h6⟩ := ih h2 (fun c hc => hl c (by simp [hc])) (fun k hk => hf k (by simp [hk]))
      refine ⟨some ((packets r1).map f) :: outs, ?_, ?_, by simp [h6]⟩
      · simp only [srcRun, srcProcess, hd, List.nil_append, Rs.ok_bind, h4]
      · simp [h5]

theorem fits_request {r : Request} (h : ∀ c, r = .setRawRc c → c.length = 16) : Fits .v1 r.toPacket := by
  cases r with
  | setRawRc c =>
    have := h c rfl
    have e : ∀ l : List UInt16, (l.flatMap toLe).length = 2 * l.length := by
      intro l
      induction l with
      | nil => rfl
      | cons a l ih => simp [toLe] at *; omega
    refine ⟨by simp [Request.toPacket], ?_⟩
    show (c.flatMap toLe).length < 256
    rw [e]
    omega
  | _ => exact ⟨by decide, by decide⟩

theorem sink_stream (rs : List Request) (h : ∀ c, Request.setRawRc c ∈ rs → c.length = 16) :
    (sinkProcess rs).2 = none ∧
    ∀ {ks : List Packet} {bs : Bytes}, Stream ks bs →
      Stream (rs.map Request.toPacket ++ ks) ((sinkProcess rs).1 ++ bs) := by
  induction rs with
  | nil => exact ⟨rfl, fun h => h⟩
  | cons r rs ih =>
    obtain ⟨h1, h2⟩ := ih (fun c hc => h c (by simp [hc]))
    obtain ⟨f, hf⟩ : ∃ f, r.toPacket.serialize r.toPacket.size = .ok f := ⟨_, if_neg (by simp)⟩
    simp only [sinkProcess, hf]
    refine ⟨h1, fun hs => ?_⟩
    have := Stream.cons (g := []) (by simp) (v := .v1) (fits_request (r := r) (fun c hc => h c (by simp [hc]))) hf (h2 hs)
    simpa using this

end Msp
end Verif
