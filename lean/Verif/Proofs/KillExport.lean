import Verif.Proofs.KillStreams
import Verif.Proofs.Sequential
/-! From the files of a process killed at any instant to the copper lists exported from them. -/
namespace Verif
namespace ULog
open Bincode

section
variable {page slabSize : Nat} {t : EntryType}

/-- A history, then an operation during which the process is killed. -/
theorem steps_kill (hz : SizesOk page slabSize) (hp256 : 256 ∣ page) (ht : t ≠ .lastEntry) (ht' : t ≠ .empty)
    {op : LogOp} {ops : List LogOp} :
    ∀ {s : LogSys} {x : SecSys} {objs : List Bytes} {lay : List (List Sec)}
      {live : List (Option (EntryType × Nat))} {out : EntryType → Bytes},
    StrInv page slabSize s lay live out → Tracks page slabSize t s x objs →
    HistoryOk page slabSize live (ops ++ [op]) →
    ∃ s', s.steps ops = .ok s' ∧ ∀ files', KilledDuring s'.lg.files (s'.effects op) files' →
      KillLeft t (∃ idle, UsedFirst t idle live ops ∧ Tidy idle (dataOf t x)) s' (objs ++ objsOf t live ops) files' := by
  induction ops with
  | nil =>
    intro s x objs lay live out hi hT hop
    refine ⟨s, rfl, fun files' hc => ?_⟩
    obtain ⟨s1, e1⟩ : ∃ s1, s.step op = .ok s1 := by
      cases op with
      | openStream u n =>
        obtain ⟨h1, h2, h3, h4, h5⟩ := hop
        obtain ⟨s1, _, e1, _⟩ := str_open hz.page_min hi h1 h2 h3 h4
        exact ⟨s1, e1⟩
      | log i obj =>
        obtain ⟨s1, _, e1, _⟩ := str_log hz.page_min hi hop.1
        exact ⟨s1, e1⟩
      | drop i =>
        obtain ⟨s1, _, e1, _⟩ := str_drop hi i
        exact ⟨s1, e1⟩
    simp only [objsOf, List.append_nil]
    exact (tracks_kill hz hp256 hi hT hop e1 hc ht ht').mono fun ⟨_, _, h⟩ => h.1
  | cons o ops ih =>
    intro s x objs lay live out hi hT hops
    cases o with
    | openStream u n =>
      obtain ⟨h1, h2, h3, h4, h5⟩ := hops
      obtain ⟨s1, lay1, e1, hi1, _⟩ := str_open hz.page_min hi h1 h2 h3 h4
      obtain ⟨x1, hT1, _, ht1⟩ := tracks_open hi hT h2 h3 h4 e1 hi1
      obtain ⟨s2, e2, hk⟩ := ih hi1 hT1 h5
      refine ⟨s2, by simp only [LogSys.steps, e1, e2], fun files' hc => ?_⟩
      have := (hk files' hc).mono (tidy' := ∃ idle, UsedFirst t idle live (.openStream u n :: ops) ∧ Tidy idle (dataOf t x))
        (fun ⟨idle, hu, htd⟩ => ⟨_, hu.2, ht1 idle hu.1 htd⟩)
      simpa [objsOf, objOf, liveStep] using this
    | log i obj =>
      obtain ⟨h1, h2⟩ := hops
      obtain ⟨s1, lay1, e1, hi1, _⟩ := str_log hz.page_min hi h1
      obtain ⟨x1, hT1, _, ht1⟩ := tracks_log hz hi hT h1 e1 hi1
      obtain ⟨s2, e2, hk⟩ := ih hi1 hT1 h2
      refine ⟨s2, by simp only [LogSys.steps, e1, e2], fun files' hc => ?_⟩
      have := (hk files' hc).mono (tidy' := ∃ idle, UsedFirst t idle live (.log i obj :: ops) ∧ Tidy idle (dataOf t x))
        (fun ⟨idle, hu, htd⟩ => ⟨_, hu, ht1 idle _ (fun h => by rw [h]; simp) htd⟩)
      rw [List.append_assoc] at this
      simpa only [objsOf, liveStep] using this
    | drop i =>
      obtain ⟨s1, lay1, e1, hi1, _⟩ := str_drop hi i
      obtain ⟨x1, hT1, _, ht1⟩ := tracks_drop hi hT e1
      obtain ⟨s2, e2, hk⟩ := ih hi1 hT1 hops
      refine ⟨s2, by simp only [LogSys.steps, e1, e2], fun files' hc => ?_⟩
      have := (hk files' hc).mono (tidy' := ∃ idle, UsedFirst t idle live (.drop i :: ops) ∧ Tidy idle (dataOf t x))
        (fun ⟨idle, hu, htd⟩ => ⟨_, hu, ht1 idle htd⟩)
      simpa [objsOf, objOf, liveStep] using this

theorem log_kill (hz : SizesOk page slabSize) (hp256 : 256 ∣ page) (ht : t ≠ .lastEntry) (ht' : t ≠ .empty)
    {op : LogOp} {ops : List LogOp} (hops : HistoryOk page slabSize [] (ops ++ [op])) :
    ∃ s, runLog slabSize page ops = .ok s ∧ ∀ files', KilledDuring s.lg.files (s.effects op) files' →
      KillLeft t (UsedFirst t false [] ops) s (objsOf t [] ops) files' := by
  obtain ⟨s0, x, lay, h0, hi, hT, htd⟩ := log_begin t hz
  obtain ⟨s, h2, h3⟩ := steps_kill hz hp256 ht ht' hi hT hops
  exact ⟨s, by rw [h0]; exact h2, fun files' hc => (h3 files' hc).mono fun hu => ⟨false, hu, htd⟩⟩

end
end ULog

namespace Bincode

/-- A part of a stream of encoded values: the first values, and a part of the next one. -/
theorem encAll_part {α : Type} [Codec α] {l : List α} {o : Bytes} (h : o <+: encAll l) :
    ∃ kept rest tail, l = kept ++ rest ∧ o = encAll kept ++ tail ∧
      (tail = [] ∨ ∃ a r, rest = a :: r ∧ ∃ q, tail ++ q = enc a ∧ q ≠ []) := by
  induction l generalizing o with
  | nil => exact ⟨[], [], [], rfl, by simpa [encAll] using h, .inl rfl⟩
  | cons a l ih =>
    by_cases hl : (enc a).length ≤ o.length
    · have h1 : enc a <+: o := List.prefix_of_prefix_length_le (List.prefix_append _ _) h hl
      obtain ⟨r, rfl⟩ := h1
      have h2 : r <+: encAll l := (List.prefix_append_right_inj _).1 h
      obtain ⟨kept, rest, tail, e1, e2, e3⟩ := ih h2
      exact ⟨a :: kept, rest, tail, by rw [e1]; rfl, by rw [e2]; simp [encAll], e3⟩
    · have h1 : o <+: enc a := List.prefix_of_prefix_length_le h (List.prefix_append _ _) (by omega)
      obtain ⟨q, hq⟩ := h1
      refine ⟨[], a :: l, o, rfl, rfl, .inr ⟨a, l, rfl, q, hq, ?_⟩⟩
      rintro rfl
      rw [List.append_nil] at hq
      rw [hq] at hl
      omega

theorem encAll_app {α : Type} [Codec α] (a b : List α) : encAll (a ++ b) = encAll a ++ encAll b := by
  induction a with
  | nil => rfl
  | cons x a ih => simp [encAll, ih]

/-- Dumping a part of a stream of values gives the first ones. -/
theorem dump_part {α : Type} [Codec α] (hs : Dec.Sequential (dec : Dec α)) {l : List α}
    (hr : ∀ a ∈ l, RoundTrips a) (hpos : ∀ a ∈ l, 0 < (enc a).length) {e : DecodeError}
    (he : (dec : Dec α) [] = .error e) {o : Bytes} (h : o <+: encAll l) :
    ∃ kept rest, l = kept ++ rest ∧ dumpObjects o = kept ∧
      ∀ a b, l = a ++ b → encAll a <+: o → a <+: kept := by
  obtain ⟨kept, rest, tail, rfl, rfl, ht⟩ := encAll_part h
  refine ⟨kept, rest, rfl, ?_, ?_⟩
  · obtain ⟨e', he'⟩ : ∃ e', (dec : Dec α) tail = .error e' := by
      rcases ht with rfl | ⟨a, r, ha, q, hq, hne⟩
      · exact ⟨e, he⟩
      · exact dec_cut hs (hr a (by simp [ha])) hq hne
    unfold dumpObjects
    rw [decodeStream_encAll (fun a ha => hr a (by simp [ha])) tail he']
    have := encAll_length_ge (l := kept) (fun a ha => hpos a (by simp [ha]))
    rw [List.length_append]
    omega
  · intro a b hab ho
    by_cases hl : a.length ≤ kept.length
    · exact List.prefix_of_prefix_length_le (l₃ := a ++ b) (List.prefix_append _ _)
        (by rw [← hab]; exact List.prefix_append _ _) hl
    · exfalso
      -- then the whole of the next value is in the part
      have h1 : kept <+: a := List.prefix_of_prefix_length_le (l₃ := a ++ b)
        (by rw [← hab]; exact List.prefix_append _ _) (List.prefix_append _ _) (by omega)
      obtain ⟨c, rfl⟩ := h1
      rw [List.append_assoc] at hab
      have hrest : rest = c ++ b := List.append_cancel_left hab
      cases c with
      | nil => simp at hl
      | cons y c =>
        rw [encAll_app] at ho
        have h2 : encAll (y :: c) <+: tail := (List.prefix_append_right_inj _).1 ho
        have h3 := h2.length_le
        have h4 := hpos y (by simp [hrest])
        simp only [encAll, List.length_append] at h3
        rcases ht with rfl | ⟨a, r, ha, q, hq, hne⟩
        · rw [List.length_nil] at h3; omega
        · rw [hrest, List.cons_append] at ha
          obtain rfl := (List.cons.inj ha).1
          have h5 := congrArg List.length hq
          rw [List.length_append] at h5
          have h6 : 0 < q.length := List.length_pos_iff.2 hne
          omega

end Bincode
end Verif

namespace Verif
namespace ULog

/-- The files of a process killed after `n` effects, with the first `j` bytes of the next one if it
is a store. -/
def cutAt : List Bytes → List Effect → Nat → Nat → List Bytes
  | files, [], _, _ => files
  | files, e :: _, 0, j =>
    match e with
    | .store k off d => files.modify k (fun f => writeAt f off (d.take j))
    | _ => files
  | files, e :: es, n + 1, j => cutAt (e.apply files) es n j

theorem killed_cutAt (es : List Effect) (n j : Nat) : ∀ files, KilledDuring files es (cutAt files es n j) := by
  induction es generalizing n with
  | nil => intro files; exact .done
  | cons e es ih =>
    intro files
    cases n with
    | zero =>
      refine .cut ?_
      cases e with
      | store k off d => exact ⟨j, rfl⟩
      | setLen k n => rfl
      | create => rfl
    | succ n => exact .next (ih n _)

/-- A header of another type and of size 0 makes the reader loop. -/
theorem readNext_loop {files : List Bytes} {t : EntryType} {r : Reader} {h : SectionHeader}
    (h1 : r.advance files = .ok r) (h2 : readHeader files r = .ok h) (h3 : h.entryType ≠ .lastEntry)
    (h4 : h.entryType ≠ t) (h5 : h.sectionSize.toNat = 0) (fuel : Nat) :
    readNext files t fuel r = .diverges := by
  induction fuel with
  | zero => rfl
  | succ n ih =>
    unfold readNext
    simp only [h1, h2, if_neg h3, if_neg h4, h5, Nat.add_zero]
    exact ih

end ULog
end Verif

namespace Verif
namespace ULog
section
variable {page slabSize : Nat} {t : EntryType} {s s' : LogSys} {x : SecSys} {objs : List Bytes}
  {lay : List (List Sec)} {live : List (Option (EntryType × Nat))} {out : EntryType → Bytes}

/-- The effects of an operation on streams, one after the other, are what the operation does. -/
theorem effects_step (hz : SizesOk page slabSize) (hi : StrInv page slabSize s lay live out)
    (hT : Tracks page slabSize t s x objs) {op : LogOp} (hop : HistoryOk page slabSize live [op])
    (hs : s.step op = .ok s') : (s.effects op).foldl Effect.apply s.lg.files = s'.lg.files := by
  have hlg := hT.lg
  obtain ⟨layx, hx⟩ := reach_inv hz hT.reach
  cases op with
  | openStream u n =>
    simp only [LogSys.step, openStream] at hs
    cases he : s.lg.addSection u n with
    | panic => simp [he] at hs
    | ok q =>
      obtain ⟨lg, h⟩ := q
      simp only [he, Rs.ok.injEq] at hs
      subst hs
      have r1 : x.step (.add u n) = .ok ⟨lg, x.issued ++ [⟨h, true, []⟩]⟩ := by
        simp only [SecSys.step, hlg, he]
      have := step_effects hx (op := .add u n) hop.2.2.2.1 r1
      rw [hlg] at this
      simpa [opEffects, hlg, LogSys.effects, addEffects] using this
  | drop i =>
    simp only [LogSys.effects, LogSys.step] at hs ⊢
    cases hst : s.streams[i]? with
    | none => simp only [hst, Rs.ok.injEq] at hs ⊢; subst hs; rfl
    | some o =>
      cases o with
      | none => simp only [hst, Rs.ok.injEq] at hs ⊢; subst hs; rfl
      | some st =>
        obtain ⟨j, d, hj⟩ := hT.sec i st hst
        simp only [hst, Stream.drop] at hs ⊢
        cases he : s.lg.flushSection st.section_ with
        | panic => simp [he] at hs
        | ok lg =>
          simp only [he, Rs.ok.injEq] at hs
          subst hs
          have r1 : x.step (.close j) = .ok ⟨lg, x.issued.set j ⟨st.section_, false, d⟩⟩ := by
            simp only [SecSys.step, hj, hlg, he]
          have := step_effects hx (op := .close j) trivial r1
          rw [hlg, effects_close hj] at this
          exact this
  | log i obj =>
    simp only [LogSys.effects]
    cases hst : s.streams[i]? with
    | none => simp only [LogSys.step, hst, Rs.ok.injEq] at hs ⊢; subst hs; rfl
    | some o =>
      cases o with
      | none => simp only [LogSys.step, hst, Rs.ok.injEq] at hs ⊢; subst hs; rfl
      | some st =>
        obtain ⟨j, d, hj⟩ := hT.sec i st hst
        have hl := live_of hi i
        rw [hst] at hl
        have hfit := hop.1 st.entryType st.minAlloc (by rw [hl]; rfl)
        simp only [LogSys.step, hst, Stream.log] at hs ⊢
        unfold Stream.logEffects
        rw [List.foldl_append]
        cases he : encodeInto s.lg.files st.section_ obj with
        | panic => simp [he] at hs
        | ok q =>
          obtain ⟨files1, h1, b⟩ := q
          have hst1 : x.step (.write j obj) = .ok ⟨{ x.lg with files := files1 },
              x.issued.set j ⟨h1, true, if b then d ++ obj.flatten else d⟩⟩ := by
            simp only [SecSys.step, hj, hlg, he]
          have hfx := step_effects hx (op := .write j obj) trivial hst1
          rw [effects_write hj, hlg] at hfx
          rw [hfx]
          cases b with
          | true =>
            simp only [he, Rs.ok.injEq] at hs
            subst hs
            rfl
          | false =>
            obtain ⟨rfl, hused, _, x1, hT1, _⟩ := tracks_fail hz hi hT hst hfit he
            rw [he] at hs
            simp only at hs ⊢
            obtain ⟨j1, d1, hj1⟩ := hT1.sec i st hst
            have hlg1 := hT1.lg
            obtain ⟨lay1, hx1⟩ := reach_inv hz hT1.reach
            cases he2 : Logger.flushSection { s.lg with files := files1 } st.section_ with
            | panic => simp [he2] at hs
            | ok lg2 =>
              simp only [he2] at hs ⊢
              have r2 : x1.step (.close j1) = .ok ⟨lg2, x1.issued.set j1 ⟨st.section_, false, d1⟩⟩ := by
                simp only [SecSys.step, hj1, hlg1, he2]
              have hf2 := step_effects hx1 (op := .close j1) trivial r2
              rw [effects_close hj1, hlg1] at hf2
              obtain ⟨lay2, hx2⟩ := reach_inv hz (.step hT1.reach (op := .close j1) trivial r2)
              cases he3 : lg2.addSection st.entryType st.minAlloc with
              | panic => simp [he3] at hs
              | ok q =>
                obtain ⟨lg3, h3⟩ := q
                simp only [he3] at hs ⊢
                have hsize := (hi.stream i st hst).2.2.1
                have r3 : SecSys.step ⟨lg2, x1.issued.set j1 ⟨st.section_, false, d1⟩⟩ (.add st.entryType st.minAlloc) =
                    .ok ⟨lg3, x1.issued.set j1 ⟨st.section_, false, d1⟩ ++ [⟨h3, true, []⟩]⟩ := by
                  simp only [SecSys.step, he3]
                have hf3 : (addEffects lg2 st.entryType st.minAlloc).foldl Effect.apply lg2.files = lg3.files :=
                  step_effects hx2 (op := .add st.entryType st.minAlloc) hsize r3
                obtain ⟨lay3, hx3⟩ := reach_inv hz (.step (.step hT1.reach (op := .close j1) trivial r2)
                  (op := .add st.entryType st.minAlloc) hsize r3)
                cases he4 : encodeInto lg3.files h3 obj with
                | panic => simp [he4] at hs
                | ok q =>
                  obtain ⟨files4, h4, b⟩ := q
                  cases b with
                  | false => simp [he4] at hs
                  | true =>
                    simp only [he4, Rs.ok.injEq] at hs
                    subst hs
                    have hlast : (x1.issued.set j1 (⟨st.section_, false, d1⟩ : Issued) ++ [(⟨h3, true, []⟩ : Issued)])[x1.issued.length]? =
                        some ⟨h3, true, []⟩ := by
                      rw [List.getElem?_append_right (by simp)]; simp
                    have r4 : SecSys.step ⟨lg3, x1.issued.set j1 (⟨st.section_, false, d1⟩ : Issued) ++ [(⟨h3, true, []⟩ : Issued)]⟩
                        (.write x1.issued.length obj) = .ok ⟨{ lg3 with files := files4 },
                          (x1.issued.set j1 (⟨st.section_, false, d1⟩ : Issued) ++ [(⟨h3, true, []⟩ : Issued)]).set x1.issued.length
                            ⟨h4, true, [] ++ obj.flatten⟩⟩ := by
                      simp only [SecSys.step, hlast, he4, if_true]
                    have hf4 := step_effects hx3 (op := .write x1.issued.length obj) trivial r4
                    rw [effects_write hlast] at hf4
                    simp only at hf2 hf3 hf4 ⊢
                    rw [List.foldl_append, List.foldl_append, hf2, hf3, hf4]

theorem steps_effects (hz : SizesOk page slabSize) {op : LogOp} {ops : List LogOp} :
    ∀ {s : LogSys} {x : SecSys} {objs : List Bytes} {lay : List (List Sec)}
      {live : List (Option (EntryType × Nat))} {out : EntryType → Bytes},
    StrInv page slabSize s lay live out → Tracks page slabSize t s x objs →
    HistoryOk page slabSize live (ops ++ [op]) →
    ∃ s' s'', s.steps ops = .ok s' ∧ s'.step op = .ok s'' ∧
      (s'.effects op).foldl Effect.apply s'.lg.files = s''.lg.files := by
  induction ops with
  | nil =>
    intro s x objs lay live out hi hT hop
    obtain ⟨s1, e1⟩ : ∃ s1, s.step op = .ok s1 := by
      cases op with
      | openStream u n =>
        obtain ⟨h1, h2, h3, h4, h5⟩ := hop
        obtain ⟨s1, _, e1, _⟩ := str_open hz.page_min hi h1 h2 h3 h4
        exact ⟨s1, e1⟩
      | log i obj =>
        obtain ⟨s1, _, e1, _⟩ := str_log hz.page_min hi hop.1
        exact ⟨s1, e1⟩
      | drop i =>
        obtain ⟨s1, _, e1, _⟩ := str_drop hi i
        exact ⟨s1, e1⟩
    exact ⟨s, s1, rfl, e1, effects_step hz hi hT hop e1⟩
  | cons o ops ih =>
    intro s x objs lay live out hi hT hops
    cases o with
    | openStream u n =>
      obtain ⟨h1, h2, h3, h4, h5⟩ := hops
      obtain ⟨s1, lay1, e1, hi1, _⟩ := str_open hz.page_min hi h1 h2 h3 h4
      obtain ⟨x1, hT1, _, ht1⟩ := tracks_open hi hT h2 h3 h4 e1 hi1
      obtain ⟨s2, s3, e2, e3, hk⟩ := ih hi1 hT1 h5
      exact ⟨s2, s3, by simp only [LogSys.steps, e1, e2], e3, hk⟩
    | log i obj =>
      obtain ⟨h1, h2⟩ := hops
      obtain ⟨s1, lay1, e1, hi1, _⟩ := str_log hz.page_min hi h1
      obtain ⟨x1, hT1, _, ht1⟩ := tracks_log hz hi hT h1 e1 hi1
      obtain ⟨s2, s3, e2, e3, hk⟩ := ih hi1 hT1 h2
      exact ⟨s2, s3, by simp only [LogSys.steps, e1, e2], e3, hk⟩
    | drop i =>
      obtain ⟨s1, lay1, e1, hi1, _⟩ := str_drop hi i
      obtain ⟨x1, hT1, _, ht1⟩ := tracks_drop hi hT e1
      obtain ⟨s2, s3, e2, e3, hk⟩ := ih hi1 hT1 hops
      exact ⟨s2, s3, by simp only [LogSys.steps, e1, e2], e3, hk⟩

theorem log_effects (hz : SizesOk page slabSize) {op : LogOp} {ops : List LogOp}
    (hops : HistoryOk page slabSize [] (ops ++ [op])) :
    ∃ s s', runLog slabSize page ops = .ok s ∧ s.step op = .ok s' ∧
      (s.effects op).foldl Effect.apply s.lg.files = s'.lg.files := by
  obtain ⟨s0, x, lay, h0, hi, hT, _⟩ := log_begin .lastEntry hz
  obtain ⟨s, s', h2, h3, h4⟩ := steps_effects hz hi hT hops
  exact ⟨s, s', by rw [h0]; exact h2, h3, h4⟩

end
end ULog
end Verif
