import Verif.Proofs.KillApart
import Verif.Spec.KilledThreads
import Verif.Proofs.KillExport
/-! A process several threads of which use one log, killed at any instant. -/
namespace Verif
namespace ULog
open Bincode

variable {page slabSize : Nat} {t : EntryType} {s : LogSys} {x : SecSys} {objs : List Bytes}
  {lay : List (List Sec)} {live : List (Option (EntryType × Nat))} {out pend : EntryType → Bytes}
  {c : ConcSys} {busy : List Nat} {pendO : List Bytes}

/-- Bytes stored in the free part of the section of a stream. -/
def InFree (s : LogSys) (b : Nat × Nat × Bytes) : Prop :=
  ∃ (i : Nat) (st : Stream), s.streams[i]? = some (some st) ∧ b.1 = st.section_.slab ∧
    b.2.1 = st.section_.off + maxHeader + st.section_.used ∧
    b.2.2.length ≤ st.section_.req - (maxHeader + st.section_.used)

theorem tracks_junk (hz : SizesOk page slabSize) {cs : List (Nat × Nat × Bytes)} :
    ∀ {lg : Logger} {x : SecSys}, Tracks page slabSize t ⟨lg, s.streams⟩ x objs →
    (∀ b ∈ cs, InFree s b) →
    ∃ x', Tracks page slabSize t ⟨{ lg with files := cs.foldl junk lg.files }, s.streams⟩ x' objs ∧
      lens (cs.foldl junk lg.files) = lens lg.files ∧ dataOf t x' = dataOf t x := by
  induction cs with
  | nil => intro lg x hT _; exact ⟨x, hT, rfl, rfl⟩
  | cons b cs ih =>
    intro lg x hT hcs
    obtain ⟨i, st, hst, h1, h2, h3⟩ := hcs b (by simp)
    obtain ⟨j, d, hj⟩ := hT.sec i st hst
    obtain ⟨layx, hx⟩ := reach_inv hz hT.reach
    have hu := open_used hx hj
    have hmx : maxHeader = 15 := rfl
    have hlg : x.lg = lg := hT.lg
    have hr := issued_room hz hx (List.mem_of_getElem? hj)
    simp only at hr
    generalize hroom : st.section_.req - (maxHeader + st.section_.used) = room at h3
    have hfc : fitChunks room [b.2.2, List.replicate (room + 1) 0] = (b.2.2, false) := by
      unfold fitChunks
      rw [if_pos h3]
      unfold fitChunks
      rw [if_neg (by simp; omega)]
      simp
    have he : encodeInto lg.files st.section_ [b.2.2, List.replicate (room + 1) 0] =
        .ok (junk lg.files b, st.section_, false) := by
      unfold encodeInto
      rw [if_neg (by omega), hroom, hfc]
      simp only [junk, h1, h2, Bool.false_eq_true, if_false]
    have r1 : x.step (.write j [b.2.2, List.replicate (room + 1) 0]) =
        .ok ⟨{ x.lg with files := junk lg.files b }, x.issued⟩ := by
      simp only [SecSys.step, hj, hlg, he]
      rw [if_neg (by simp), set_same hj]
    have hT1 : Tracks page slabSize t ⟨{ lg with files := junk lg.files b }, s.streams⟩
        ⟨{ x.lg with files := junk lg.files b }, x.issued⟩ objs :=
      ⟨.step hT.reach (op := .write j _) trivial r1, by rw [hlg], hT.types, hT.sec, hT.ty⟩
    obtain ⟨x', hT', hl', hd'⟩ := ih hT1 (fun b hb => hcs b (by simp [hb]))
    refine ⟨x', hT', ?_, hd'⟩
    have := own_file hx hj
    rw [hlg] at this
    simp only [List.foldl_cons]
    exact hl'.trans (lens_junk (size := slabSize) (by rw [h1]; exact this) (by omega))

theorem apart_sub {size k off len off' len' : Nat} {e : Effect} (h : e.Apart size k off len) (h1 : off ≤ off')
    (h2 : off' + len' ≤ off + len) : e.Apart size k off' len' := by
  cases e with
  | store k' o d => intro hk; have := h hk; omega
  | setLen k' n => exact h
  | create => trivial

/-- The operations on sections of an action of a thread. -/
theorem conc_seq (hz : SizesOk page slabSize) (hi : ConcInv page slabSize c lay live out pend busy)
    (hT : ConcTracks page slabSize t c x objs pendO) {op : ConcOp}
    (hop : ∀ u n, op = .openStream u n → SizeOk page slabSize n) :
    ∃ sops : List SecOp, c.effects op = seqEffects x sops ∧ (∀ o ∈ sops, SecOpOk page slabSize o) ∧
      ∀ (k i : Nat) (st : Stream) (d : Bytes), c.sys.streams[i]? = some (some st) → op.stream ≠ some i →
        x.issued[k]? = some ⟨st.section_, true, d⟩ → ∀ o ∈ sops, o.about ≠ some k := by
  have hlg := hT.tracks.lg
  obtain ⟨layx, hx⟩ := reach_inv hz hT.tracks.reach
  have differ : ∀ (k j i i' : Nat) (st st' : Stream) (d d' : Bytes), c.sys.streams[i]? = some (some st) →
      c.sys.streams[i']? = some (some st') → i ≠ i' → x.issued[k]? = some ⟨st.section_, true, d⟩ →
      x.issued[j]? = some ⟨st'.section_, true, d'⟩ → k ≠ j := by
    rintro k j i i' st st' d d' hs hs' hne hk hj rfl
    have he := Option.some.inj (hk.symm.trans hj)
    have h1 := (hi.str.stream i st hs).1
    have h2 := (hi.str.stream i' st' hs').1
    have : st.section_ = st'.section_ := congrArg Issued.h he
    rw [this] at h1
    exact hne (uniq_stream hi.str hs hs' (h1.symm.trans h2))
  cases op with
  | openStream u n =>
    refine ⟨[.add u n], ?_, ?_, ?_⟩
    · simp only [ConcSys.effects, seqEffects, opEffects, addEffects, hlg]
      cases x.step (.add u n) <;> simp
    · intro o ho
      simp only [List.mem_singleton] at ho
      subst ho
      exact hop u n rfl
    · intro k i st d _ _ _ o ho
      simp only [List.mem_singleton] at ho
      subst ho
      simp [SecOp.about]
  | begin_ i obj =>
    by_cases hst : ∃ st, c.sys.streams[i]? = some (some st)
    · obtain ⟨st, hst⟩ := hst
      obtain ⟨j, d, hj⟩ := hT.tracks.sec i st hst
      refine ⟨[.write j obj], ?_, ?_, ?_⟩
      · simp only [ConcSys.effects, hst, seqEffects, effects_write hj]
        cases x.step (.write j obj) <;> simp
      · intro o ho
        simp only [List.mem_singleton] at ho
        subst ho
        trivial
      · intro k i' st' d' hs hne hk o ho
        simp only [List.mem_singleton] at ho
        subst ho
        have := differ k j i' i st' st d' d hs hst (fun h => hne (by rw [h]; rfl)) hk hj
        simp only [SecOp.about, ne_eq, Option.some.injEq]
        exact fun h => this h.symm
    · refine ⟨[], ?_, by simp, by simp⟩
      simp only [ConcSys.effects, seqEffects]
      split
      · rename_i st h
        exact absurd ⟨st, h⟩ hst
      · rfl
  | drop i =>
    by_cases hst : ∃ st, c.sys.streams[i]? = some (some st)
    · obtain ⟨st, hst⟩ := hst
      obtain ⟨j, d, hj⟩ := hT.tracks.sec i st hst
      refine ⟨[.close j], ?_, ?_, ?_⟩
      · simp only [ConcSys.effects, hst, seqEffects, effects_close hj]
        cases x.step (.close j) <;> simp
      · intro o ho
        simp only [List.mem_singleton] at ho
        subst ho
        trivial
      · intro k i' st' d' hs hne hk o ho
        simp only [List.mem_singleton] at ho
        subst ho
        have := differ k j i' i st' st d' d hs hst (fun h => hne (by rw [h]; rfl)) hk hj
        simp only [SecOp.about, ne_eq, Option.some.injEq]
        exact fun h => this h.symm
    · refine ⟨[], ?_, by simp, by simp⟩
      simp only [ConcSys.effects, seqEffects]
      split
      · rename_i st h
        exact absurd ⟨st, h⟩ hst
      · rfl
  | finish i =>
    by_cases hw : ∃ obj st, c.waiting i = some obj ∧ c.sys.streams[i]? = some (some st)
    · obtain ⟨obj, st, hw, hst⟩ := hw
      obtain ⟨j, d, hj⟩ := hT.tracks.sec i st hst
      have hsize := (hi.str.stream i st hst).2.2.1
      obtain ⟨c', _, _, _, hstep, _⟩ := conc_finish hz.page_min hi i
      simp only [ConcSys.step, hw, hst, Stream.retry] at hstep
      cases he2 : c.sys.lg.flushSection st.section_ with
      | panic => simp [he2] at hstep
      | ok lg2 =>
        simp only [he2] at hstep
        cases he3 : lg2.addSection st.entryType st.minAlloc with
        | panic => simp [he3] at hstep
        | ok q =>
          obtain ⟨lg3, h3⟩ := q
          have r2 : x.step (.close j) = .ok ⟨lg2, x.issued.set j ⟨st.section_, false, d⟩⟩ := by
            simp only [SecSys.step, hj, hlg, he2]
          have r3 : SecSys.step ⟨lg2, x.issued.set j ⟨st.section_, false, d⟩⟩ (.add st.entryType st.minAlloc) =
              .ok ⟨lg3, x.issued.set j ⟨st.section_, false, d⟩ ++ [⟨h3, true, []⟩]⟩ := by
            simp only [SecSys.step, he3]
          have hlast : (x.issued.set j ⟨st.section_, false, d⟩ ++ [(⟨h3, true, []⟩ : Issued)])[x.issued.length]? =
              some (⟨h3, true, []⟩ : Issued) := by
            rw [List.getElem?_append_right (by simp)]; simp
          refine ⟨[.close j, .add st.entryType st.minAlloc, .write x.issued.length obj], ?_, ?_, ?_⟩
          · simp only [ConcSys.effects, hw, hst, Stream.retryEffects, he2, he3, seqEffects, r2, r3, effects_close hj]
            rw [effects_write (x := ⟨lg3, x.issued.set j ⟨st.section_, false, d⟩ ++ [(⟨h3, true, []⟩ : Issued)]⟩) hlast]
            congr 1
            show addEffects lg2 st.entryType st.minAlloc ++ encodeEffects h3 obj =
              (gcEffects lg2 ++ headerEffects lg2 st.entryType st.minAlloc) ++ _
            unfold addEffects
            cases SecSys.step ⟨lg3, x.issued.set j ⟨st.section_, false, d⟩ ++ [(⟨h3, true, []⟩ : Issued)]⟩
              (.write x.issued.length obj) <;> simp
          · intro o ho
            simp only [List.mem_cons, List.not_mem_nil, or_false] at ho
            rcases ho with rfl | rfl | rfl
            · trivial
            · exact hsize
            · trivial
          · intro k i' st' d' hs hne hk o ho
            have hd := differ k j i' i st' st d' d hs hst (fun h => hne (by rw [h]; rfl)) hk hj
            have hklt := (List.getElem?_eq_some_iff.1 hk).1
            simp only [List.mem_cons, List.not_mem_nil, or_false] at ho
            rcases ho with rfl | rfl | rfl <;> simp [SecOp.about] <;> omega
    · refine ⟨[], ?_, by simp, by simp⟩
      simp only [ConcSys.effects, seqEffects]
      split
      · rename_i obj st h1 h2
        exact absurd ⟨obj, st, h1, h2⟩ hw
      · rfl

/-- The thread with the lock in the middle of its action, on files where the others have stored something in
the free parts of their sections. -/
theorem conc_kill_first (hz : SizesOk page slabSize) (hp256 : 256 ∣ page)
    (hi : ConcInv page slabSize c lay live out pend busy)
    (hT : ConcTracks page slabSize t c x objs pendO) {op : ConcOp}
    (hop : ∀ u n, op = .openStream u n → SizeOk page slabSize n)
    {cs : List (Nat × Nat × Bytes)} (hcs : ∀ b ∈ cs, InFree c.sys b) {files' : List Bytes}
    (hk : KilledDuring (cs.foldl junk c.sys.lg.files) (c.effects op) files')
    (ht : t ≠ .lastEntry) (ht' : t ≠ .empty) : KillLeft t ([] ∉ (dataOf t x).dropLast) c.sys objs files' := by
  obtain ⟨x1, hT1, hlens, hdat⟩ := tracks_junk (s := c.sys) hz (lg := c.sys.lg) hT.tracks hcs
  rw [← hdat]
  have hlg1 := hT1.lg
  simp only at hlg1
  have hf1 : x1.lg.files = cs.foldl junk c.sys.lg.files := by rw [hlg1]
  have nothing : KilledDuring (cs.foldl junk c.sys.lg.files) [] files' → KillLeft t ([] ∉ (dataOf t x1).dropLast) c.sys objs files' := by
    intro h
    exact left_of hz hp256 hi.str hT1 (Nat.le_refl _) (op := .close x1.issued.length) trivial
      (by rw [hf1]; simpa [opEffects] using h) ht ht'
  cases op with
  | openStream u n =>
    refine left_of hz hp256 hi.str hT1 (Nat.le_refl _) (op := .add u n) (hop u n rfl) ?_ ht ht'
    rw [hf1]
    have : opEffects x1 (.add u n) = c.effects (.openStream u n) := by
      simp only [opEffects, hlg1, ConcSys.effects, addEffects]
      rfl
    rw [this]
    exact hk
  | begin_ i obj =>
    simp only [ConcSys.effects] at hk
    split at hk
    · rename_i st hst
      obtain ⟨j, d, hj⟩ := hT1.sec i st hst
      exact left_of hz hp256 hi.str hT1 (Nat.le_refl _) (op := .write j obj) trivial
        (by rw [effects_write hj, hf1]; exact hk) ht ht'
    · exact nothing hk
  | drop i =>
    simp only [ConcSys.effects] at hk
    split at hk
    · rename_i st hst
      obtain ⟨j, d, hj⟩ := hT1.sec i st hst
      exact left_of hz hp256 hi.str hT1 (Nat.le_refl _) (op := .close j) trivial
        (by rw [effects_close hj, hf1]; exact hk) ht ht'
    · exact nothing hk
  | finish i =>
    simp only [ConcSys.effects] at hk
    split at hk
    · rename_i obj st hw hst
      have hused := (hT.wait i obj st hw hst).1
      obtain ⟨c', _, _, _, hstep, _⟩ := conc_finish hz.page_min hi i
      simp only [ConcSys.step, hw, hst, Stream.retry] at hstep
      cases he2 : c.sys.lg.flushSection st.section_ with
      | panic => simp [he2] at hstep
      | ok lg2 =>
        simp only [he2] at hstep
        cases he3 : lg2.addSection st.entryType st.minAlloc with
        | panic => simp [he3] at hstep
        | ok q =>
          obtain ⟨lg3, h3⟩ := q
          obtain ⟨lg2', e2, s2⟩ := flushSection_shape
            (b := { c.sys.lg with files := cs.foldl junk c.sys.lg.files }) ⟨_, rfl, hlens⟩ he2
          obtain ⟨lg3', e3, s3⟩ := addSection_shape s2 he3
          unfold Stream.retryEffects at hk
          simp only [he2, he3] at hk
          rw [← addEffects_shape s2] at hk
          exact left_renew hz hp256 hi.str hT1 (Nat.le_refl _) hst hused e2 e3 hk ht ht'
    · exact nothing hk

theorem conc_kill (hz : SizesOk page slabSize) (hp256 : 256 ∣ page)
    (hi : ConcInv page slabSize c lay live out pend busy)
    (hT : ConcTracks page slabSize t c x objs pendO) {op : ConcOp}
    (hop : ∀ u n, op = .openStream u n → SizeOk page slabSize n)
    {others : List (Nat × List Bytes)} (ho : ∀ b ∈ others, op.stream ≠ some b.1) {files' : List Bytes}
    (hk : KilledTogether c.sys.lg.files (c.effects op :: others.map (fun b => c.effects (.begin_ b.1 b.2))) files')
    (ht : t ≠ .lastEntry) (ht' : t ≠ .empty) : KillLeft t ([] ∉ (dataOf t x).dropLast) c.sys objs files' := by
  obtain ⟨sops, hse, hsok, habout⟩ := conc_seq hz hi hT hop
  obtain ⟨hw, hap⟩ := seq_ok hz hT.tracks.reach hsok
  obtain ⟨layx, hx⟩ := reach_inv hz hT.tracks.reach
  have hlg := hT.tracks.lg
  have hmx : maxHeader = 15 := rfl
  -- the stores of the other threads
  have hother : ∀ e, (∃ b ∈ others, e ∈ c.effects (.begin_ b.1 b.2)) →
      ∃ (i : Nat) (st : Stream) (d : Bytes), c.sys.streams[i]? = some (some st) ∧ op.stream ≠ some i ∧
        e = .store st.section_.slab (st.section_.off + maxHeader + st.section_.used) d ∧
        d.length ≤ st.section_.req - (maxHeader + st.section_.used) := by
    rintro e ⟨b, hb, he⟩
    simp only [ConcSys.effects] at he
    split at he
    · rename_i st hst
      simp only [encodeEffects, List.mem_singleton] at he
      exact ⟨b.1, st, _, hst, ho b hb, he, fitChunks_length _ _⟩
    · cases he
  obtain ⟨cs, hcs, hkd⟩ := together_first (size := slabSize)
    (Other := fun e => ∃ b ∈ others, e ∈ c.effects (.begin_ b.1 b.2)) hk (es := c.effects op) rfl
    (by
      intro i r h0 hr e he
      obtain ⟨k, rfl⟩ : ∃ k, i = k + 1 := ⟨i - 1, by omega⟩
      rw [List.getElem?_cons_succ, List.getElem?_map] at hr
      obtain ⟨b, hb, rfl⟩ := Option.map_eq_some_iff.1 hr
      exact ⟨b, List.mem_of_getElem? hb, he⟩)
    (by
      intro e he
      obtain ⟨i, st, d, hst, hne, rfl, hd⟩ := hother e he
      obtain ⟨k, dk, hkk⟩ := hT.tracks.sec i st hst
      have hu := open_used hx hkk
      have hr := issued_room hz hx (List.mem_of_getElem? hkk)
      simp only at hr
      have hsz := own_file hx hkk
      rw [hlg] at hsz
      refine ⟨_, _, d, rfl, by omega, hsz, fun e' he' => ?_⟩
      have := hap k st.section_ dk hkk (habout k i st dk hst hne hkk) e' (hse ▸ he')
      exact apart_sub this (by omega) (by omega))
    (by rw [hse, ← hlg]; exact hw)
  refine conc_kill_first hz hp256 hi hT hop (cs := cs) ?_ hkd ht ht'
  intro b hb
  obtain ⟨d, hod, hpre⟩ := hcs b hb
  obtain ⟨i, st, d', hst, _, he, hd⟩ := hother _ hod
  injection he with e1 e2 e3
  have := hpre.length_le
  exact ⟨i, st, hst, e1, e2, by rw [← e3] at hd; omega⟩

theorem encodeInto_effects {files files' : List Bytes} {h h' : Handle} {obj : List Bytes} {ok : Bool}
    (he : encodeInto files h obj = .ok (files', h', ok)) :
    (encodeEffects h obj).foldl Effect.apply files = files' := by
  unfold encodeInto at he
  split at he
  · cases he
  · simp only at he
    split at he <;> · simp only [Rs.ok.injEq, Prod.mk.injEq] at he; rw [← he.1]; rfl

/-- The effects of an action, one after the other, are what the action does. -/
theorem conc_effects_step (hz : SizesOk page slabSize) (hT : ConcTracks page slabSize t c x objs pendO)
    {op : ConcOp} (hsize : ∀ (i : Nat) (st : Stream), c.sys.streams[i]? = some (some st) → SizeOk page slabSize st.minAlloc)
    (hop : ∀ u n, op = .openStream u n → SizeOk page slabSize n) {c' : ConcSys} (hs : c.step op = .ok c') :
    (c.effects op).foldl Effect.apply c.sys.lg.files = c'.sys.lg.files := by
  have hlg := hT.tracks.lg
  obtain ⟨layx, hx⟩ := reach_inv hz hT.tracks.reach
  cases op with
  | openStream u n =>
    simp only [ConcSys.step, LogSys.step, openStream] at hs
    cases he : c.sys.lg.addSection u n with
    | panic => simp [he] at hs
    | ok q =>
      obtain ⟨lg, h⟩ := q
      simp only [he, Rs.ok.injEq] at hs
      subst hs
      have r1 : x.step (.add u n) = .ok ⟨lg, x.issued ++ [⟨h, true, []⟩]⟩ := by
        simp only [SecSys.step, hlg, he]
      have := step_effects hx (op := .add u n) (hop u n rfl) r1
      rw [hlg] at this
      simpa [opEffects, hlg, ConcSys.effects, addEffects] using this
  | drop i =>
    simp only [ConcSys.effects, ConcSys.step, LogSys.step] at hs ⊢
    cases hst : c.sys.streams[i]? with
    | none => simp only [hst, Rs.ok.injEq] at hs ⊢; subst hs; rfl
    | some o =>
      cases o with
      | none => simp only [hst, Rs.ok.injEq] at hs ⊢; subst hs; rfl
      | some st =>
        obtain ⟨j, d, hj⟩ := hT.tracks.sec i st hst
        simp only [hst, Stream.drop] at hs ⊢
        cases he : c.sys.lg.flushSection st.section_ with
        | panic => simp [he] at hs
        | ok lg =>
          simp only [he, Rs.ok.injEq] at hs
          subst hs
          have r1 : x.step (.close j) = .ok ⟨lg, x.issued.set j ⟨st.section_, false, d⟩⟩ := by
            simp only [SecSys.step, hj, hlg, he]
          have := step_effects hx (op := .close j) trivial r1
          rw [hlg, effects_close hj] at this
          exact this
  | begin_ i obj =>
    simp only [ConcSys.effects, ConcSys.step] at hs ⊢
    cases hst : c.sys.streams[i]? with
    | none => simp only [hst, Rs.ok.injEq] at hs ⊢; subst hs; rfl
    | some o =>
      cases o with
      | none => simp only [hst, Rs.ok.injEq] at hs ⊢; subst hs; rfl
      | some st =>
        simp only [hst, Stream.try_] at hs ⊢
        cases he : encodeInto c.sys.lg.files st.section_ obj with
        | panic => simp [he] at hs
        | ok q =>
          obtain ⟨files, h, ok⟩ := q
          simp only [he, Rs.ok.injEq] at hs
          subst hs
          exact encodeInto_effects he
  | finish i =>
    simp only [ConcSys.effects, ConcSys.step] at hs ⊢
    split
    · rename_i obj st hw hst
      obtain ⟨j, d, hj⟩ := hT.tracks.sec i st hst
      simp only [hw, hst, Stream.retry] at hs
      unfold Stream.retryEffects
      cases he2 : c.sys.lg.flushSection st.section_ with
      | panic => simp [he2] at hs
      | ok lg2 =>
        have r2 : x.step (.close j) = .ok ⟨lg2, x.issued.set j ⟨st.section_, false, d⟩⟩ := by
          simp only [SecSys.step, hj, hlg, he2]
        have f2 := step_effects hx (op := .close j) trivial r2
        rw [hlg, effects_close hj] at f2
        simp only [he2] at hs
        cases he3 : lg2.addSection st.entryType st.minAlloc with
        | panic => simp [he3] at hs
        | ok q =>
          obtain ⟨lg3, h3⟩ := q
          have r3 : SecSys.step ⟨lg2, x.issued.set j ⟨st.section_, false, d⟩⟩ (.add st.entryType st.minAlloc) =
              .ok ⟨lg3, x.issued.set j ⟨st.section_, false, d⟩ ++ [⟨h3, true, []⟩]⟩ := by
            simp only [SecSys.step, he3]
          obtain ⟨layy, hy⟩ := reach_inv hz (.step hT.tracks.reach (op := .close j) trivial r2)
          have f3 := step_effects hy (op := .add st.entryType st.minAlloc) (hsize i st hst) r3
          have f3' : (addEffects lg2 st.entryType st.minAlloc).foldl Effect.apply lg2.files = lg3.files := f3
          simp only [he3] at hs
          simp only [he3, List.foldl_append, f2, f3']
          split at hs
          · cases hs
          · rename_i lg4 st4 hr
            split at hr
            · rename_i files h4 he
              simp only [Rs.ok.injEq, Prod.mk.injEq] at hr
              obtain ⟨rfl, rfl⟩ := hr
              simp only [Rs.ok.injEq] at hs
              subst hs
              exact encodeInto_effects he
            · cases hr
    · rename_i h
      split at hs
      · rename_i o st h1 h2
        exact absurd h2 (h o st h1)
      · cases hs; rfl

theorem historyOk_open {ops : List LogOp} {u : EntryType} {n : Nat} :
    ∀ {live : List (Option (EntryType × Nat))}, HistoryOk page slabSize live (ops ++ [.openStream u n]) →
      SizeOk page slabSize n := by
  induction ops with
  | nil => intro live h; exact h.2.2.2.1
  | cons o ops ih =>
    intro live h
    cases o with
    | openStream _ _ => exact ih h.2.2.2.2
    | log _ _ => exact ih h.2
    | drop _ => exact ih h

theorem calls_append (a b : List ConcOp) : calls (a ++ b) = calls a ++ calls b := by
  induction a with
  | nil => rfl
  | cons o a ih => cases o <;> simp [calls, ih]

theorem interleaved_prefix {a b : List ConcOp} : ∀ {busy : List Nat}, Interleaved busy (a ++ b) → Interleaved busy a := by
  induction a with
  | nil => intro _ _; trivial
  | cons o a ih =>
    intro busy h
    cases o with
    | openStream _ _ => exact ih h
    | begin_ i _ => exact ⟨h.1, ih h.2⟩
    | finish i => exact ⟨h.1, ih h.2⟩
    | drop i => exact ⟨h.1, ih h.2⟩

theorem conc_steps_append {a b : List ConcOp} : ∀ {c c1 : ConcSys}, c.steps a = .ok c1 → c.steps (a ++ b) = c1.steps b := by
  induction a with
  | nil => intro c c1 h; cases h; rfl
  | cons o a ih =>
    intro c c1 h
    simp only [ConcSys.steps, List.cons_append] at h ⊢
    cases hs : c.step o with
    | panic => simp [hs] at h
    | ok c2 => simp only [hs] at h ⊢; exact ih h

theorem runConc_effects (hz : SizesOk page slabSize) {ops : List ConcOp} {op : ConcOp}
    (hin : Interleaved [] (ops ++ [op])) (hops : HistoryOk page slabSize [] (calls (ops ++ [op]))) :
    ∃ c c', runConc slabSize page ops = .ok c ∧ c.step op = .ok c' ∧
      (c.effects op).foldl Effect.apply c.sys.lg.files = c'.sys.lg.files := by
  have hops1 : HistoryOk page slabSize [] (calls ops) := by
    rw [calls_append] at hops; exact historyOk_prefix hops
  obtain ⟨c, x, lay, live, out, pend, objs, po, h1, hi, hT, _⟩ :=
    runConc_tracks (t := .lastEntry) hz (interleaved_prefix hin) hops1
  obtain ⟨c', _, _, _, _, _, _, _, h2, _⟩ :=
    runConc_tracks (t := .lastEntry) hz hin hops
  have hstep : c.step op = .ok c' := by
    unfold runConc at h1 h2
    split at h1
    · cases h1
    · rename_i lg hlg
      simp only [hlg] at h2
      rw [conc_steps_append h1] at h2
      simp only [ConcSys.steps] at h2
      split at h2
      · cases h2
      · rename_i c2 hc2; rw [hc2]; exact h2
  refine ⟨c, c', h1, hstep, conc_effects_step hz hT (fun i st hst => (hi.str.stream i st hst).2.2.1) ?_ hstep⟩
  rintro u n rfl
  rw [calls_append] at hops
  exact historyOk_open hops

/-- What several threads leave when their process is killed. -/
theorem runConc_kill (hz : SizesOk page slabSize) (hp256 : 256 ∣ page) (ht : t ≠ .lastEntry) (ht' : t ≠ .empty)
    {ops : List ConcOp} {op : ConcOp} (hin : Interleaved [] (ops ++ [op]))
    (hops : HistoryOk page slabSize [] (calls (ops ++ [op])))
    {others : List (Nat × List Bytes)} (ho : ∀ b ∈ others, op.stream ≠ some b.1) :
    ∃ c, runConc slabSize page ops = .ok c ∧
      ∀ files', KilledTogether c.sys.lg.files
          (c.effects op :: others.map (fun b => c.effects (.begin_ b.1 b.2))) files' →
        ∃ part, part <+: (objsOf t [] (calls ops)).flatten ∧ Delivers files' t part ∧
          (UsedFirst t false [] (calls ops) →
            ∀ (i : Nat) (st : Stream), c.sys.streams[i]? = some (some st) → st.entryType = t →
            st.section_.slab ≤ c.sys.lg.oldestMapped →
            ∃ a b, objsOf t [] (calls ops) = a ++ b ++ ((c.waiting i).map List.flatten).toList ∧
              b.flatten.length = st.section_.used ∧ 15 + b.flatten.length ≤ st.minAlloc ∧ a.flatten <+: part) := by
  have hops1 : HistoryOk page slabSize [] (calls ops) := by
    rw [calls_append] at hops; exact historyOk_prefix hops
  obtain ⟨c, x, lay, live, out, pend, objs, po, h1, hi, hT, hob, htidy, _⟩ :=
    runConc_tracks hz (interleaved_prefix hin) hops1
  refine ⟨c, h1, fun files' hk => ?_⟩
  have hop : ∀ u n, op = .openStream u n → SizeOk page slabSize n := by
    rintro u n rfl
    rw [calls_append] at hops
    exact historyOk_open hops
  obtain ⟨o, hpre, hd, hcov⟩ := conc_kill hz hp256 hi hT hop ho hk ht ht'
  refine ⟨o, ?_, hd, fun hu i st hst hty hsl => ?_⟩
  · rw [← hob, List.flatten_append]
    exact hpre.trans (List.prefix_append _ _)
  · obtain ⟨a, b, e1, e2, e3, e4⟩ := hcov (htidy hu) i st hst hty hsl
    have hpo : po = ((c.waiting i).map List.flatten).toList := by
      cases hw : c.waiting i with
      | some o => rw [(hT.wait i o st hw hst).2.2 hty]; rfl
      | none =>
        refine hT.idle fun j stj hj hwj htj => ?_
        have : j = i := uniq_stream hi.str hj hst (by rw [htj, hty])
        subst this
        exact hwj hw
    exact ⟨a, b, by rw [← hob, e1, hpo], e2, e3, e4⟩

end ULog
end Verif
