import Verif.Proofs.UnifiedLogCrash
/-! The effects of an operation are those of the model of the code. -/
namespace Verif
namespace ULog
open Bincode
variable {lg : Logger} {lay : List (List Sec)} {own : Nat → Option Handle}

theorem addFront_fits (hi : Inv lg lay own) {t : EntryType} {req : Nat} {lg' : Logger}
    {h : Option Handle} (hsz : align lg.pageSize req < 4294967296)
    (hroom : ¬ lg.slabSize < align lg.pageSize lg.front.cgp + align lg.pageSize req)
    (ha : lg.addFront t req = .ok (lg', h)) : h ≠ none ∧
    lg'.files = Effect.apply lg.files (.store lg.front.suffix (align lg.pageSize lg.front.cgp)
      (enc (mkHeader t (UInt32.ofNat (align lg.pageSize req)) 0))) := by
  obtain ⟨f, secs, hf, hl⟩ := hi.front_at
  have hok := hi.live lg.front (by simp [Logger.live]) f secs hf hl
  have hN : (UInt32.ofNat (align lg.pageSize req)).toNat = align lg.pageSize req := by
    rw [UInt32.toNat_ofNat']; exact Nat.mod_eq_of_lt hsz
  unfold Logger.addFront at ha
  rw [hf] at ha
  simp only at ha
  unfold Slab.addSection at ha
  simp only [hN] at ha
  rw [if_neg (by rw [hok.len]; exact hroom)] at ha
  have hset : Effect.apply lg.files (.store lg.front.suffix (align lg.pageSize lg.front.cgp)
      (enc (mkHeader t (UInt32.ofNat (align lg.pageSize req)) 0))) = lg.files.set lg.front.suffix
      (writeAt f (align lg.pageSize lg.front.cgp)
        (enc (mkHeader t (UInt32.ofNat (align lg.pageSize req)) 0))) := modify_eq_set _ hf
  rw [hset]
  split at ha
  · simp at ha
  · rename_i s file h' heq
    have ha := Rs.ok.inj ha
    have e1 := (Prod.mk.inj ha).1
    have e2 := (Prod.mk.inj ha).2
    split at heq
    · simp at heq
    split at heq
    · simp at heq
    split at heq
    · simp at heq
    split at heq
    · simp at heq
    have heq := Rs.ok.inj heq
    have g2 := (Prod.mk.inj (Prod.mk.inj heq).2)
    rw [← e2, ← g2.2, ← e1, ← g2.1]
    exact ⟨by simp, rfl⟩

theorem addFront_full (hi : Inv lg lay own) {t : EntryType} {req : Nat} {lg' : Logger}
    {h : Option Handle} (hsz : align lg.pageSize req < 4294967296)
    (hroom : lg.slabSize < align lg.pageSize lg.front.cgp + align lg.pageSize req)
    (ha : lg.addFront t req = .ok (lg', h)) : h = none ∧ lg' = lg.aligned := by
  obtain ⟨f, secs, hf, hl⟩ := hi.front_at
  have hok := hi.live lg.front (by simp [Logger.live]) f secs hf hl
  have hN : (UInt32.ofNat (align lg.pageSize req)).toNat = align lg.pageSize req := by
    rw [UInt32.toNat_ofNat']; exact Nat.mod_eq_of_lt hsz
  unfold Logger.addFront at ha
  rw [hf] at ha
  simp only at ha
  unfold Slab.addSection at ha
  simp only [hN] at ha
  rw [if_pos (by rw [hok.len]; exact hroom)] at ha
  simp only at ha
  have ha := Rs.ok.inj ha
  have e1 := (Prod.mk.inj ha).1
  refine ⟨(Prod.mk.inj ha).2.symm, ?_⟩
  rw [← e1]
  unfold Logger.aligned
  congr 1
  apply List.ext_getElem?
  intro j
  rw [List.getElem?_set]
  split
  · rename_i h; subst h
    rw [if_pos (List.getElem?_eq_some_iff.1 hf).1, hf]
  · rfl

theorem append_modify {α : Type} {l : List α} {a : α} (f : α → α) :
    (l ++ [a]).modify l.length f = l ++ [f a] := by
  apply List.ext_getElem?
  intro j
  rw [List.getElem?_modify, List.getElem?_append, List.getElem?_append]
  by_cases h : j < l.length
  · rw [if_pos h, if_pos h]
    have : l.length ≠ j := by omega
    simp [this]
  · rw [if_neg h, if_neg h]
    by_cases h2 : l.length = j
    · subst h2; simp
    · have h3 : 0 < j - l.length := by omega
      rw [List.getElem?_eq_none (by simp; omega), List.getElem?_eq_none (by simp; omega)]
      rfl

theorem setLen_nil (n : Nat) : setLen [] n = List.replicate n 0 := by simp [setLen]

theorem step_effects {page slabSize : Nat} {s s' : SecSys} {lay : List (List Sec)}
    (hi : SecInv page slabSize s lay) {op : SecOp} (hop : SecOpOk page slabSize op)
    (h : s.step op = .ok s') : (opEffects s op).foldl Effect.apply s.lg.files = s'.lg.files := by
  cases op with
  | add t req =>
    have hop : SizeOk page slabSize req := hop
    have hmax := hop.max
    rw [← hi.pageEq] at hmax
    obtain ⟨files1, hgc, hinv1, _⟩ := inv_gc hi.inv
    have hfiles1 : files1 = (gcEffects s.lg).foldl Effect.apply s.lg.files := by
      unfold Logger.gc at hgc
      rw [dropSlabs_cuts (back_facts hi.inv).1] at hgc
      exact (congrArg Logger.files (Rs.ok.inj hgc)).symm
    show (gcEffects s.lg ++ headerEffects s.lg t req).foldl Effect.apply s.lg.files = _
    rw [List.foldl_append, ← hfiles1]
    unfold SecSys.step at h
    simp only at h
    split at h
    · simp at h
    · rename_i lg2 hd heq
      obtain rfl := Rs.ok.inj h
      simp only
      unfold Logger.addSection at heq
      rw [hgc] at heq
      simp only at heq
      unfold headerEffects
      simp only
      split at heq
      · simp at heq
      · -- the section fits in the current slab
        rename_i lg3 h3 ha
        obtain ⟨rfl, rfl⟩ := Prod.mk.inj (Rs.ok.inj heq)
        by_cases hroom : s.lg.slabSize < align s.lg.pageSize s.lg.front.cgp + align s.lg.pageSize req
        · exact absurd (addFront_full hinv1 hmax hroom ha).1 (by simp)
        · rw [if_neg hroom]
          exact (addFront_fits hinv1 hmax hroom ha).2.symm
      · rename_i lg3 ha
        by_cases hroom : s.lg.slabSize < align s.lg.pageSize s.lg.front.cgp + align s.lg.pageSize req
        · rw [if_pos hroom]
          obtain ⟨_, rfl⟩ := addFront_full hinv1 hmax hroom ha
          have hinv2 := inv_aligned hinv1
          have hinv3 := inv_rollover hinv2 (align_align hinv2.page_pos _)
          split at heq
          · rename_i lg4 h4 ha4
            obtain ⟨rfl, rfl⟩ := Prod.mk.inj (Rs.ok.inj heq)
            have hz : align s.lg.pageSize 0 = 0 := by
              have := align_mul hi.inv.page_pos 0
              rwa [Nat.zero_mul] at this
            have hfits := hop.fits
            rw [← hi.pageEq, ← hi.slabEq] at hfits
            have := (addFront_fits hinv3 hmax (by
              show ¬ s.lg.slabSize < align s.lg.pageSize 0 + align s.lg.pageSize req
              rw [hz]; omega) ha4).2
            rw [this]
            show _ = Effect.apply (files1 ++ [List.replicate s.lg.slabSize 0])
              (.store (s.lg.front.suffix + 1) (align s.lg.pageSize 0) _)
            have hlen : files1.length = s.lg.front.suffix + 1 := by
              have h1 : files1.length = lay.length := hinv1.files_len
              have h2 : s.lg.front.suffix + 1 = lay.length := hinv1.front_suffix
              omega
            rw [hz]
            simp only [List.foldl_cons, List.foldl_nil, Effect.apply]
            rw [← hlen, append_modify, append_modify, append_modify, setLen_nil]
            rfl
          · simp at heq
        · exact absurd rfl (addFront_fits hinv1 hmax hroom ha).1
  | write i obj =>
    unfold SecSys.step at h
    unfold opEffects
    simp only at h ⊢
    split at h
    · rename_i hd data he
      rw [he]
      split at h
      · simp at h
      · rename_i files2 h2 ok heq
        obtain rfl := Rs.ok.inj h
        simp only
        unfold encodeInto at heq
        split at heq
        · simp at heq
        · simp only at heq
          split at heq
          · exact (Prod.mk.inj (Rs.ok.inj heq)).1
          · exact (Prod.mk.inj (Rs.ok.inj heq)).1
    · obtain rfl := Rs.ok.inj h
      split
      · rename_i hno _ _ _ he
        exact absurd he (hno _ _)
      · rfl
  | close i =>
    unfold SecSys.step at h
    unfold opEffects
    simp only at h ⊢
    split at h
    · rename_i hd data he
      rw [he]
      split at h
      · simp at h
      · rename_i lg2 heq
        obtain rfl := Rs.ok.inj h
        simp only
        have ho := own_open he rfl
        simp only at ho
        obtain ⟨pre, x, post, w⟩ := hi.inv.owns i hd ho
        obtain ⟨sl, hsl, hsuf⟩ := hi.inv.owner_live ho
        obtain ⟨file, hf⟩ := hi.inv.lookup w.at_
        have hsecs := hi.inv.secs _ _ _ hf w.at_
        have hso := ((secsOk_append _ _ _ _ _).1 hsecs).2.1
        have hlive := hi.inv.live sl hsl file _ (by rw [hsuf]; exact hf) (by rw [hsuf]; exact w.at_)
        rw [hsuf] at hlive
        obtain ⟨sl', file', hfl, hfile', _⟩ :=
          slab_flush hi.inv.page_pos hlive hsecs w.owner w.off w.req w.header w.used
        have := flushSection_eq hi.inv hsl hsuf hf hfl
        rw [heq] at this
        rw [Rs.ok.inj this]
        have hd' := updateHeader_header hso.room hso.size w.owner w.header w.used
        show s.lg.files.modify hd.slab _ = s.lg.files.set hd.slab file'
        rw [modify_eq_set _ hf, hfile', hd']
    · obtain rfl := Rs.ok.inj h
      split
      · rename_i hno _ _ _ he
        exact absurd he (hno _ _)
      · rfl

end ULog
end Verif
