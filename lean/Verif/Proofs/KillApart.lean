import Verif.Proofs.KillTogether
/-! Operations on sections leave the other open sections alone. -/
namespace Verif
namespace ULog
open Bincode

variable {page slabSize : Nat} {x x' : SecSys} {lay : List (List Sec)}

theorem own_file (hi : SecInv page slabSize x lay) {j : Nat} {h : Handle} {d : Bytes}
    (hj : x.issued[j]? = some ⟨h, true, d⟩) : Sized slabSize h.slab x.lg.files := by
  obtain ⟨sl, hsl, hsuf⟩ := hi.inv.owner_live (own_open hj rfl)
  obtain ⟨file, secs, hf, hl⟩ := hi.inv.slab_at hsl
  have := (hi.inv.live sl hsl file secs hf hl).len
  rw [hi.slabEq] at this
  exact ⟨file, hsuf ▸ hf, this⟩

theorem issued_room (hz : SizesOk page slabSize) (hi : SecInv page slabSize x lay) {e : Issued} (he : e ∈ x.issued) :
    e.h.off + e.h.req ≤ e.h.last ∧ e.h.last ≤ slabSize ∧ 15 ≤ e.h.req := by
  obtain ⟨h1, h2, h3⟩ := hi.bound e he
  have h4 := align_le (page := page) (by have := hz.page_min; omega) e.h.req
  unfold Handle.last
  omega

/-- The section an operation is about, if it exists. -/
def SecOp.about : SecOp → Option Nat
  | .add _ _ => none
  | .write i _ => some i
  | .close i => some i

theorem open_stays {op : SecOp} (h : x.step op = .ok x') {i : Nat} {e : Issued} (hi : x.issued[i]? = some e)
    (ha : op.about ≠ some i) : x'.issued[i]? = some e := by
  have hlt := (List.getElem?_eq_some_iff.1 hi).1
  cases op with
  | add t req =>
    unfold SecSys.step at h
    simp only at h
    split at h
    · cases h
    · cases h
      show (x.issued ++ _)[i]? = _
      rw [List.getElem?_append_left hlt, hi]
  | write j obj =>
    have hj : j ≠ i := fun hj => ha (by rw [hj]; rfl)
    unfold SecSys.step at h
    simp only at h
    split at h
    · split at h
      · cases h
      · cases h
        show (x.issued.set j _)[i]? = _
        rw [List.getElem?_set_ne hj, hi]
    · cases h; exact hi
  | close j =>
    have hj : j ≠ i := fun hj => ha (by rw [hj]; rfl)
    unfold SecSys.step at h
    simp only at h
    split at h
    · split at h
      · cases h
      · cases h
        show (x.issued.set j _)[i]? = _
        rw [List.getElem?_set_ne hj, hi]
    · cases h; exact hi

theorem within_cuts {l : List Slab} : ∀ (files : List Bytes), Within files (cuts l) := by
  induction l with
  | nil => intro _; trivial
  | cons s l ih => intro files; exact ⟨fun _ _ _ h => (by cases h), ih _⟩

theorem store_within {files : List Bytes} {k off : Nat} {d : Bytes} {size : Nat} (h : Sized size k files)
    (hd : off + d.length ≤ size) : Within files [.store k off d] := by
  refine ⟨fun k' off' d' he f hf => ?_, trivial⟩
  cases he
  obtain ⟨g, hg, hl⟩ := h
  obtain rfl := Option.some.inj (hg.symm.trans hf)
  omega

/-- The stores of an operation are in the files. -/
theorem op_within (hz : SizesOk page slabSize) (hi : SecInv page slabSize x lay) {op : SecOp}
    (hop : SecOpOk page slabSize op) : Within x.lg.files (opEffects x op) := by
  cases op with
  | add t req =>
    have hop : SizeOk page slabSize req := hop
    obtain ⟨files1, hgc, hinv1, _⟩ := inv_gc hi.inv
    have hfiles1 : files1 = (gcEffects x.lg).foldl Effect.apply x.lg.files := by
      unfold Logger.gc at hgc
      rw [dropSlabs_cuts (back_facts hi.inv).1] at hgc
      exact (congrArg Logger.files (Rs.ok.inj hgc)).symm
    show Within _ (gcEffects x.lg ++ headerEffects x.lg t req)
    refine Within.append (by rw [gcEffects_eq]; exact within_cuts _) ?_
    rw [← hfiles1]
    have hal := align_le (page := page) (by have := hz.page_min; omega) req
    have hmin := hop.min
    have hhl := enc_header_le (mkHeader t (UInt32.ofNat (align x.lg.pageSize req)) 0)
    have hfits := hop.fits
    unfold headerEffects
    simp only
    rw [hi.slabEq, hi.pageEq]
    rw [hi.pageEq] at hhl
    split
    · have hfl : files1.length = x.lg.front.suffix + 1 := by
        have h1 : files1.length = lay.length := hinv1.files_len
        have h2 := hi.inv.front_suffix
        omega
      rw [← hfl]
      refine ⟨fun _ _ _ h => (by cases h), fun _ _ _ h => (by cases h), ?_⟩
      have e : Effect.apply (Effect.apply files1 .create) (.setLen files1.length slabSize) =
          files1 ++ [List.replicate slabSize 0] := by
        simp only [Effect.apply]
        rw [append_modify, setLen]
        simp
      rw [e]
      exact store_within (size := slabSize) ⟨List.replicate slabSize 0, by simp, by simp⟩ (by omega)
    · rename_i hroom
      obtain ⟨ff, fsecs, hff, hfl⟩ := hinv1.front_at
      have hok := hinv1.live x.lg.front (by simp [Logger.live, Logger.collected]) ff fsecs hff hfl
      have hlen : ff.length = x.lg.slabSize := hok.len
      rw [hi.slabEq] at hlen
      exact store_within (size := slabSize) ⟨ff, hff, hlen⟩ (by omega)
  | write i obj =>
    unfold opEffects
    simp only
    split
    · rename_i h d hj
      have hr := issued_room hz hi (List.mem_of_getElem? hj)
      have hu := open_used hi hj
      have hl := fitChunks_length (h.req - (maxHeader + h.used)) obj
      have hmx : maxHeader = 15 := rfl
      simp only at hr
      exact store_within (own_file hi hj) (by omega)
    · trivial
  | close i =>
    unfold opEffects
    simp only
    split
    · rename_i h d hj
      have hr := issued_room hz hi (List.mem_of_getElem? hj)
      have hl := enc_header_le h.updateHeader.header
      simp only at hr
      exact store_within (own_file hi hj) (by omega)
    · trivial

/-- They are not in the other open sections, and the files of these are not cut. -/
theorem op_apart (hz : SizesOk page slabSize) (hi : SecInv page slabSize x lay) {op : SecOp}
    (hop : SecOpOk page slabSize op) {i : Nat} {h : Handle} {d : Bytes} (hj : x.issued[i]? = some ⟨h, true, d⟩)
    (ha : op.about ≠ some i) : ∀ e ∈ opEffects x op, e.Apart slabSize h.slab h.off h.req := by
  have hrx := issued_room hz hi (List.mem_of_getElem? hj)
  simp only at hrx
  have apart : ∀ (j : Nat) (e : Issued), j ≠ i → x.issued[j]? = some e → e.h.slab = h.slab →
      e.h.off + e.h.req ≤ h.off ∨ h.off + h.req ≤ e.h.off := by
    intro j e hji he hs
    have hre := issued_room hz hi (List.mem_of_getElem? he)
    rcases Nat.lt_or_gt_of_ne hji with hlt | hlt
    · have := (issued_disjoint hi he hj hlt).2 hs
      simp only at this
      omega
    · have := (issued_disjoint hi hj he hlt).2 hs.symm
      simp only at this
      omega
  cases op with
  | add t req =>
    have hop : SizeOk page slabSize req := hop
    intro e he
    rcases List.mem_append.1 (show e ∈ gcEffects x.lg ++ headerEffects x.lg t req from he) with he | he
    · obtain ⟨sl, hsl, rfl⟩ := List.mem_map.1 he
      obtain ⟨hb, hemp⟩ := List.mem_filter.1 hsl
      intro hs
      have := (inFlight_iff hi (sl := sl) (by simp [Logger.live, hb]) h.off).2
        ⟨⟨h, true, d⟩, List.mem_of_getElem? hj, rfl, hs.symm, rfl⟩
      rw [List.isEmpty_iff.1 hemp] at this
      cases this
    · have hal := align_le (page := page) (by have := hz.page_min; omega) req
      have hmin := hop.min
      have hhl := enc_header_le (mkHeader t (UInt32.ofNat (align page req)) 0)
      obtain ⟨sl, hsl, hsuf⟩ := hi.inv.owner_live (own_open hj rfl)
      have hle : h.slab ≤ x.lg.front.suffix := by
        have h1 := hi.inv.suffix_lt hsl
        have h2 := hi.inv.front_suffix
        have : sl.suffix = h.slab := hsuf
        omega
      unfold headerEffects at he
      simp only [hi.pageEq, hi.slabEq] at he
      split at he
      · simp only [List.mem_cons, List.not_mem_nil, or_false] at he
        rcases he with rfl | rfl | rfl
        · trivial
        · show x.lg.front.suffix + 1 ≠ h.slab
          omega
        · intro hs
          omega
      · rename_i hroom
        simp only [List.mem_singleton] at he
        subst he
        intro hs
        have hall := issued_allocated (by have := hz.page_min; omega) hi (sl := x.lg.front)
          (by simp [Logger.live]) (List.mem_of_getElem? hj) hs.symm
        simp only at hall
        have hcg := align_le (page := page) (by have := hz.page_min; omega) x.lg.front.cgp
        omega
  | write j obj =>
    have hji : j ≠ i := fun h => ha (by rw [h]; rfl)
    unfold opEffects
    simp only
    split
    · rename_i h2 d2 hj2
      have hr := issued_room hz hi (List.mem_of_getElem? hj2)
      have hu := open_used hi hj2
      have hl := fitChunks_length (h2.req - (maxHeader + h2.used)) obj
      have hmx : maxHeader = 15 := rfl
      simp only at hr
      intro e he
      simp only [List.mem_singleton] at he
      subst he
      intro hs
      have := apart j _ hji hj2 hs
      simp only at this
      omega
    · simp
  | close j =>
    have hji : j ≠ i := fun h => ha (by rw [h]; rfl)
    unfold opEffects
    simp only
    split
    · rename_i h2 d2 hj2
      have hr := issued_room hz hi (List.mem_of_getElem? hj2)
      have hl := enc_header_le h2.updateHeader.header
      simp only at hr
      intro e he
      simp only [List.mem_singleton] at he
      subst he
      intro hs
      have := apart j _ hji hj2 hs
      simp only at this
      omega
    · simp

/-- The effects of operations one after the other. -/
def seqEffects : SecSys → List SecOp → List Effect
  | _, [] => []
  | x, op :: ops => opEffects x op ++ match x.step op with
    | .ok x => seqEffects x ops
    | .panic => []

theorem seq_ok (hz : SizesOk page slabSize) {ops : List SecOp} : ∀ {x : SecSys}, Reachable page slabSize x →
    (∀ op ∈ ops, SecOpOk page slabSize op) → Within x.lg.files (seqEffects x ops) ∧
      ∀ (i : Nat) (h : Handle) (d : Bytes), x.issued[i]? = some ⟨h, true, d⟩ →
        (∀ op ∈ ops, op.about ≠ some i) → ∀ e ∈ seqEffects x ops, e.Apart slabSize h.slab h.off h.req := by
  induction ops with
  | nil => intro x _ _; exact ⟨trivial, by intro i h d _ _ e he; cases he⟩
  | cons op ops ih =>
    intro x hr hops
    obtain ⟨lay, hi⟩ := reach_inv hz hr
    have hop := hops op (by simp)
    have h1 := op_within hz hi hop
    unfold seqEffects
    cases hs : x.step op with
    | panic =>
      simp only [List.append_nil]
      exact ⟨h1, fun i h d hj ha => op_apart hz hi hop hj (ha op (by simp))⟩
    | ok x1 =>
      simp only
      obtain ⟨w, a⟩ := ih (.step hr hop hs) (fun o ho => hops o (by simp [ho]))
      refine ⟨h1.append ?_, fun i h d hj ha e he => ?_⟩
      · rw [step_effects hi hop hs]; exact w
      · rcases List.mem_append.1 he with he | he
        · exact op_apart hz hi hop hj (ha op (by simp)) e he
        · exact a i h d (open_stays hs hj (ha op (by simp))) (fun o ho => ha o (by simp [ho])) e he

/-! ### The same operations on files of the same lengths -/

/-- Loggers that differ in the content of their files only. -/
def SameShape (a b : Logger) : Prop := ∃ files, b = { a with files := files } ∧ lens files = lens a.files

theorem dropSlabs_shape {l : List Slab} : ∀ {files files₁ files' : List Bytes}, lens files₁ = lens files →
    dropSlabs files l = .ok files' → ∃ files₁', dropSlabs files₁ l = .ok files₁' ∧ lens files₁' = lens files' := by
  induction l with
  | nil => intro files files₁ files' h hd; cases hd; exact ⟨_, rfl, h⟩
  | cons s l ih =>
    intro files files₁ files' h hd
    unfold dropSlabs dropSlab at hd ⊢
    cases hf : s.flushUntil s.cgp with
    | panic => simp [hf] at hd
    | ok s1 =>
      simp only [hf] at hd ⊢
      exact ih (lens_modify h _ fun f g => length_setLen_congr) hd

theorem flushIn_shape {files files₁ files' : List Bytes} {s s' : Slab} {h : Handle} (hl : lens files₁ = lens files)
    (he : flushIn files s h = .ok (s', files')) :
    ∃ files₁', flushIn files₁ s h = .ok (s', files₁') ∧ lens files₁' = lens files' := by
  unfold flushIn at he ⊢
  cases hf : files[s.suffix]? with
  | none => simp [hf] at he
  | some file =>
    obtain ⟨g, hg, hgl⟩ := lens_get hl hf
    simp only [hf, hg] at he ⊢
    cases hs : s.flushSection file h with
    | panic => simp [hs] at he
    | ok q =>
      obtain ⟨s1, f1⟩ := q
      simp only [hs, Rs.ok.injEq, Prod.mk.injEq] at he
      obtain ⟨rfl, rfl⟩ := he
      have key : ∃ g1, s.flushSection g h = .ok (s1, g1) ∧ g1.length = f1.length := by
        unfold Slab.flushSection at hs ⊢
        simp only at hs ⊢
        split at hs
        · cases hs
        · rename_i hroom
          rw [if_neg hroom]
          split at hs
          · split at hs
            · cases hs
            · cases hs
              exact ⟨_, rfl, length_writeAt_congr hgl⟩
          · split at hs
            · split at hs
              · cases hs
              · rename_i h1 h2 _ _ _
                cases hs
                simp only [h1, h2, if_true]
                exact ⟨_, rfl, length_writeAt_congr hgl⟩
            · rename_i h1 h2
              cases hs
              simp only [h1, h2, if_false]
              exact ⟨_, rfl, length_writeAt_congr hgl⟩
      obtain ⟨g1, hg1, hgl1⟩ := key
      rw [hg1]
      exact ⟨_, rfl, by rw [lens_set, lens_set, hl, hgl1]⟩

theorem flushBack_shape {files files₁ : List Bytes} {h : Handle} (hl : lens files₁ = lens files) {l : List Slab} :
    (flushBack files h l = .ok none → flushBack files₁ h l = .ok none) ∧
    ∀ l' files', flushBack files h l = .ok (some (l', files')) →
      ∃ files₁', flushBack files₁ h l = .ok (some (l', files₁')) ∧ lens files₁' = lens files' := by
  induction l with
  | nil => exact ⟨fun _ => rfl, fun _ _ h => by cases h⟩
  | cons s l ih =>
    unfold flushBack
    by_cases hs : s.suffix = h.slab
    · simp only [if_pos hs]
      cases hf : flushIn files s h with
      | panic => simp
      | ok q =>
        obtain ⟨s1, f1⟩ := q
        obtain ⟨f2, h2, h3⟩ := flushIn_shape hl hf
        rw [h2]
        simp only [Rs.ok.injEq, reduceCtorEq, false_implies, Option.some.injEq, Prod.mk.injEq, true_and]
        rintro _ _ ⟨rfl, rfl⟩
        exact ⟨f2, ⟨rfl, rfl⟩, h3⟩
    · simp only [if_neg hs]
      obtain ⟨i1, i2⟩ := ih
      cases hb : flushBack files h l with
      | panic => simp
      | ok o =>
        cases o with
        | none =>
          rw [i1 hb]
          simp
        | some q =>
          obtain ⟨l1, f1⟩ := q
          obtain ⟨f2, h2, h3⟩ := i2 l1 f1 hb
          rw [h2]
          simp only [Rs.ok.injEq, reduceCtorEq, false_implies, Option.some.injEq, Prod.mk.injEq, true_and]
          rintro _ _ ⟨rfl, rfl⟩
          exact ⟨f2, ⟨rfl, rfl⟩, h3⟩

theorem flushSection_shape {a b a' : Logger} {h : Handle} (hs : SameShape a b) (he : a.flushSection h = .ok a') :
    ∃ b', b.flushSection h = .ok b' ∧ SameShape a' b' := by
  obtain ⟨files, rfl, hl⟩ := hs
  unfold Logger.flushSection at he ⊢
  obtain ⟨i1, i2⟩ := flushBack_shape (h := h) hl (l := a.back)
  cases hb : flushBack a.files h a.back with
  | panic => simp [hb] at he
  | ok o =>
    cases o with
    | some q =>
      obtain ⟨l1, f1⟩ := q
      obtain ⟨f2, h2, h3⟩ := i2 l1 f1 hb
      simp only [hb, Rs.ok.injEq] at he
      subst he
      simp only [h2]
      exact ⟨_, rfl, f2, rfl, h3⟩
    | none =>
      simp only [hb] at he
      simp only [i1 hb]
      split at he
      · cases he
      · rename_i hsl
        rw [if_neg hsl]
        cases hf : flushIn a.files a.front h with
        | panic => simp [hf] at he
        | ok q =>
          obtain ⟨s1, f1⟩ := q
          obtain ⟨f2, h2, h3⟩ := flushIn_shape hl hf
          simp only [hf, Rs.ok.injEq] at he
          subst he
          simp only [h2]
          exact ⟨_, rfl, f2, rfl, h3⟩

theorem addFront_shape {a b a' : Logger} {o : Option Handle} {t : EntryType} {req : Nat} (hs : SameShape a b)
    (he : a.addFront t req = .ok (a', o)) : ∃ b', b.addFront t req = .ok (b', o) ∧ SameShape a' b' := by
  obtain ⟨files, rfl, hl⟩ := hs
  unfold Logger.addFront at he ⊢
  cases hf : a.files[a.front.suffix]? with
  | none => simp [hf] at he
  | some file =>
    obtain ⟨g, hg, hgl⟩ := lens_get hl hf
    simp only [hf, hg] at he ⊢
    cases hsl : a.front.addSection a.pageSize file t req with
    | panic => simp [hsl] at he
    | ok q =>
      obtain ⟨s1, f1, o1⟩ := q
      simp only [hsl, Rs.ok.injEq, Prod.mk.injEq] at he
      obtain ⟨rfl, rfl⟩ := he
      have key : ∃ g1, a.front.addSection a.pageSize g t req = .ok (s1, g1, o1) ∧ g1.length = f1.length := by
        unfold Slab.addSection at hsl ⊢
        simp only [hgl] at hsl ⊢
        split at hsl
        · rename_i h1
          rw [if_pos h1]
          cases hsl
          exact ⟨_, rfl, hgl⟩
        · rename_i h1
          rw [if_neg h1]
          repeat (split at hsl; · cases hsl)
          rename_i h2 h3 h4 h5
          rw [if_neg h2, if_neg h3, if_neg h4, if_neg h5]
          cases hsl
          exact ⟨_, rfl, length_writeAt_congr hgl⟩
      obtain ⟨g1, hg1, hgl1⟩ := key
      rw [hg1]
      exact ⟨_, rfl, _, rfl, by rw [lens_set, lens_set, hl, hgl1]⟩

theorem addSection_shape {a b a' : Logger} {h : Handle} {t : EntryType} {req : Nat} (hs : SameShape a b)
    (he : a.addSection t req = .ok (a', h)) : ∃ b', b.addSection t req = .ok (b', h) ∧ SameShape a' b' := by
  obtain ⟨files, rfl, hl⟩ := hs
  unfold Logger.addSection Logger.gc at he ⊢
  cases hd : dropSlabs a.files (a.back.filter (fun s => s.inFlight.isEmpty)) with
  | panic => simp [hd] at he
  | ok f1 =>
    obtain ⟨f2, h2, h3⟩ := dropSlabs_shape hl hd
    simp only [hd] at he
    simp only [h2]
    have hsh : SameShape { a with files := f1, back := a.back.filter (fun s => !s.inFlight.isEmpty) }
        { a with files := f2, back := a.back.filter (fun s => !s.inFlight.isEmpty) } := ⟨f2, rfl, h3⟩
    cases ha : Logger.addFront { a with files := f1, back := a.back.filter (fun s => !s.inFlight.isEmpty) } t req with
    | panic => simp [ha] at he
    | ok q =>
      obtain ⟨a1, o⟩ := q
      obtain ⟨b1, hb1, hs1⟩ := addFront_shape hsh ha
      rw [ha] at he
      rw [hb1]
      cases o with
      | some h1 =>
        simp only [Rs.ok.injEq, Prod.mk.injEq] at he ⊢
        obtain ⟨rfl, rfl⟩ := he
        exact ⟨b1, ⟨rfl, rfl⟩, hs1⟩
      | none =>
        simp only at he ⊢
        have hro : SameShape a1.rollover b1.rollover := by
          obtain ⟨f, rfl, hf⟩ := hs1
          refine ⟨f ++ [(newSlab a1.slabSize (a1.front.suffix + 1)).2], rfl, ?_⟩
          simp only [lens, Logger.rollover, List.map_append] at hf ⊢
          rw [hf]
        cases ha2 : a1.rollover.addFront t req with
        | panic => simp [ha2] at he
        | ok q =>
          obtain ⟨a2, o2⟩ := q
          obtain ⟨b2, hb2, hs2⟩ := addFront_shape hro ha2
          rw [ha2] at he
          rw [hb2]
          cases o2 with
          | none => simp at he
          | some h1 =>
            simp only [Rs.ok.injEq, Prod.mk.injEq] at he ⊢
            obtain ⟨rfl, rfl⟩ := he
            exact ⟨b2, ⟨rfl, rfl⟩, hs2⟩

theorem addEffects_shape {a b : Logger} (hs : SameShape a b) (t : EntryType) (req : Nat) :
    addEffects b t req = addEffects a t req := by
  obtain ⟨files, rfl, _⟩ := hs
  rfl

end ULog
end Verif
