import Verif.Model.UnifiedLogKill
import Verif.Proofs.CrashRead
import Verif.Proofs.UnifiedLogEffects
/-! The files left by a process killed at any instant of an operation on its log. -/
namespace Verif
namespace ULog
open Bincode

/-! ### Sequences of effects -/

theorem KilledDuring.append {files files' : List Bytes} {a b : List Effect}
    (h : KilledDuring files (a ++ b) files') :
    KilledDuring files a files' ∨ KilledDuring (a.foldl Effect.apply files) b files' := by
  induction a generalizing files with
  | nil => exact .inr h
  | cons e a ih =>
    cases h with
    | cut h => exact .inl (.cut h)
    | next h =>
      rcases ih h with h | h
      · exact .inl (.next h)
      · exact .inr h

theorem torn_take {f d : Bytes} {o : Nat} (hl : o + d.length ≤ f.length) (j : Nat) :
    TornBytes f (writeAt f o d) (writeAt f o (d.take j)) := by
  have hj : (d.take j).length ≤ d.length := by rw [List.length_take]; omega
  refine ⟨length_writeAt (by omega), fun i => ?_⟩
  by_cases hi : i < o ∨ o + (d.take j).length ≤ i
  · exact .inl (getElem?_writeAt_out (by omega) hi)
  · obtain ⟨m, rfl⟩ : ∃ m, i = o + m := ⟨i - o, by omega⟩
    rw [getElem?_writeAt_in (by omega) (by omega), getElem?_writeAt_in hl (by omega)]
    right
    rw [List.length_take] at hi
    rw [List.getElem?_take, if_pos (by omega)]

/-- One store: the file has an initial part of the bytes. -/
theorem kill_store {files files' : List Bytes} {k o : Nat} {d f : Bytes}
    (h : KilledDuring files [.store k o d] files') (hf : files[k]? = some f)
    (hl : o + d.length ≤ f.length) :
    ∃ j, files'[k]? = some (writeAt f o (d.take j)) ∧
      TornBytes f (writeAt f o d) (writeAt f o (d.take j)) ∧
      (∀ i : Nat, i ≠ k → files'[i]? = files[i]?) ∧ files'.length = files.length := by
  have key : ∀ j, files' = files.modify k (fun f => writeAt f o (d.take j)) →
      ∃ j, files'[k]? = some (writeAt f o (d.take j)) ∧
        TornBytes f (writeAt f o d) (writeAt f o (d.take j)) ∧
        (∀ i : Nat, i ≠ k → files'[i]? = files[i]?) ∧ files'.length = files.length := by
    intro j e
    subst e
    refine ⟨j, by rw [List.getElem?_modify, hf]; simp, torn_take hl j, fun i hi => ?_, by simp⟩
    rw [List.getElem?_modify]
    simp [Ne.symm hi]
  cases h with
  | cut h => obtain ⟨j, e⟩ := h; exact key j e
  | next h =>
    cases h with
    | done => exact key d.length (by simp [Effect.apply])

theorem kill_cuts {l : List Slab} {files files' : List Bytes}
    (h : KilledDuring files (cuts l) files') :
    ∃ l1 l2, l = l1 ++ l2 ∧ files' = (cuts l1).foldl Effect.apply files := by
  induction l generalizing files with
  | nil => cases h; exact ⟨[], [], rfl, rfl⟩
  | cons x l ih =>
    cases h with
    | cut h => exact ⟨[], x :: l, rfl, h⟩
    | next h =>
      obtain ⟨l1, l2, rfl, e⟩ := ih h
      exact ⟨x :: l1, l2, rfl, e⟩

theorem length_cuts (l : List Slab) (files : List Bytes) :
    ((cuts l).foldl Effect.apply files).length = files.length := by
  induction l generalizing files with
  | nil => rfl
  | cons x l ih =>
    show ((cuts l).foldl Effect.apply _).length = _
    rw [ih]; simp [Effect.apply]

/-! ### Behind the last section of a file -/

/-- A part of the header of a section, the rest still zero. -/
def PartHead (x : Bytes) : Prop :=
  ∃ t size j n, x = (enc (mkHeader t size 0)).take j ++ List.replicate n 0 ∧ 256 ∣ size.toNat ∧
    0 < size.toNat

/-- Nothing, or zeros. -/
def Tail (e : Nat) (f : Bytes) : Prop :=
  f.length = e ∨ (e < f.length ∧ ∃ n, f.drop e = List.replicate n 0)

theorem tail_same {e : Nat} {f f' : Bytes} (hl : f'.length = f.length)
    (h : ∀ i : Nat, e ≤ i → f'[i]? = f[i]?) (ht : Tail e f) : Tail e f' := by
  rcases ht with ht | ⟨h1, n, h2⟩
  · exact .inl (by omega)
  · refine .inr ⟨by omega, n, ?_⟩
    rw [← h2]
    apply List.ext_getElem?
    intro i
    rw [List.getElem?_drop, List.getElem?_drop]
    exact h _ (by omega)

theorem drop_writeAt {f d : Bytes} {o : Nat} (hl : o + d.length ≤ f.length) :
    (writeAt f o d).drop o = d ++ f.drop (o + d.length) := by
  unfold writeAt
  have : (f.take o).length = o := by rw [List.length_take]; omega
  rw [List.append_assoc, List.drop_append, this, Nat.sub_self, List.drop_zero,
    List.drop_of_length_le (by omega), List.nil_append]

variable {lg : Logger} {lay : List (List Sec)} {own : Nat → Option Handle}

theorem tail_files {page slabSize : Nat} {s : SecSys} {lay : List (List Sec)}
    (hi : SecInv page slabSize s lay) (hps : page ≤ slabSize) {k : Nat} {f : Bytes} {secs : List Sec}
    (hf : s.lg.files[k]? = some f) (hl : lay[k]? = some secs) :
    Tail (endOf page (startOf page k) secs) f := by
  have hle := endOf_le hi hps k f secs hf hl
  have hpg := hi.pageEq
  by_cases heq : f.length = endOf page (startOf page k) secs
  · exact .inl heq
  · refine .inr ⟨by omega, f.length - endOf page (startOf page k) secs, ?_⟩
    have hlive : ∃ sl ∈ s.lg.live, sl.suffix = k := by
      apply Classical.byContradiction
      intro hn
      have := (hi.inv.trimmed k f secs hf hl (fun sl hsl e => hn ⟨sl, hsl, e⟩)).2
      rw [hpg] at this
      exact heq this
    obtain ⟨sl, hsl, rfl⟩ := hlive
    have htail := (hi.inv.live sl hsl f secs hf hl).tail _
      (f.length - endOf page (startOf page sl.suffix) secs) (by rw [hpg]; exact Nat.le_refl _)
      (by omega)
    rw [← htail]
    unfold slice
    exact (List.take_of_length_le (by rw [List.length_drop]; omega)).symm

/-- During a collection: a file is as before or cut behind its last section. -/
theorem cuts_files (hi : Inv lg lay own) {l1 l2 : List Slab}
    (hl12 : lg.back.filter (fun s => s.inFlight.isEmpty) = l1 ++ l2)
    {k : Nat} {f : Bytes} {secs : List Sec}
    (hf : lg.files[k]? = some f) (hl : lay[k]? = some secs) :
    ∃ f', ((cuts l1).foldl Effect.apply lg.files)[k]? = some f' ∧
      (f' = f ∨ f'.length = endOf lg.pageSize (startOf lg.pageSize k) secs) := by
  obtain ⟨hfl, hnd⟩ := back_facts hi
  rw [hl12] at hfl hnd
  have hfl1 : ∀ sl ∈ l1, sl.flushed ≤ sl.cgp := fun sl h => hfl sl (by simp [h])
  have hnd1 : (l1.map Slab.suffix).Nodup := by
    rw [List.map_append] at hnd
    exact (List.nodup_append.1 hnd).1
  have hmem : ∀ sl ∈ l1, sl ∈ lg.back := by
    intro sl h
    have : sl ∈ lg.back.filter (fun s => s.inFlight.isEmpty) := by rw [hl12]; simp [h]
    exact (List.mem_filter.1 this).1
  obtain ⟨files', h1, _, h3, h4⟩ := dropSlabs_spec lg.files hfl1 hnd1
  rw [dropSlabs_cuts hfl1] at h1
  obtain rfl := Rs.ok.inj h1
  by_cases hk : ∃ sl ∈ l1, sl.suffix = k
  · obtain ⟨sl, hsl, rfl⟩ := hk
    refine ⟨setLen f sl.cgp, by rw [h3 sl hsl, hf]; rfl, .inr ?_⟩
    rw [← hi.back sl (hmem sl hsl) secs hl]
    simp [setLen]; omega
  · refine ⟨f, ?_, .inl rfl⟩
    rw [h4 k (fun sl h e => hk ⟨sl, h, e⟩)]; exact hf

/-! ### All the files -/

/-- What a killed process leaves: the slabs it had, and possibly a new one with at most a part of the
header of its first section. -/
structure Remains (page K : Nat) (lay : List (List Sec)) (files files' : List Bytes) : Prop where
  file : ∀ (k : Nat) (f : Bytes) (secs : List Sec), files[k]? = some f → lay[k]? = some secs →
    ∃ f', files'[k]? = some f' ∧ After page k secs f f' (k < K) ∧
      (Tail (endOf page (startOf page k) secs) f' ∨
        (files'.length = k + 1 ∧ endOf page (startOf page k) secs < f'.length ∧
          PartHead (f'.drop (endOf page (startOf page k) secs))))
  len : files'.length = lay.length ∨
    (files'.length = lay.length + 1 ∧ ∃ g, files'[lay.length]? = some g ∧ PartHead g)

theorem partHead_nil : PartHead [] := ⟨.empty, 256, 0, 0, rfl, by decide, by decide⟩

theorem partHead_zeros (n : Nat) : PartHead (List.replicate n 0) :=
  ⟨.empty, 256, 0, n, rfl, by decide, by decide⟩

theorem kill_step {page slabSize : Nat} {s : SecSys} {lay : List (List Sec)} (hp : 13 < page)
    (hps : page ≤ slabSize) (hp256 : 256 ∣ page)
    (hi : SecInv page slabSize s lay) {op : SecOp} (hop : SecOpOk page slabSize op)
    {files' : List Bytes} (hc : KilledDuring s.lg.files (opEffects s op) files') :
    Remains page s.lg.oldestMapped lay s.lg.files files' := by
  have hpg := hi.pageEq
  have hpp := hi.inv.page_pos
  have hfl := hi.inv.files_len
  have nothing : KilledDuring s.lg.files [] files' →
      Remains page s.lg.oldestMapped lay s.lg.files files' := by
    intro h
    cases h
    refine ⟨fun k f secs hf hl => ⟨f, hf, ?_, .inl (tail_files hi hps hf hl)⟩, .inl hfl⟩
    rw [← hpg]; exact after_same hi.inv hf hl _
  cases op with
  | add t req =>
    have hop : SizeOk page slabSize req := hop
    have hof := oldest_front hi.inv
    -- during the collection
    have hcut : ∀ l1 l2, s.lg.back.filter (fun s => s.inFlight.isEmpty) = l1 ++ l2 →
        ∀ (k : Nat) (f : Bytes) (secs : List Sec), s.lg.files[k]? = some f → lay[k]? = some secs →
        ∃ f', ((cuts l1).foldl Effect.apply s.lg.files)[k]? = some f' ∧
          After page k secs f f' (k < s.lg.oldestMapped) ∧ Tail (endOf page (startOf page k) secs) f' := by
      intro l1 l2 hl12 k f secs hf hl
      obtain ⟨f', h1, h2⟩ := after_cuts hi.inv hl12 hf hl
      obtain ⟨f'', h3, h4⟩ := cuts_files hi.inv hl12 hf hl
      obtain rfl := Option.some.inj (h1.symm.trans h3)
      rw [hpg] at h2 h4
      refine ⟨f', h1, h2, ?_⟩
      rcases h4 with rfl | h4
      · exact tail_files hi hps hf hl
      · exact .inl h4
    rcases KilledDuring.append (show KilledDuring s.lg.files (gcEffects s.lg ++ _) files' from hc) with hc | hc
    · obtain ⟨l1, l2, hl12, rfl⟩ := kill_cuts (gcEffects_eq s.lg ▸ hc)
      refine ⟨fun k f secs hf hl => ?_, .inl (by rw [length_cuts]; exact hfl)⟩
      obtain ⟨f', h1, h2, h3⟩ := hcut l1 l2 hl12 k f secs hf hl
      exact ⟨f', h1, h2, .inl h3⟩
    · -- after it
      have hcut := hcut (s.lg.back.filter (fun s => s.inFlight.isEmpty)) [] (by simp)
      obtain ⟨files1, hgc, hinv1, _⟩ := inv_gc hi.inv
      have hfiles1 : files1 = (cuts (s.lg.back.filter (fun s => s.inFlight.isEmpty))).foldl
          Effect.apply s.lg.files := by
        unfold Logger.gc at hgc
        rw [dropSlabs_cuts (back_facts hi.inv).1] at hgc
        have := Rs.ok.inj hgc
        exact (congrArg Logger.files this).symm
      rw [gcEffects_eq, ← hfiles1] at hc
      rw [← hfiles1] at hcut
      have hlen1 : files1.length = lay.length := hinv1.files_len
      have hfs : s.lg.front.suffix + 1 = lay.length := hi.inv.front_suffix
      have hmax := hop.max
      have hmin := hop.min
      have hal := align_le (page := page) (by omega) req
      have hsz : (UInt32.ofNat (align page req)).toNat = align page req := by
        rw [UInt32.toNat_ofNat']; exact Nat.mod_eq_of_lt hmax
      have hdiv : 256 ∣ align page req := Nat.dvd_trans hp256 (by unfold align; exact ⟨_, Nat.mul_comm _ _⟩)
      unfold headerEffects at hc
      simp only at hc
      split at hc
      · -- in a new slab
        have new : ∀ g, files' = files1 ++ [g] → PartHead g →
            Remains page s.lg.oldestMapped lay s.lg.files files' := by
          rintro g rfl hg
          refine ⟨fun k f secs hf hl => ?_, .inr ⟨by simp [hlen1], g, ?_, hg⟩⟩
          · obtain ⟨f', h1, h2, h3⟩ := hcut k f secs hf hl
            refine ⟨f', ?_, h2, .inl h3⟩
            rw [List.getElem?_append_left (List.getElem?_eq_some_iff.1 h1).1]; exact h1
          · rw [← hlen1]; simp
        rw [hfs, ← hlen1] at hc
        cases hc with
        | cut h =>
          obtain rfl : files' = files1 := h
          refine ⟨fun k f secs hf hl => ?_, .inl hlen1⟩
          obtain ⟨f', h1, h2, h3⟩ := hcut k f secs hf hl
          exact ⟨f', h1, h2, .inl h3⟩
        | next h =>
          cases h with
          | cut h => exact new [] h partHead_nil
          | next h =>
            have e : Effect.apply (Effect.apply files1 .create) (.setLen files1.length s.lg.slabSize) =
                files1 ++ [List.replicate s.lg.slabSize 0] := by
              simp only [Effect.apply]
              rw [append_modify, setLen]
              simp
            rw [e] at h
            have hhl := enc_header_le (mkHeader t (UInt32.ofNat (align s.lg.pageSize req)) 0)
            have hslab : s.lg.slabSize = slabSize := hi.slabEq
            have hfits := hop.fits
            obtain ⟨j, h1, _, h3, h4⟩ := kill_store h (f := List.replicate s.lg.slabSize 0) (by simp)
              (by rw [List.length_replicate]; omega)
            refine new (writeAt (List.replicate s.lg.slabSize 0) 0
              ((enc (mkHeader t (UInt32.ofNat (align s.lg.pageSize req)) 0)).take j)) ?_ ?_
            · apply List.ext_getElem?
              intro i
              by_cases hi' : i = files1.length
              · subst hi'; rw [h1]; simp
              · rw [h3 i hi', List.getElem?_append, List.getElem?_append]
                by_cases hlt : i < files1.length
                · rw [if_pos hlt, if_pos hlt]
                · rw [if_neg hlt, if_neg hlt, List.getElem?_eq_none (by simp; omega),
                    List.getElem?_eq_none (by simp; omega)]
            · have htl : ((enc (mkHeader t (UInt32.ofNat (align s.lg.pageSize req)) 0)).take j).length ≤ 13 := by
                rw [List.length_take]; omega
              have := drop_writeAt (f := List.replicate s.lg.slabSize 0) (o := 0)
                (d := (enc (mkHeader t (UInt32.ofNat (align s.lg.pageSize req)) 0)).take j)
                (by rw [List.length_replicate]; omega)
              rw [List.drop_zero, List.drop_replicate, hpg] at this
              rw [hpg]
              exact ⟨t, _, j, _, this, by rw [hsz]; exact hdiv, by rw [hsz]; omega⟩
      · -- in the current slab
        rename_i hroom
        obtain ⟨ff, fsecs, hff, hfl⟩ := hinv1.front_at
        have hff : files1[s.lg.front.suffix]? = some ff := hff
        have hfl : lay[s.lg.front.suffix]? = some fsecs := hfl
        have hok := hinv1.live s.lg.front (by simp [Logger.live, Logger.collected]) ff fsecs hff hfl
        have hcgp : align s.lg.pageSize s.lg.front.cgp =
          endOf s.lg.pageSize (startOf s.lg.pageSize s.lg.front.suffix) fsecs := hok.cgp
        have hlen : ff.length = s.lg.slabSize := hok.len
        have hsecs : SecsOk s.lg.pageSize ff (startOf s.lg.pageSize s.lg.front.suffix) fsecs :=
          hinv1.secs _ _ _ hff hfl
        have hhl := enc_header_le (mkHeader t (UInt32.ofNat (align s.lg.pageSize req)) 0)
        have hal' := align_le hpp req
        have hfit : align s.lg.pageSize s.lg.front.cgp +
          (enc (mkHeader t (UInt32.ofNat (align s.lg.pageSize req)) 0)).length ≤ ff.length := by omega
        obtain ⟨j, hk', ht, hother, hlen'⟩ := kill_store hc hff hfit
        refine ⟨fun k f secs hf hl => ?_, .inl (by omega)⟩
        obtain ⟨f1, hf1, ha1, htl1⟩ := hcut k f secs hf hl
        by_cases hkf : k = s.lg.front.suffix
        · subst hkf
          obtain rfl : fsecs = secs := Option.some.inj (hfl.symm.trans hl)
          obtain rfl : ff = f1 := Option.some.inj (hff.symm.trans hf1)
          refine ⟨_, hk', ⟨?_, fun h => by omega, fun h0 => ?_⟩, .inr ⟨by omega, ?_, ?_⟩⟩
          · rw [hcgp] at ht hfit ⊢
            rw [← hpg]
            exact similar_behind hpp hsecs (Nat.le_refl _) hfit ht
          · have := ha1.main h0
            have hm := hi.inv.main
            rw [hpg] at hm
            rw [ht.slice hfit (.inl ?_)]
            · exact this
            · rw [hcgp]
              have := le_endOf s.lg.pageSize (startOf s.lg.pageSize s.lg.front.suffix) fsecs
              simp only [startOf, h0, if_true] at this ⊢
              rw [hpg] at this ⊢
              omega
          · rw [ht.1, ← hpg, ← hcgp]
            have : 0 < (enc (mkHeader t (UInt32.ofNat (align s.lg.pageSize req)) 0)).length := by
              rw [enc_mkHeader]; simp [headPart, enc]
            omega
          · have hjl : ((enc (mkHeader t (UInt32.ofNat (align s.lg.pageSize req)) 0)).take j).length ≤
              (enc (mkHeader t (UInt32.ofNat (align s.lg.pageSize req)) 0)).length := by
              rw [List.length_take]; omega
            rw [← hpg, ← hcgp, drop_writeAt (by omega)]
            rcases htl1 with htl1 | ⟨_, n, htl1⟩
            · rw [← hpg, ← hcgp] at htl1
              have : 0 < (enc (mkHeader t (UInt32.ofNat (align s.lg.pageSize req)) 0)).length := by
                rw [enc_mkHeader]; simp [headPart, enc]
              omega
            · rw [← List.drop_drop, hcgp, hpg, htl1, List.drop_replicate]
              exact ⟨t, _, j, _, rfl, by rw [hsz]; exact hdiv, by rw [hsz]; omega⟩
        · exact ⟨f1, by rw [hother k hkf]; exact hf1, ha1, .inl htl1⟩
  | write i obj =>
    unfold opEffects at hc
    simp only at hc
    split at hc
    · rename_i h data he
      have ho := own_open he rfl
      simp only at ho
      obtain ⟨pre, x, post, w⟩ := hi.inv.owns i h ho
      obtain ⟨g, hg⟩ := hi.inv.lookup w.at_
      have hsecs := hi.inv.secs _ _ _ hg w.at_
      have hso := ((secsOk_append _ _ _ _ _).1 hsecs).2.1
      have hroom := hso.room
      have hin := hso.inside
      have hoff := w.off
      have hreq := w.req
      have hused := w.used
      have hmx : maxHeader = 15 := rfl
      have hlen := fitChunks_length (h.req - (maxHeader + h.used)) obj
      have hof := oldest_owner hi.inv ho
      have hfit : h.off + maxHeader + h.used +
        (fitChunks (h.req - (maxHeader + h.used)) obj).1.length ≤ g.length := by omega
      obtain ⟨j, hk', ht, hother, hlen'⟩ := kill_store hc hg hfit
      refine ⟨fun k f secs hf hl => ?_, .inl (by omega)⟩
      by_cases hkf : k = h.slab
      · subst hkf
        obtain rfl : g = f := Option.some.inj (hg.symm.trans hf)
        obtain rfl : pre ++ x :: post = secs := Option.some.inj (w.at_.symm.trans hl)
        refine ⟨_, hk', ⟨?_, fun h => by omega, fun h0 => ?_⟩, .inl ?_⟩
        · rw [← hpg]
          exact similar_write hpp hsecs (by omega) (by omega) ht
        · rw [ht.slice hfit (.inl ?_), ← hpg]
          · exact hi.inv.main_at g (by rw [← h0]; exact hg)
          · have hm := hi.inv.main
            have := le_endOf s.lg.pageSize (startOf s.lg.pageSize h.slab) pre
            rw [← hoff] at this
            simp only [startOf, h0, if_true] at this
            rw [hpg] at hm this
            omega
        · refine tail_same ht.1 (fun i hge => ht.out hfit (.inr ?_)) (tail_files hi hps hf hl)
          rw [endOf_append, ← hpg, ← hoff] at hge
          have h1 := align_le hpp x.req
          have h2 := le_endOf s.lg.pageSize (h.off + align s.lg.pageSize x.req) post
          have h3 : h.off + align s.lg.pageSize x.req ≤ i := Nat.le_trans h2 hge
          omega
      · exact ⟨f, by rw [hother k hkf]; exact hf, by rw [← hpg]; exact after_same hi.inv hf hl _,
          .inl (tail_files hi hps hf hl)⟩
    · exact nothing hc
  | close i =>
    unfold opEffects at hc
    simp only at hc
    split at hc
    · rename_i h data he
      have ho := own_open he rfl
      simp only at ho
      obtain ⟨pre, x, post, w⟩ := hi.inv.owns i h ho
      obtain ⟨g, hg⟩ := hi.inv.lookup w.at_
      have hsecs := hi.inv.secs _ _ _ hg w.at_
      have hso := ((secsOk_append _ _ _ _ _).1 hsecs).2.1
      have hroom := hso.room
      have hin := hso.inside
      have hoff := w.off
      have hd := updateHeader_header hso.room hso.size w.owner w.header w.used
      have hof := oldest_owner hi.inv ho
      have hhl := enc_header_le (Sec.header s.lg.pageSize { x with owner := none })
      rw [hd] at hc
      have hfit : h.off + (enc (Sec.header s.lg.pageSize { x with owner := none })).length ≤
        g.length := by omega
      obtain ⟨j, hk', ht, hother, hlen'⟩ := kill_store hc hg hfit
      refine ⟨fun k f secs hf hl => ?_, .inl (by omega)⟩
      by_cases hkf : k = h.slab
      · subst hkf
        obtain rfl : g = f := Option.some.inj (hg.symm.trans hf)
        obtain rfl : pre ++ x :: post = secs := Option.some.inj (w.at_.symm.trans hl)
        refine ⟨_, hk', ⟨?_, fun h => by omega, fun h0 => ?_⟩, .inl ?_⟩
        · rw [hoff] at ht ⊢
          rw [← hpg]
          exact similar_close hpp hsecs (by rw [w.owner]; rfl) ht
        · rw [ht.slice hfit (.inl ?_), ← hpg]
          · exact hi.inv.main_at g (by rw [← h0]; exact hg)
          · have hm := hi.inv.main
            have := le_endOf s.lg.pageSize (startOf s.lg.pageSize h.slab) pre
            rw [← hoff] at this
            simp only [startOf, h0, if_true] at this
            rw [hpg] at hm this
            omega
        · refine tail_same ht.1 (fun i hge => ht.out hfit (.inr ?_)) (tail_files hi hps hf hl)
          rw [endOf_append, ← hpg, ← hoff] at hge
          have h1 := align_le hpp x.req
          have h2 := le_endOf s.lg.pageSize (h.off + align s.lg.pageSize x.req) post
          have h3 : h.off + align s.lg.pageSize x.req ≤ i := Nat.le_trans h2 hge
          omega
      · exact ⟨f, by rw [hother k hkf]; exact hf, by rw [← hpg]; exact after_same hi.inv hf hl _,
          .inl (tail_files hi hps hf hl)⟩
    · exact nothing hc

end ULog
end Verif
