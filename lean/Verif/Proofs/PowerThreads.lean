import Verif.Spec.PowerThreads
import Verif.Proofs.PowerCut
import Verif.Proofs.KillConc
import Verif.Proofs.DamageRead
/-! Helper lemmas about what is on the disk behind a log that several threads use. -/
namespace Verif
namespace ULog
open Bincode

variable {page slabSize : Nat} {t : EntryType}

/-! ### Effects of a sequence of operations -/

theorem step_flushed (hp : 13 < page) (hpz : page ≤ slabSize) {x x1 : SecSys} {lay : List (List Sec)}
    (hi : SecInv page slabSize x lay) {op : SecOp} (hop : SecOpOk page slabSize op) (h : x.step op = .ok x1) (k : Nat) :
    x.lg.flushedOf k ≤ x1.lg.flushedOf k := by
  obtain ⟨s', lay', h1, hi', hlive, _⟩ := step_inv hp hi hop
  rw [h] at h1
  obtain rfl := Rs.ok.inj h1
  by_cases hk : k < x.lg.files.length
  · by_cases hm : ∃ sl ∈ x1.lg.live, sl.suffix = k
    · obtain ⟨sl', hsl', rfl⟩ := hm
      rw [flushedOf_live hi'.inv hsl']
      rcases hlive sl' hsl' with ⟨sl, hsl, hsuf, hle⟩ | hnew
      · rw [← hsuf, flushedOf_live hi.inv hsl]; exact hle
      · have := hi.inv.front_suffix
        have := hi.inv.files_len
        omega
    · obtain ⟨f', hf', hst⟩ := step_stable hp hpz hi hop h (List.getElem?_eq_getElem hk)
      rw [flushedOf_unmapped (fun sl hsl e => hm ⟨sl, hsl, e⟩) hf']
      apply Classical.byContradiction
      intro hlt
      have hle := flushedOf_le hp hpz hi (List.getElem?_eq_getElem hk)
      have := hst f'.length (by omega)
      rw [List.getElem?_eq_none (Nat.le_refl _), List.getElem?_eq_getElem (by omega)] at this
      cases this
  · rw [flushedOf_new hi.inv (by rw [← hi.inv.files_len]; omega)]
    exact Nat.zero_le _

theorem Effect.spares_mono {F G : Nat → Nat} (h : ∀ k, F k ≤ G k) {e : Effect} (he : e.spares G) : e.spares F := by
  cases e with
  | store k off d => exact Nat.le_trans (h k) he
  | setLen k n => exact Nat.le_trans (h k) he
  | create => trivial

theorem seq_spares (hz : SizesOk page slabSize) (hpz : page ≤ slabSize) {ops : List SecOp} : ∀ {x : SecSys},
    Reachable page slabSize x → (∀ op ∈ ops, SecOpOk page slabSize op) →
    ∀ e ∈ seqEffects x ops, e.spares x.lg.flushedOf := by
  induction ops with
  | nil => intro x _ _ e he; cases he
  | cons op ops ih =>
    intro x hr hops e he
    obtain ⟨lay, hi⟩ := reach_inv hz hr
    have hop := hops op (by simp)
    unfold seqEffects at he
    rcases List.mem_append.1 he with he | he
    · exact op_spares hi op e he
    · cases hs : x.step op with
      | panic => simp [hs] at he
      | ok x1 =>
        simp only [hs] at he
        exact Effect.spares_mono (step_flushed hz.page_min hpz hi hop hs)
          (ih (.step hr hop hs) (fun o ho => hops o (by simp [ho])) e he)

theorem seq_avoids (hz : SizesOk page slabSize) {ops : List SecOp} {k : Nat} : ∀ {x : SecSys},
    Reachable page slabSize x → (∀ op ∈ ops, SecOpOk page slabSize op) → k < x.lg.files.length →
    (∀ sl ∈ x.lg.live, sl.suffix ≠ k) → ∀ e ∈ seqEffects x ops, e.avoids k := by
  induction ops with
  | nil => intro x _ _ _ _ e he; cases he
  | cons op ops ih =>
    intro x hr hops hk hun e he
    obtain ⟨lay, hi⟩ := reach_inv hz hr
    have hop := hops op (by simp)
    unfold seqEffects at he
    rcases List.mem_append.1 he with he | he
    · exact op_avoids hi op hk hun e he
    · obtain ⟨x1, lay1, hs, hi1, hlive, _⟩ := step_inv hz.page_min hi hop
      simp only [hs] at he
      have hlen : k < x1.lg.files.length := by
        have h1 := step_effects hi hop hs
        have : CrashDuring x.lg.files (opEffects x op) x1.lg.files := by
          rw [← h1]
          generalize opEffects x op = es
          generalize x.lg.files = files
          induction es generalizing files with
          | nil => exact .done
          | cons e es ih => exact .next (ih (e.apply files))
        have := crash_len this
        omega
      refine ih (.step hr hop hs) (fun o ho => hops o (by simp [ho])) hlen ?_ e he
      intro sl' hsl' hc
      rcases hlive sl' hsl' with ⟨sl, hsl, hsuf, _⟩ | hnew
      · exact hun sl hsl (by omega)
      · have := hi.inv.front_suffix
        have := hi.inv.files_len
        omega

/-! ### Effects of several threads -/

theorem cut_spares {F : Nat → Nat} {e : Effect} (he : e.spares F) {files files' : List Bytes} {k : Nat} {f : Bytes}
    (hc : e.Cut files files') (hf : files[k]? = some f) (hl : F k ≤ f.length) :
    ∃ f', files'[k]? = some f' ∧ F k ≤ f'.length ∧ ∀ i, i < F k → f'[i]? = f[i]? := by
  cases e with
  | store k' off d =>
    obtain ⟨j, rfl⟩ := hc
    exact apply_spares (e := .store k' off (d.take j)) he hf hl
  | setLen k' n => rw [hc]; exact ⟨f, hf, hl, fun _ _ => rfl⟩
  | create => rw [hc]; exact ⟨f, hf, hl, fun _ _ => rfl⟩

theorem cut_avoids {k : Nat} {e : Effect} (he : e.avoids k) {files files' : List Bytes} {f : Bytes}
    (hc : e.Cut files files') (hf : files[k]? = some f) : files'[k]? = some f := by
  cases e with
  | store k' off d =>
    obtain ⟨j, rfl⟩ := hc
    simp only [Effect.apply, List.getElem?_modify, hf]
    exact congrArg some (if_neg he)
  | setLen k' n => rw [hc]; exact hf
  | create => rw [hc]; exact hf

theorem apply_avoids {k : Nat} {e : Effect} (he : e.avoids k) {files : List Bytes} {f : Bytes}
    (hf : files[k]? = some f) : (e.apply files)[k]? = some f := by
  cases e with
  | store j off d => simp only [Effect.apply]; rw [List.getElem?_modify, hf]; exact congrArg some (if_neg he)
  | setLen j n => simp only [Effect.apply]; rw [List.getElem?_modify, hf]; exact congrArg some (if_neg he)
  | create =>
    simp only [Effect.apply]
    rw [List.getElem?_append_left (List.getElem?_eq_some_iff.1 hf).1, hf]

theorem mem_set_tail {ths : List (List Effect)} {i : Nat} {e : Effect} {es : List Effect}
    (hi : ths[i]? = some (e :: es)) {Q : Effect → Prop} (h : ∀ th ∈ ths, ∀ a ∈ th, Q a) :
    Q e ∧ ∀ th ∈ ths.set i es, ∀ a ∈ th, Q a := by
  have hm := h _ (List.mem_of_getElem? hi)
  refine ⟨hm e (by simp), fun th hth a ha => ?_⟩
  rcases List.mem_or_eq_of_mem_set hth with hth | rfl
  · exact h th hth a ha
  · exact hm a (by simp [ha])

theorem together_spares {F : Nat → Nat} {files files' : List Bytes} {ths : List (List Effect)}
    (hk : KilledTogether files ths files') (he : ∀ th ∈ ths, ∀ e ∈ th, e.spares F) {k : Nat} {f : Bytes}
    (hf : files[k]? = some f) (hl : F k ≤ f.length) :
    ∃ f', files'[k]? = some f' ∧ ∀ i, i < F k → f'[i]? = f[i]? := by
  induction hk generalizing f with
  | kill => exact ⟨f, hf, fun _ _ => rfl⟩
  | part hi hc _ ih =>
    obtain ⟨f1, a1, a2, a3⟩ := cut_spares (mem_set_tail hi he).1 hc hf hl
    obtain ⟨f2, b1, b2⟩ := ih he a1 a2
    exact ⟨f2, b1, fun i h => (b2 i h).trans (a3 i h)⟩
  | next hi _ ih =>
    obtain ⟨h1, h2⟩ := mem_set_tail hi he
    obtain ⟨f1, a1, a2, a3⟩ := apply_spares h1 hf hl
    obtain ⟨f2, b1, b2⟩ := ih h2 a1 a2
    exact ⟨f2, b1, fun i h => (b2 i h).trans (a3 i h)⟩

theorem together_avoids {files files' : List Bytes} {ths : List (List Effect)} {k : Nat}
    (hk : KilledTogether files ths files') (he : ∀ th ∈ ths, ∀ e ∈ th, e.avoids k) {f : Bytes}
    (hf : files[k]? = some f) : files'[k]? = some f := by
  induction hk with
  | kill => exact hf
  | part hi hc _ ih => exact ih he (cut_avoids (mem_set_tail hi he).1 hc hf)
  | next hi _ ih =>
    obtain ⟨h1, h2⟩ := mem_set_tail hi he
    exact ih h2 (apply_avoids h1 hf)

theorem together_len {files files' : List Bytes} {ths : List (List Effect)} (hk : KilledTogether files ths files') :
    files.length ≤ files'.length := by
  induction hk with
  | kill => exact Nat.le_refl _
  | @part files files₁ files' ths i e es hi hc _ ih =>
    refine Nat.le_trans ?_ ih
    cases e with
    | store k off d => obtain ⟨j, rfl⟩ := hc; simp [Effect.apply]
    | setLen k n => rw [hc]; exact Nat.le_refl _
    | create => rw [hc]; exact Nat.le_refl _
  | @next files files' ths i e es hi _ ih =>
    refine Nat.le_trans ?_ ih
    cases e <;> simp [Effect.apply]

/-! ### The disk -/

theorem page_le (hz : SizesOk page slabSize) : page ≤ slabSize := by
  have h1 := hz.slab
  have h2 := hz.page_min
  have h3 : page ≤ align page 80 := by
    unfold align
    have : 0 < (80 + page - 1) / page := Nat.div_pos (by omega) (by omega)
    exact Nat.le_mul_of_pos_left _ this
  omega

theorem powered_run {durable : Bool} {ops : List ConcOp} {c : ConcSys} {disk : List Bytes}
    (h : PoweredThreads durable page slabSize ops c disk) : runConc slabSize page ops = .ok c := by
  induction h with
  | new h => unfold runConc; rw [h]; rfl
  | act _ h ih =>
    unfold runConc at ih ⊢
    split at ih
    · cases ih
    · rename_i lg hlg
      simp only [conc_steps_append ih, ConcSys.steps, h]
  | writeBack _ _ ih => exact ih

theorem threads_disk (hz : SizesOk page slabSize) {ops : List ConcOp} {c : ConcSys} {disk : List Bytes}
    (h : PoweredThreads true page slabSize ops c disk) (hin : Interleaved [] ops)
    (hops : HistoryOk page slabSize [] (calls ops)) : OnDisk ⟨c.sys.lg, []⟩ disk := by
  have hpz := page_le hz
  have hp := hz.page_min
  induction h with
  | @new lg h => exact powered_disk hp hpz (.new h)
  | @act ops c c' disk op hs h ih =>
    have hops1 : HistoryOk page slabSize [] (calls ops) := by
      rw [calls_append] at hops; exact historyOk_prefix hops
    replace ih := ih (interleaved_prefix hin) hops1
    obtain ⟨c2, x, lay, live, out, pend, objs, po, h1, hi, hT, _⟩ :=
      runConc_tracks (t := .lastEntry) hz (interleaved_prefix hin) hops1
    rw [powered_run hs] at h1
    cases h1
    have hop : ∀ u n, op = .openStream u n → SizeOk page slabSize n := by
      rintro u n rfl
      rw [calls_append] at hops
      exact historyOk_open hops
    have hlg := hT.tracks.lg
    obtain ⟨layx, hx⟩ := reach_inv hz hT.tracks.reach
    obtain ⟨sops, hse, hsok, _⟩ := conc_seq hz hi hT hop
    have heff := conc_effects_step hz hT (fun i st hst => (hi.str.stream i st hst).2.2.1) hop h
    have hspares := seq_spares hz hpz hT.tracks.reach hsok
    rw [← hse, hlg] at hspares
    refine ⟨by simp [diskAfter], fun k f' hf' => ?_⟩
    refine ⟨_, by simp only [diskAfter, List.getElem?_mapIdx, show c'.sys.lg.files[k]? = some f' from hf', Option.map_some]; rfl,
      by simp, fun i hik => ?_⟩
    rw [List.getElem?_mapIdx]
    cases hb : f'[i]? with
    | none => rfl
    | some b =>
      simp only [Option.map_some, Option.some.injEq]
      split
      · rfl
      · rename_i hn
        have hold : i < c.sys.lg.flushedOf k := by
          simp only [Bool.true_and, Bool.and_eq_true, decide_eq_true_eq, not_and, Nat.not_lt] at hn
          by_cases hle : c.sys.lg.flushedOf k ≤ i
          · exact absurd (hn hle) (by simp only at hik; omega)
          · omega
        have hk : k < c.sys.lg.files.length := by
          apply Classical.byContradiction
          intro hge
          have := flushedOf_new hi.str.inv (k := k) (by rw [← hi.str.inv.files_len]; omega)
          omega
        obtain ⟨d, hd, hdl, hds⟩ := ih.same k _ (List.getElem?_eq_getElem hk)
        have hfl : c.sys.lg.flushedOf k ≤ (c.sys.lg.files[k]).length := by
          have := flushedOf_le hp hpz hx (k := k) (file := c.sys.lg.files[k]) (by rw [hlg]; exact List.getElem?_eq_getElem hk)
          rwa [hlg] at this
        obtain ⟨f2, hf2, hst⟩ := foldl_spares hspares (List.getElem?_eq_getElem hk) hfl
        rw [heff, hf'] at hf2
        obtain rfl := Option.some.inj hf2
        rw [hd, Option.getD_some, hds i hold]
        rw [← hst i hold, hb]
        rfl
  | @writeBack ops c disk disk' hs hw ih =>
    replace ih := ih hin hops
    refine ⟨hw.len.trans ih.len, fun k f hf => ?_⟩
    obtain ⟨d, hd, hdl, hds⟩ := ih.same k f hf
    obtain ⟨d', hd', htl, ht⟩ := hw.torn k f d hf hd
    refine ⟨d', hd', htl.trans hdl, fun i hi => ?_⟩
    rcases ht i with h | h
    · rw [h]; exact hds i hi
    · exact h

/-- The power fails while threads perform actions. -/
theorem threads_kept (hz : SizesOk page slabSize) {c : ConcSys} {x : SecSys} {lay : List (List Sec)}
    {live : List (Option (EntryType × Nat))} {out pend : EntryType → Bytes} {busy : List Nat} {objs pendO : List Bytes}
    (hi : ConcInv page slabSize c lay live out pend busy) (hT : ConcTracks page slabSize t c x objs pendO)
    {disk disk' files' : List Bytes} (hd : OnDisk ⟨c.sys.lg, []⟩ disk) {op : ConcOp}
    (hop : ∀ u n, op = .openStream u n → SizeOk page slabSize n) {others : List (Nat × List Bytes)}
    (hk : KilledTogether c.sys.lg.files (c.effects op :: others.map (fun b => c.effects (.begin_ b.1 b.2))) files')
    (hl : PowerFailed files' disk disk') : Kept x disk' := by
  have hp := hz.page_min
  have hpz := page_le hz
  have hlg := hT.tracks.lg
  obtain ⟨layx, hx⟩ := reach_inv hz hT.tracks.reach
  have all : ∀ (Q : Effect → Prop), (∀ sops, (∀ o ∈ sops, SecOpOk page slabSize o) → ∀ e ∈ seqEffects x sops, Q e) →
      ∀ th ∈ c.effects op :: others.map (fun b => c.effects (.begin_ b.1 b.2)), ∀ e ∈ th, Q e := by
    intro Q hQ th hth e he
    rcases List.mem_cons.1 hth with rfl | hth
    · obtain ⟨sops, hse, hsok, _⟩ := conc_seq hz hi hT hop
      exact hQ sops hsok e (hse ▸ he)
    · obtain ⟨b, hb, rfl⟩ := List.mem_map.1 hth
      obtain ⟨sops, hse, hsok, _⟩ := conc_seq hz hi hT (op := .begin_ b.1 b.2) (by intro u n h; cases h)
      exact hQ sops hsok e (hse ▸ he)
  have hlen := together_len hk
  refine ⟨by rw [hl.len, hlg]; exact hlen, fun k f d' hf hd' => ?_⟩
  have hfl := flushedOf_le hp hpz hx hf
  rw [hlg] at hf
  obtain ⟨f', hf', hs⟩ := together_spares (F := x.lg.flushedOf) hk
    (all _ fun sops hsok => seq_spares hz hpz hT.tracks.reach hsok) hf hfl
  obtain ⟨hln, hb⟩ := hl.bytes k f' d' hf' hd'
  obtain ⟨d, hdd, hdl, hds⟩ := hd.same k f hf
  refine ⟨fun i hik => ?_, fun hun => ?_⟩
  · have hif : i < f.length := by omega
    have e1 : f[i]? = some f[i] := List.getElem?_eq_getElem hif
    rw [e1]
    refine hb i f[i] (by rw [hs i hik, e1]) ?_
    rw [hdd, Option.getD_some, hds i (by rw [← hlg]; exact hik), e1]
    rfl
  · rw [together_avoids hk (all _ fun sops hsok => seq_avoids hz hT.tracks.reach hsok
      (by rw [hlg]; exact (List.getElem?_eq_some_iff.1 hf).1) hun) hf] at hf'
    rw [hln, Option.some.inj hf']

/-! ### Open sections are those of streams -/

theorem inFlight_owner {lg : Logger} {lay : List (List Sec)} {own : Nat → Option Handle} (hi : Inv lg lay own)
    {sl : Slab} (hsl : sl ∈ lg.live) {o : Nat} (h : o ∈ sl.inFlight) :
    ∃ i h, own i = some h ∧ h.slab = sl.suffix ∧ h.off = o := by
  obtain ⟨file, secs, hf, hl⟩ := hi.slab_at hsl
  have hok := hi.live sl hsl file secs hf hl
  rw [hok.inFlight] at h
  obtain ⟨pre, x, post, i, rfl, hxo, rfl⟩ := openOffs_mem h
  have hm : x ∈ lay.flatten := List.mem_flatten.2 ⟨_, List.mem_of_getElem? hl, by simp⟩
  obtain ⟨h, hh⟩ := hi.own_conv x hm i hxo
  obtain ⟨pre', y, post', w⟩ := hi.owns i h hh
  have hslab := owner_slab hi.uniq hl w.at_ (x := x) (y := y) (by simp) (by simp) hxo w.owner
  have e : pre ++ x :: post = pre' ++ y :: post' := by
    have := w.at_; rw [← hslab, hl] at this; exact Option.some.inj this
  have hpp : pre = pre' := by
    have hu := hi.uniq
    rw [List.filterMap_flatten] at hu
    have hu1 := (List.pairwise_flatten.1 hu).1 _
      (List.mem_map.2 ⟨_, List.mem_of_getElem? hl, rfl⟩)
    rcases List.append_eq_append_iff.1 e with ⟨c, hc1, hc2⟩ | ⟨c, hc1, hc2⟩
    · cases c with
      | nil => simpa using hc1.symm
      | cons z c =>
        exfalso
        simp only [List.cons_append, List.cons.injEq] at hc2
        obtain ⟨rfl, rfl⟩ := hc2
        simp only [List.filterMap_append, List.filterMap_cons_some hxo,
          List.filterMap_cons_some w.owner] at hu1
        have := (List.pairwise_append.1 hu1).2.1
        rw [List.pairwise_cons] at this
        exact this.1 i (by simp) rfl
    · cases c with
      | nil => simpa using hc1
      | cons z c =>
        exfalso
        simp only [List.cons_append, List.cons.injEq] at hc2
        obtain ⟨rfl, rfl⟩ := hc2
        rw [hc1] at hu1
        simp only [List.append_assoc, List.cons_append, List.filterMap_append,
          List.filterMap_cons_some hxo, List.filterMap_cons_some w.owner] at hu1
        have := (List.pairwise_append.1 hu1).2.1
        rw [List.pairwise_cons] at this
        exact this.1 i (by simp) rfl
  exact ⟨i, h, hh, hslab.symm, by rw [w.off, ← hslab, hpp]⟩

theorem open_stream {s : LogSys} {x : SecSys} {lay layx : List (List Sec)} {live : List (Option (EntryType × Nat))}
    {out : EntryType → Bytes} (hi : StrInv page slabSize s lay live out) (hx : SecInv page slabSize x layx)
    (hlg : x.lg = s.lg) {e : Issued} (he : e ∈ x.issued) (ho : e.isOpen = true) :
    ∃ st, some st ∈ s.streams ∧ st.section_.slab = e.h.slab ∧ st.section_.off = e.h.off := by
  obtain ⟨i, hei⟩ := List.getElem?_of_mem he
  obtain ⟨sl, hsl, hsuf⟩ := hx.inv.owner_live (own_open hei ho)
  have hin := (inFlight_iff hx hsl e.h.off).2 ⟨e, he, ho, hsuf.symm, rfl⟩
  rw [hlg] at hsl
  obtain ⟨j, h, h1, h2, h3⟩ := inFlight_owner hi.inv hsl hin
  unfold LogSys.own at h1
  cases hs : s.streams[j]? with
  | none => simp [hs] at h1
  | some o =>
    cases o with
    | none => simp [hs] at h1
    | some st =>
      simp only [hs, Option.join_some, Option.map_some, Option.some.injEq] at h1
      subst h1
      exact ⟨st, List.mem_of_getElem? hs, by rw [h2, hsuf], h3⟩

/-! ### What was logged before -/

theorem pointwise_filter {α : Type} {R : α → α → Prop} {p : α → Bool} {a b : List α} (h : Pointwise R a b)
    (hp : ∀ u v, R u v → p u = p v) : Pointwise R (a.filter p) (b.filter p) := by
  induction h with
  | nil => exact .nil
  | @cons u v l r hr _ ih =>
    simp only [List.filter_cons, ← hp u v hr]
    split
    · exact .cons hr ih
    · exact ih

theorem pointwise_of_take {R : Issued → Issued → Prop} {a b : List Issued}
    (h : ∀ (j : Nat) e, a[j]? = some e → ∃ e', b[j]? = some e' ∧ R e e') : Pointwise R a (b.take a.length) := by
  induction a generalizing b with
  | nil => exact .nil
  | cons e a ih =>
    obtain ⟨e', h1, h2⟩ := h 0 e rfl
    cases b with
    | nil => cases h1
    | cons y b =>
      obtain rfl : y = e' := by simpa using h1
      exact .cons h2 (ih fun j e1 he1 => by simpa using h (j + 1) e1 (by simpa using he1))

/-- The relation between the sections of a moment and of a later one. -/
def Later (e e' : Issued) : Prop :=
  e'.h.header.entryType = e.h.header.entryType ∧ e.data <+: e'.data ∧ (e.isOpen = false → e' = e)

theorem later_eq {a b : List Issued} (h : Pointwise Later a b) (hc : ∀ e ∈ a, e.isOpen = false) : b = a := by
  induction h with
  | nil => rfl
  | cons hr _ ih => rw [hr.2.2 (hc _ (by simp)), ih fun e he => hc e (by simp [he])]

theorem upTo_full {l : List Bytes} (h : [] ∉ l) (d : Bytes) : (upTo (l ++ [d])).1.flatten = l.flatten ++ d := by
  induction l with
  | nil =>
    simp only [List.nil_append, upTo]
    split
    · rename_i hd; simp [hd]
    · simp
  | cons a l ih =>
    have ha : a ≠ [] := fun e => h (by simp [e])
    rw [List.cons_append, upTo, if_neg ha]
    simp [ih fun e => h (by simp [e])]

theorem before_later {c1 : LogSys} {x1 : SecSys} {objs : List Bytes} (hty : TypeInv t c1 x1 objs)
    (htidy : [] ∉ (dataOf t x1).dropLast) {l : List Issued} (hl : Pointwise Later x1.issued l) :
    objs.flatten <+: (upTo ((l.filter (isOf t)).map Issued.data)).1.flatten := by
  have hf := pointwise_filter (p := isOf t) hl (fun u v h => by simp [isOf, h.1])
  rcases hty with ⟨gs, k1, k2, k3, _⟩ | ⟨k, stk, P, dk, gs, g, _, _, hP0, hP, hgs, hdk, ho⟩
  · have he := later_eq hf k1
    rw [he, k3, ← flatten_objs k2]
    rw [dataOf] at htidy
    generalize (x1.issued.filter (isOf t)).map Issued.data = D at htidy ⊢
    rcases List.eq_nil_or_concat D with rfl | ⟨A, d, rfl⟩
    · exact List.prefix_refl _
    · rw [List.concat_eq_append] at htidy ⊢
      rw [List.dropLast_concat] at htidy
      rw [upTo_full htidy]
      simp
  · rw [hP0] at hf
    obtain ⟨b1, b2, hb, h1, h2⟩ := pointwise_split hf
    have he := later_eq h1 hP
    subst he
    rw [hb]
    cases h2 with
    | @cons _ e' _ _ hr hn =>
      cases hn
      rw [dataOf, hP0] at htidy
      rw [List.map_append, List.map_cons, List.map_nil, List.dropLast_concat] at htidy
      rw [List.map_append, List.map_cons, List.map_nil, upTo_full htidy, ho, List.flatten_append, ← flatten_objs hgs, ← hdk]
      exact List.prefix_append_right_inj _ |>.2 hr.2.1

theorem interleaved_suffix {a b : List ConcOp} : ∀ {busy : List Nat}, Interleaved busy (a ++ b) →
    Interleaved (busyAfter busy a) b := by
  induction a with
  | nil => intro _ h; exact h
  | cons o a ih =>
    intro busy h
    cases o with
    | openStream _ _ => exact ih h
    | begin_ i _ => exact ih h.2
    | finish i => exact ih h.2
    | drop i => exact ih h.2

theorem issued_slab {x : SecSys} {lay : List (List Sec)} (hi : SecInv page slabSize x lay) {n : Nat} {e : Issued}
    (hn : x.issued[n]? = some e) : e.h.slab < x.lg.files.length := by
  have hx : lay.flatten[n]? = some (secOf n e) := by rw [hi.flat, List.getElem?_mapIdx, hn]; rfl
  obtain ⟨K, pre, post, hK, hlen⟩ := split_flatten hx
  have hcell := cells_at (page := page) (k := 0) hK
  rw [← hlen, hi.cells, List.getElem?_map, hn] at hcell
  simp only [Option.map_some, Option.some.injEq, Prod.mk.injEq, Nat.zero_add] at hcell
  have hKl : K < lay.length := (List.getElem?_eq_some_iff.1 hK).1
  have := hi.inv.files_len
  omega

theorem conc_steps_split {a b : List ConcOp} {c c' c'' : ConcSys} (h1 : c.steps a = .ok c') (h2 : c'.steps b = .ok c'') :
    c.steps (a ++ b) = .ok c'' := by rw [conc_steps_append h1]; exact h2

theorem runConc_split {a b : List ConcOp} {c' c'' : ConcSys} (h1 : runConc slabSize page a = .ok c')
    (h2 : c'.steps b = .ok c'') : runConc slabSize page (a ++ b) = .ok c'' := by
  unfold runConc at h1 ⊢
  split at h1
  · cases h1
  · rename_i lg hlg
    exact conc_steps_split h1 h2

theorem drain_kept (hz : SizesOk page slabSize) (ht : t ≠ .lastEntry) (ht' : t ≠ .empty) {x : SecSys}
    (hr : Reachable page slabSize x) (htypes : ∀ e ∈ x.issued, e.h.header.entryType ≠ .lastEntry) {disk : List Bytes}
    (hk : Kept x disk) {n : Nat} (hclosed : ∀ e ∈ x.issued.take n, e.isOpen = false) (h0 : 0 < n) {e : Issued}
    (hn : x.issued[n - 1]? = some e) (hslab : e.h.slab ≤ x.lg.oldestMapped) {ns : List Nat} (hns : ∀ m ∈ ns, 0 < m) :
    let all := (upTo (((x.issued.take n).filter (isOf t)).map Issued.data)).1.flatten
    let r := drainLog disk t ns
    all <+: r.1 ∨ (r.1 <+: all ∧ r.2 = .more ∧ ns.length ≤ all.length) := by
  have hp := hz.page_min
  obtain ⟨m, rfl⟩ : ∃ m, n = m + 1 := ⟨n - 1, by omega⟩
  rw [Nat.add_sub_cancel] at hn
  obtain ⟨lay, hi⟩ := reach_inv hz hr
  obtain ⟨lay', hh, hflat⟩ := holds_disk hp hz.page_max hi hk hn hslab
    (prefix_flushed hp (by have := page_le hz; omega) hr hn hclosed)
  obtain ⟨r, hnew, hat⟩ := reader_new hh
  have hnl : ∀ y ∈ lay'.flatten, y.et ≠ .lastEntry := by
    rw [hflat]
    intro y hy
    obtain ⟨i, hi'⟩ := List.getElem?_of_mem hy
    rw [List.getElem?_mapIdx] at hi'
    obtain ⟨z, hz', rfl⟩ := Option.map_eq_some_iff.1 hi'
    exact htypes z (List.mem_of_mem_take (List.mem_of_getElem? hz'))
  have := drain_front hh ht (holds_fuel hh) (io := IOReader.new r) (ns := ns) hat (Nat.le_refl _) hnl hns
  have hdata : (lay'.flatten.filter (·.et == t)).map Sec.content =
      ((x.issued.take (m + 1)).filter (isOf t)).map Issued.data := by
    rw [hflat, visible_eq ht']
    refine List.map_congr_left (fun y hy => ?_)
    rw [Issued.visible, hclosed y (List.mem_filter.1 hy).1]; rfl
  simp only [drainLog, hnew]
  rw [hdata] at this
  simpa [IOReader.new] using this

/-- What a power failure leaves of what was logged before a moment after which every stream left its section. -/
theorem power_stream (hz : SizesOk page slabSize) (ht : t ≠ .lastEntry) (ht' : t ≠ .empty)
    {before after : List ConcOp} {op : ConcOp} (hin : Interleaved [] (before ++ after))
    (hops : HistoryOk page slabSize [] (calls (before ++ after ++ [op])))
    {c1 c : ConcSys} {disk disk' files' : List Bytes} (h1 : runConc slabSize page before = .ok c1)
    (hwait : ∀ (i : Nat) (st : Stream), c1.sys.streams[i]? = some (some st) → st.entryType = t → c1.waiting i = none)
    (hu : UsedFirst t false [] (calls before))
    (h : PoweredThreads true page slabSize (before ++ after) c disk)
    (hnew : Renewed c1.sys c.sys) (hold : c1.sys.lg.files.length ≤ c.sys.lg.oldestMapped + 1)
    {others : List (Nat × List Bytes)}
    (hk : KilledTogether c.sys.lg.files (c.effects op :: others.map (fun b => c.effects (.begin_ b.1 b.2))) files')
    (hl : PowerFailed files' disk disk') {ns : List Nat} (hns : ∀ n ∈ ns, 0 < n) :
    (objsOf t [] (calls before)).flatten <+: (drainLog disk' t ns).1 ∨ (drainLog disk' t ns).2 = .more := by
  have hops2 : HistoryOk page slabSize [] (calls (before ++ after)) := by
    rw [calls_append] at hops; exact historyOk_prefix hops
  have hops1 : HistoryOk page slabSize [] (calls before) := by
    rw [calls_append] at hops2; exact historyOk_prefix hops2
  obtain ⟨c1', x1, lay1, live1, out1, pend1, objs, po, g1, hi1, hT1, hobj, htidy, hmore⟩ :=
    runConc_tracks (t := t) hz (interleaved_prefix hin) hops1
  rw [h1] at g1
  cases g1
  obtain ⟨c', x, lay, live, out, pend, objs', po', g2, hi, hT, _, hgrow, _⟩ :=
    ctracks_steps hz hi1 hT1 (interleaved_suffix hin) (hmore _ (by rw [← calls_append]; exact hops2))
  have hc := powered_run h
  rw [runConc_split h1 g2] at hc
  cases hc
  have hpo : po = [] := hT1.idle fun i st hst hw e => hw (hwait i st hst e)
  rw [hpo, List.append_nil] at hobj
  have hop : ∀ u n, op = .openStream u n → SizeOk page slabSize n := by
    rintro u n rfl
    rw [calls_append] at hops
    exact historyOk_open hops
  have hkept := threads_kept hz hi hT (threads_disk hz h hin hops2) hop hk hl
  obtain ⟨layx, hx⟩ := reach_inv hz hT.tracks.reach
  obtain ⟨lay1x, hx1⟩ := reach_inv hz hT1.tracks.reach
  have hpw : Pointwise Later x1.issued (x.issued.take x1.issued.length) := by
    refine pointwise_of_take fun j e he => ?_
    obtain ⟨e', a1, _, _, a4, a5, a6⟩ := hgrow j e he
    exact ⟨e', a1, a4, a5, a6⟩
  have hpre := before_later hT1.tracks.ty (htidy hu) hpw
  rw [hobj] at hpre
  by_cases h0 : x1.issued.length = 0
  · rw [h0] at hpre
    simp only [List.take_zero, List.filter_nil, List.map_nil, upTo, List.flatten_nil, List.prefix_nil] at hpre
    rw [hpre]
    exact .inl List.nil_prefix
  have hclosed : ∀ e ∈ x.issued.take x1.issued.length, e.isOpen = false := by
    intro e he
    obtain ⟨j, hj⟩ := List.getElem?_of_mem he
    have hjl : j < x1.issued.length := by
      have := (List.getElem?_eq_some_iff.1 hj).1
      simp only [List.length_take] at this
      omega
    rw [List.getElem?_take_of_lt hjl] at hj
    obtain ⟨e', a1, a2, a3, _, _, a6⟩ := hgrow j _ (List.getElem?_eq_getElem hjl)
    rw [hj] at a1
    obtain rfl := Option.some.inj a1
    cases ho : e.isOpen with
    | false => rfl
    | true =>
      exfalso
      have ho1 : x1.issued[j].isOpen = true := by
        cases h : x1.issued[j].isOpen with
        | true => rfl
        | false =>
          have := a6 h
          rw [this, h] at ho
          cases ho
      obtain ⟨st, b1, b2, b3⟩ := open_stream hi1.str hx1 hT1.tracks.lg (List.getElem_mem hjl) ho1
      obtain ⟨st', d1, d2, d3⟩ := open_stream hi.str hx hT.tracks.lg (List.mem_of_getElem? hj) ho
      exact hnew st st' b1 d1 ⟨by rw [d2, b2, a2], by rw [d3, b3, a3]⟩
  obtain ⟨e, he, hsl, _⟩ := hgrow (x1.issued.length - 1) _ (List.getElem?_eq_getElem (by omega))
  have hslab : e.h.slab ≤ x.lg.oldestMapped := by
    have := issued_slab hx1 (List.getElem?_eq_getElem (l := x1.issued) (i := x1.issued.length - 1) (by omega))
    rw [hT1.tracks.lg] at this
    rw [hsl, hT.tracks.lg]
    omega
  rcases drain_kept hz ht ht' hT.tracks.reach hT.tracks.types hkept hclosed (by omega) he hslab hns with hd | ⟨_, hd, _⟩
  · exact .inl (hpre.trans hd)
  · exact .inr hd

theorem powerLost_failed {files disk disk' : List Bytes} (h : PowerLost files disk disk') : PowerFailed files disk disk' := by
  refine ⟨h.len, fun k f d' hf hd => ?_⟩
  obtain ⟨h1, h2⟩ := h.bytes k f d' hf hd
  refine ⟨h1, fun i b hb hdk => ?_⟩
  rcases h2 i (List.getElem?_eq_some_iff.1 hb).1 with h | h
  · rw [h, hb]
  · rw [h, hdk]

end ULog
end Verif
