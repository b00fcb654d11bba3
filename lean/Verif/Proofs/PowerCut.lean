import Verif.Model.PowerCut
import Verif.Props.UnifiedLog
import Verif.Proofs.CrashRead
/-! Helper lemmas about what is on the disk. -/
namespace Verif
namespace ULog
open Bincode

variable {lg : Logger} {lay : List (List Sec)} {own : Nat → Option Handle}

theorem flushedOf_live (hi : Inv lg lay own) {sl : Slab} (h : sl ∈ lg.live) :
    lg.flushedOf sl.suffix = sl.flushed := by
  unfold Logger.flushedOf
  have hm : sl ∈ lg.mapped := h
  cases hf : lg.mapped.find? (fun x => x.suffix == sl.suffix) with
  | none => exact absurd (List.find?_eq_none.1 hf sl hm) (by simp)
  | some x =>
    have h1 := List.find?_some hf
    have h2 := List.mem_of_find?_eq_some hf
    have := hi.live_inj (show x ∈ lg.live from h2) h (by simpa using h1)
    rw [this]

theorem flushedOf_unmapped {k : Nat} {f : Bytes} (h : ∀ sl ∈ lg.live, sl.suffix ≠ k)
    (hf : lg.files[k]? = some f) : lg.flushedOf k = f.length := by
  unfold Logger.flushedOf
  have : lg.mapped.find? (fun x => x.suffix == k) = none :=
    List.find?_eq_none.2 (fun x hx => by simpa using h x hx)
  rw [this, hf]
  rfl

theorem flushedOf_new (hi : Inv lg lay own) {k : Nat} (h : lay.length ≤ k) : lg.flushedOf k = 0 := by
  unfold Logger.flushedOf
  have : lg.mapped.find? (fun x => x.suffix == k) = none := List.find?_eq_none.2 (fun x hx => by
    have := hi.suffix_lt (show x ∈ lg.live from hx)
    simp; omega)
  rw [this, List.getElem?_eq_none (by rw [hi.files_len]; exact h)]
  rfl

/-- What is allocated is in the file. -/
theorem cgp_le {page slabSize : Nat} {s : SecSys} (hp : 13 < page) (hpz : page ≤ slabSize)
    (hi : SecInv page slabSize s lay) {sl : Slab} (h : sl ∈ s.lg.live) {file : Bytes}
    (hf : s.lg.files[sl.suffix]? = some file) : sl.cgp ≤ file.length := by
  obtain ⟨file', secs, hf', hl⟩ := hi.inv.slab_at h
  rw [hf] at hf'
  obtain rfl := Option.some.inj hf'
  have hok := hi.inv.live sl h file secs hf hl
  have h1 := hok.cgp
  rw [hi.pageEq] at h1
  have h2 := align_le (page := page) (by omega) sl.cgp
  have h3 := endOf_le hi hpz _ _ _ hf hl
  omega

theorem flushedOf_le {page slabSize : Nat} {s : SecSys} (hp : 13 < page) (hpz : page ≤ slabSize)
    (hi : SecInv page slabSize s lay) {k : Nat} {file : Bytes} (hf : s.lg.files[k]? = some file) :
    s.lg.flushedOf k ≤ file.length := by
  by_cases h : ∃ sl ∈ s.lg.live, sl.suffix = k
  · obtain ⟨sl, hsl, rfl⟩ := h
    rw [flushedOf_live hi.inv hsl]
    obtain ⟨file', secs, hf', hl⟩ := hi.inv.slab_at hsl
    have := (hi.inv.live sl hsl file' secs hf' hl).flushed_cgp
    have := cgp_le hp hpz hi hsl hf
    omega
  · rw [flushedOf_unmapped (fun sl hsl e => h ⟨sl, hsl, e⟩) hf]
    exact Nat.le_refl _

/-! ### Bytes asked to be written back do not change -/

/-- The effect leaves the first `F k` bytes of each slab alone. -/
def Effect.spares (F : Nat → Nat) : Effect → Prop
  | .store k off _ => F k ≤ off
  | .setLen k n => F k ≤ n
  | .create => True

theorem apply_spares {F : Nat → Nat} {e : Effect} (he : e.spares F) {files : List Bytes} {k : Nat} {f : Bytes}
    (hf : files[k]? = some f) (hl : F k ≤ f.length) :
    ∃ f', (e.apply files)[k]? = some f' ∧ F k ≤ f'.length ∧ ∀ i, i < F k → f'[i]? = f[i]? := by
  cases e with
  | store j off d =>
    simp only [Effect.apply, List.getElem?_modify, hf, Option.map_some]
    by_cases hj : j = k
    · subst hj
      have he : F j ≤ off := he
      refine ⟨writeAt f off d, by simp, ?_, fun i hi => ?_⟩
      · simp [writeAt]; omega
      · unfold writeAt
        rw [List.append_assoc, List.getElem?_append_left (by simp; omega), List.getElem?_take_of_lt (by omega)]
    · exact ⟨f, by simp [hj], hl, fun i _ => rfl⟩
  | setLen j n =>
    simp only [Effect.apply, List.getElem?_modify, hf, Option.map_some]
    by_cases hj : j = k
    · subst hj
      have he : F j ≤ n := he
      refine ⟨ULog.setLen f n, by simp, ?_, fun i hi => ?_⟩
      · simp [ULog.setLen]; omega
      · unfold ULog.setLen
        rw [List.getElem?_append_left (by simp; omega), List.getElem?_take_of_lt (by omega)]
    · exact ⟨f, by simp [hj], hl, fun i _ => rfl⟩
  | create =>
    refine ⟨f, ?_, hl, fun i _ => rfl⟩
    simp only [Effect.apply]
    rw [List.getElem?_append_left (List.getElem?_eq_some_iff.1 hf).1, hf]

theorem foldl_spares {F : Nat → Nat} {es : List Effect} (he : ∀ e ∈ es, e.spares F) {files : List Bytes} {k : Nat}
    {f : Bytes} (hf : files[k]? = some f) (hl : F k ≤ f.length) :
    ∃ f', (es.foldl Effect.apply files)[k]? = some f' ∧ ∀ i, i < F k → f'[i]? = f[i]? := by
  induction es generalizing files f with
  | nil => exact ⟨f, hf, fun i _ => rfl⟩
  | cons e es ih =>
    obtain ⟨f1, h1, h2, h3⟩ := apply_spares (he e (by simp)) hf hl
    obtain ⟨f2, h4, h5⟩ := ih (fun x hx => he x (List.mem_cons_of_mem _ hx)) h1 h2
    exact ⟨f2, h4, fun i hi => (h5 i hi).trans (h3 i hi)⟩

theorem torn_spares {F : Nat → Nat} {e : Effect} (he : e.spares F) {files files' : List Bytes} {k : Nat} {f : Bytes}
    (ht : e.Torn files files') (hf : files[k]? = some f) (hl : F k ≤ f.length) :
    ∃ f', files'[k]? = some f' ∧ ∀ i, i < F k → f'[i]? = f[i]? := by
  cases e with
  | store j off d =>
    obtain ⟨g, rfl, hg⟩ := ht
    rw [List.getElem?_modify, hf]
    by_cases hj : j = k
    · subst hj
      refine ⟨g, by simp, fun i hi => ?_⟩
      have he : F j ≤ off := he
      rcases (hg f hf).2 i with h | h
      · exact h
      · rw [h]
        unfold writeAt
        rw [List.append_assoc, List.getElem?_append_left (by simp; omega), List.getElem?_take_of_lt (by omega)]
    · exact ⟨f, by simp [hj], fun i _ => rfl⟩
  | setLen j n => exact ⟨f, by rw [show files' = files from ht]; exact hf, fun i _ => rfl⟩
  | create => exact ⟨f, by rw [show files' = files from ht]; exact hf, fun i _ => rfl⟩

theorem crash_spares {F : Nat → Nat} {es : List Effect} {files files' : List Bytes} (hc : CrashDuring files es files')
    (he : ∀ e ∈ es, e.spares F) {k : Nat} {f : Bytes} (hf : files[k]? = some f) (hl : F k ≤ f.length) :
    ∃ f', files'[k]? = some f' ∧ ∀ i, i < F k → f'[i]? = f[i]? := by
  induction hc generalizing f with
  | done => exact ⟨f, hf, fun i _ => rfl⟩
  | torn h => exact torn_spares (he _ (by simp)) h hf hl
  | @next files files' e es h ih =>
    obtain ⟨f1, h1, h2, h3⟩ := apply_spares (he e (by simp)) hf hl
    obtain ⟨f2, h4, h5⟩ := ih (fun x hx => he x (List.mem_cons_of_mem _ hx)) h1 h2
    exact ⟨f2, h4, fun i hi => (h5 i hi).trans (h3 i hi)⟩

/-- The effect is on another slab. -/
def Effect.avoids (k : Nat) : Effect → Prop
  | .store j _ _ => j ≠ k
  | .setLen j _ => j ≠ k
  | .create => True

theorem crash_avoids {es : List Effect} {files files' : List Bytes} (hc : CrashDuring files es files') {k : Nat}
    (he : ∀ e ∈ es, e.avoids k) {f : Bytes} (hf : files[k]? = some f) : files'[k]? = some f := by
  induction hc with
  | done => exact hf
  | @torn files files' e es h =>
    have ha := he e (by simp)
    cases e with
    | store j off d =>
      obtain ⟨g, rfl, hg⟩ := h
      rw [List.getElem?_modify, hf]; exact congrArg some (if_neg ha)
    | setLen j n => rw [show files' = files from h]; exact hf
    | create => rw [show files' = files from h]; exact hf
  | @next files files' e es h ih =>
    refine ih (fun x hx => he x (List.mem_cons_of_mem _ hx)) ?_
    have ha := he e (by simp)
    cases e with
    | store j off d => simp only [Effect.apply]; rw [List.getElem?_modify, hf]; exact congrArg some (if_neg ha)
    | setLen j n => simp only [Effect.apply]; rw [List.getElem?_modify, hf]; exact congrArg some (if_neg ha)
    | create =>
      simp only [Effect.apply]
      rw [List.getElem?_append_left (List.getElem?_eq_some_iff.1 hf).1, hf]

theorem open_flushed {page slabSize : Nat} {s : SecSys} (hi : SecInv page slabSize s lay) {a : Issued}
    (ha : a ∈ s.issued) (ho : a.isOpen = true) : s.lg.flushedOf a.h.slab ≤ a.h.off := by
  obtain ⟨i, hai⟩ := List.getElem?_of_mem ha
  obtain ⟨sl, hsl, hsuf⟩ := hi.inv.owner_live (own_open hai ho)
  rw [← hsuf, flushedOf_live hi.inv hsl]
  obtain ⟨file, secs, hf, hl⟩ := hi.inv.slab_at hsl
  exact (hi.inv.live sl hsl file secs hf hl).flushed_open _
    ((inFlight_iff hi hsl a.h.off).2 ⟨a, ha, ho, hsuf.symm, rfl⟩)

theorem op_spares {page slabSize : Nat} {s : SecSys} (hi : SecInv page slabSize s lay) (op : SecOp) :
    ∀ e ∈ opEffects s op, e.spares s.lg.flushedOf := by
  have flushed : ∀ sl ∈ s.lg.live, s.lg.flushedOf sl.suffix ≤ sl.cgp := by
    intro sl hsl
    rw [flushedOf_live hi.inv hsl]
    obtain ⟨file, secs, hf, hl⟩ := hi.inv.slab_at hsl
    exact (hi.inv.live sl hsl file secs hf hl).flushed_cgp
  cases op with
  | add t req =>
    intro e he
    rcases List.mem_append.1 (show e ∈ gcEffects s.lg ++ headerEffects s.lg t req from he) with he | he
    · obtain ⟨sl, hsl, rfl⟩ := List.mem_map.1 he
      exact flushed sl (List.mem_append_left _ (List.mem_filter.1 hsl).1)
    · unfold headerEffects at he
      simp only at he
      have hz : s.lg.flushedOf (s.lg.front.suffix + 1) = 0 :=
        flushedOf_new hi.inv (Nat.le_of_eq hi.inv.front_suffix.symm)
      split at he
      · simp only [List.mem_cons, List.not_mem_nil, or_false] at he
        rcases he with rfl | rfl | rfl
        · trivial
        · show s.lg.flushedOf (s.lg.front.suffix + 1) ≤ _
          omega
        · show s.lg.flushedOf (s.lg.front.suffix + 1) ≤ _
          omega
      · simp only [List.mem_cons, List.not_mem_nil, or_false] at he
        subst he
        show s.lg.flushedOf s.lg.front.suffix ≤ _
        have h1 := flushed s.lg.front (by simp [Logger.live])
        have h2 := align_le hi.inv.page_pos s.lg.front.cgp
        omega
  | write i obj =>
    intro e he
    simp only [opEffects] at he
    split at he
    · rename_i h d hx
      simp only [List.mem_cons, List.not_mem_nil, or_false] at he
      subst he
      have := open_flushed hi (List.mem_of_getElem? hx) rfl
      show s.lg.flushedOf h.slab ≤ _
      simp only at this
      omega
    · simp at he
  | close i =>
    intro e he
    simp only [opEffects] at he
    split at he
    · rename_i h d hx
      simp only [List.mem_cons, List.not_mem_nil, or_false] at he
      subst he
      exact open_flushed hi (List.mem_of_getElem? hx) rfl
    · simp at he

/-- Operations are on mapped slabs and new ones. -/
theorem op_avoids {page slabSize : Nat} {s : SecSys} (hi : SecInv page slabSize s lay) (op : SecOp) {k : Nat}
    (hk : k < s.lg.files.length) (hun : ∀ sl ∈ s.lg.live, sl.suffix ≠ k) : ∀ e ∈ opEffects s op, e.avoids k := by
  have hfront : s.lg.front ∈ s.lg.live := by simp [Logger.live]
  have hnew : s.lg.front.suffix + 1 ≠ k := by
    have := hi.inv.front_suffix
    have := hi.inv.files_len
    omega
  have hopen : ∀ a ∈ s.issued, a.isOpen = true → a.h.slab ≠ k := by
    intro a ha ho
    obtain ⟨i, hai⟩ := List.getElem?_of_mem ha
    obtain ⟨sl, hsl, hsuf⟩ := hi.inv.owner_live (own_open hai ho)
    have := hun sl hsl
    omega
  cases op with
  | add t req =>
    intro e he
    rcases List.mem_append.1 (show e ∈ gcEffects s.lg ++ headerEffects s.lg t req from he) with he | he
    · obtain ⟨sl, hsl, rfl⟩ := List.mem_map.1 he
      exact hun sl (List.mem_append_left _ (List.mem_filter.1 hsl).1)
    · unfold headerEffects at he
      simp only at he
      split at he
      · simp only [List.mem_cons, List.not_mem_nil, or_false] at he
        rcases he with rfl | rfl | rfl
        · trivial
        · exact hnew
        · exact hnew
      · simp only [List.mem_cons, List.not_mem_nil, or_false] at he
        subst he
        exact hun _ hfront
  | write i obj =>
    intro e he
    simp only [opEffects] at he
    split at he
    · rename_i h d hx
      simp only [List.mem_cons, List.not_mem_nil, or_false] at he
      subst he
      exact hopen _ (List.mem_of_getElem? hx) rfl
    · simp at he
  | close i =>
    intro e he
    simp only [opEffects] at he
    split at he
    · rename_i h d hx
      simp only [List.mem_cons, List.not_mem_nil, or_false] at he
      subst he
      exact hopen _ (List.mem_of_getElem? hx) rfl
    · simp at he

/-- Bytes asked to be written back stay as they are. -/
theorem step_stable {page slabSize : Nat} {s s' : SecSys} (hp : 13 < page) (hpz : page ≤ slabSize)
    (hi : SecInv page slabSize s lay) {op : SecOp} (hop : SecOpOk page slabSize op)
    (h : s.step op = .ok s') {k : Nat} {f : Bytes} (hf : s.lg.files[k]? = some f) :
    ∃ f', s'.lg.files[k]? = some f' ∧ ∀ i, i < s.lg.flushedOf k → f'[i]? = f[i]? := by
  have he := step_effects hi hop h
  rw [← he]
  exact foldl_spares (op_spares hi op) hf (flushedOf_le hp hpz hi hf)

/-- What is certainly on the disk. -/
structure OnDisk (s : SecSys) (disk : List Bytes) : Prop where
  len : disk.length = s.lg.files.length
  same : ∀ (k : Nat) f, s.lg.files[k]? = some f → ∃ d, disk[k]? = some d ∧ d.length = f.length ∧
    ∀ i, i < s.lg.flushedOf k → d[i]? = f[i]?

theorem powered_reachable {durable : Bool} {page slabSize : Nat} {s : SecSys} {disk : List Bytes}
    (h : Powered durable page slabSize s disk) : Reachable page slabSize s := by
  induction h with
  | new h => exact .new h
  | step _ hop h ih => exact .step ih hop h
  | writeBack _ _ ih => exact ih

theorem powered_disk {page slabSize : Nat} (hp : 13 < page) (hpz : page ≤ slabSize) {s : SecSys} {disk : List Bytes}
    (h : Powered true page slabSize s disk) : OnDisk s disk := by
  induction h with
  | @new lg h =>
    unfold Logger.new at h
    simp only at h
    split at h
    · cases h
    split at h
    · cases h
    · rename_i hlt _
      obtain rfl := Rs.ok.inj h
      refine ⟨rfl, fun k f hf => ?_⟩
      cases k with
      | zero =>
        simp only [List.getElem?_cons_zero, Option.some.injEq] at hf
        refine ⟨_, rfl, ?_, fun i hi => absurd hi ?_⟩
        · rw [← hf, length_writeAt (by simp [newSlab] at hlt ⊢; omega)]
          simp [newSlab]
        · simp [Logger.flushedOf, Logger.mapped, newSlab]
      | succ k => simp at hf
  | @step s s' disk op hs hop h ih =>
    obtain ⟨lay, hi⟩ := reachable_inv hp (by omega) (powered_reachable hs)
    refine ⟨by simp [diskAfter], fun k f' hf' => ?_⟩
    refine ⟨_, by simp only [diskAfter, List.getElem?_mapIdx, hf', Option.map_some]; rfl, by simp, fun i hik => ?_⟩
    rw [List.getElem?_mapIdx]
    cases hb : f'[i]? with
    | none => rfl
    | some b =>
      simp only [Option.map_some, Option.some.injEq]
      split
      · rfl
      · rename_i hn
        have hold : i < s.lg.flushedOf k := by
          simp only [Bool.true_and, Bool.and_eq_true, decide_eq_true_eq, not_and, Nat.not_lt] at hn
          by_cases hle : s.lg.flushedOf k ≤ i
          · exact absurd (hn hle) (by omega)
          · omega
        have hk : k < s.lg.files.length := by
          apply Classical.byContradiction
          intro hge
          have := flushedOf_new hi.inv (k := k) (by rw [← hi.inv.files_len]; omega)
          omega
        obtain ⟨d, hd, hdl, hds⟩ := ih.same k _ (List.getElem?_eq_getElem hk)
        obtain ⟨f2, hf2, hst⟩ := step_stable hp hpz hi hop h (List.getElem?_eq_getElem hk)
        rw [hf'] at hf2
        obtain rfl := Option.some.inj hf2
        rw [hd, Option.getD_some, hds i hold, ← hst i hold, hb]
        rfl
  | @writeBack s disk disk' hs hw ih =>
    refine ⟨hw.len.trans ih.len, fun k f hf => ?_⟩
    obtain ⟨d, hd, hdl, hds⟩ := ih.same k f hf
    obtain ⟨d', hd', htl, ht⟩ := hw.torn k f d hf hd
    refine ⟨d', hd', htl.trans hdl, fun i hi => ?_⟩
    rcases ht i with h | h
    · rw [h]; exact hds i hi
    · exact h

/-- What is on the disk for a reader: the bytes asked to be written back, and the slabs that are not mapped. -/
structure Kept (s : SecSys) (disk : List Bytes) : Prop where
  len : s.lg.files.length ≤ disk.length
  same : ∀ (k : Nat) f d, s.lg.files[k]? = some f → disk[k]? = some d →
    (∀ i, i < s.lg.flushedOf k → d[i]? = f[i]?) ∧ ((∀ sl ∈ s.lg.live, sl.suffix ≠ k) → d.length = f.length)

theorem crash_len {es : List Effect} {files files' : List Bytes} (hc : CrashDuring files es files') :
    files.length ≤ files'.length := by
  induction hc with
  | done => exact Nat.le_refl _
  | @torn files files' e es h =>
    cases e with
    | store j off d => obtain ⟨g, rfl, _⟩ := h; simp
    | setLen j n => rw [show files' = files from h]; exact Nat.le_refl _
    | create => rw [show files' = files from h]; exact Nat.le_refl _
  | @next files files' e es h ih =>
    cases e <;> simp [Effect.apply] at ih <;> omega

/-- The power fails in the middle of an operation. -/
theorem lost_kept {page slabSize : Nat} {s : SecSys} (hp : 13 < page) (hpz : page ≤ slabSize)
    (hi : SecInv page slabSize s lay) {disk disk' files' : List Bytes} (hd : OnDisk s disk) (op : SecOp)
    (hc : CrashDuring s.lg.files (opEffects s op) files') (hl : PowerLost files' disk disk') : Kept s disk' := by
  have hlen := crash_len hc
  refine ⟨by rw [hl.len]; exact hlen, fun k f d' hf hd' => ?_⟩
  obtain ⟨f', hf', hs⟩ := crash_spares hc (op_spares hi op) hf (flushedOf_le hp hpz hi hf)
  obtain ⟨hln, hb⟩ := hl.bytes k f' d' hf' hd'
  obtain ⟨d, hdd, hdl, hds⟩ := hd.same k f hf
  have hfl := flushedOf_le hp hpz hi hf
  refine ⟨fun i hik => ?_, fun hun => ?_⟩
  · have hif : i < f'.length := by
      have := hs i hik
      rw [List.getElem?_eq_getElem (show i < f.length by omega)] at this
      exact (List.getElem?_eq_some_iff.1 this).1
    rcases hb i hif with h | h
    · rw [h, hs i hik]
    · rw [h, hdd, Option.getD_some, hds i hik, List.getElem?_eq_getElem (show i < f.length by omega)]
      rfl
  · rw [crash_avoids hc (op_avoids hi op (List.getElem?_eq_some_iff.1 hf).1 hun) hf] at hf'
    rw [hln, Option.some.inj hf']

/-! ### What has been asked to be written back -/

/-- Every closed section of a mapped slab is written back, unless an open one is before it. -/
def Behind (s : SecSys) : Prop :=
  ∀ sl ∈ s.lg.mapped, ∀ a ∈ s.issued, a.h.slab = sl.suffix → a.isOpen = false →
    a.h.off + a.h.req ≤ sl.flushed ∨ ∃ b ∈ s.issued, b.isOpen = true ∧ b.h.slab = sl.suffix ∧ b.h.off < a.h.off

theorem behind_keep {page slabSize : Nat} {s s' : SecSys} (hp : 13 < page) (hs : 10 ≤ slabSize)
    (hr : Reachable page slabSize s) (hb : Behind s) {op : SecOp} (hop : SecOpOk page slabSize op)
    (h : s.step op = .ok s')
    (hissued : ∀ a ∈ s'.issued, a.isOpen = false → ∃ a' ∈ s.issued, a'.isOpen = false ∧ a'.h.slab = a.h.slab ∧
      a'.h.off = a.h.off ∧ a'.h.req = a.h.req)
    (hopen : ∀ b ∈ s.issued, b.isOpen = true → ∃ b' ∈ s'.issued, b'.isOpen = true ∧ b'.h.slab = b.h.slab ∧
      b'.h.off = b.h.off) : Behind s' := by
  obtain ⟨lay, hi⟩ := reachable_inv hp hs hr
  obtain ⟨s2, lay', h1, hi', h2, h3⟩ := step_inv hp hi hop
  rw [h] at h1
  obtain rfl := Rs.ok.inj h1
  intro sl' hsl' a ha hslab hclosed
  obtain ⟨a', ha', hc', e1, e2, e3⟩ := hissued a ha hclosed
  rcases h2 sl' hsl' with ⟨sl, hsl, hsuf, hle⟩ | hnew
  · rcases hb sl hsl a' ha' (by omega) hc' with hx | ⟨b, hbm, hbo, hbs, hlt⟩
    · left; omega
    · right
      obtain ⟨b', hb', hbo', e4, e5⟩ := hopen b hbm hbo
      exact ⟨b', hb', hbo', by omega, by omega⟩
  · have := (issued_first hi ha').1
    have := hi.inv.front_suffix
    omega

theorem encodeInto_place {files files' : List Bytes} {h h' : Handle} {obj : List Bytes} {ok : Bool}
    (he : encodeInto files h obj = .ok (files', h', ok)) :
    h'.slab = h.slab ∧ h'.off = h.off ∧ h'.req = h.req := by
  unfold encodeInto at he
  split at he
  · cases he
  · simp only at he
    split at he <;> cases he <;> exact ⟨rfl, rfl, rfl⟩

theorem reachable_behind {page slabSize : Nat} (hp : 13 < page) (hs : 10 ≤ slabSize) {s : SecSys}
    (h : Reachable page slabSize s) : Behind s := by
  induction h with
  | new h => intro sl _ a ha; simp at ha
  | @step s s' op hr hop hstep ih =>
    cases op with
    | add t req =>
      refine behind_keep hp hs hr ih hop hstep ?_ ?_
      · unfold SecSys.step at hstep
        simp only at hstep
        split at hstep
        · cases hstep
        · cases hstep
          intro a ha hc
          rcases List.mem_append.1 ha with ha | ha
          · exact ⟨a, ha, hc, rfl, rfl, rfl⟩
          · simp only [List.mem_singleton] at ha
            subst ha
            exact absurd hc (by simp)
      · unfold SecSys.step at hstep
        simp only at hstep
        split at hstep
        · cases hstep
        · cases hstep
          intro b hb ho
          exact ⟨b, List.mem_append_left _ hb, ho, rfl, rfl⟩
    | write i obj =>
      refine behind_keep hp hs hr ih hop hstep ?_ ?_ <;>
      · unfold SecSys.step at hstep
        simp only at hstep
        split at hstep
        · rename_i hd data he
          split at hstep
          · cases hstep
          · rename_i files2 h2 ok heq
            have hh := encodeInto_place heq
            cases hstep
            first
            | intro a ha hc
              rcases List.mem_or_eq_of_mem_set ha with ha | rfl
              · exact ⟨a, ha, hc, rfl, rfl, rfl⟩
              · exact absurd hc (by simp)
            | intro b hb ho
              obtain ⟨j, hj⟩ := List.getElem?_of_mem hb
              by_cases hij : i = j
              · subst hij
                rw [he] at hj
                obtain rfl := Option.some.inj hj
                refine ⟨_, List.mem_of_getElem? (i := i) (List.getElem?_set_self (List.getElem?_eq_some_iff.1 he).1), rfl, hh.1, hh.2.1⟩
              · exact ⟨b, List.mem_of_getElem? (i := j) (by rw [List.getElem?_set_ne hij]; exact hj), ho, rfl, rfl⟩
        · cases hstep
          first
          | exact fun a ha hc => ⟨a, ha, hc, rfl, rfl, rfl⟩
          | exact fun b hb ho => ⟨b, hb, ho, rfl, rfl⟩
    | close i =>
      cases he : s.issued[i]? with
      | none =>
        have : s' = s := by
          unfold SecSys.step at hstep
          simp only [he] at hstep
          exact (Rs.ok.inj hstep).symm
        rw [this]; exact ih
      | some e =>
        cases ho : e.isOpen with
        | false =>
          have : s' = s := by
            obtain ⟨eh, eo, ed⟩ := e
            simp only at ho
            subst ho
            unfold SecSys.step at hstep
            simp only [he] at hstep
            exact (Rs.ok.inj hstep).symm
          rw [this]; exact ih
        | true =>
          have hissued : s'.issued = s.issued.set i { e with isOpen := false } := by
            obtain ⟨eh, eo, ed⟩ := e
            simp only at ho
            subst ho
            unfold SecSys.step at hstep
            simp only [he] at hstep
            split at hstep
            · cases hstep
            · cases hstep; rfl
          have hr' : Reachable page slabSize s' := .step hr hop hstep
          obtain ⟨lay', hi'⟩ := reachable_inv hp hs hr'
          obtain ⟨s2, hs2, hmono, hcl⟩ := (C03_flushed_prefix hp hs hr).2 _ hop
          rw [hstep] at hs2
          obtain rfl := Rs.ok.inj hs2
          obtain ⟨slc, hslc, hsuf, hno, hyes⟩ := hcl i e rfl he ho
          obtain ⟨hdisj, hbound⟩ := C02_sections_disjoint hp hs hr'
          obtain ⟨halloc, -⟩ := C03_flushed_prefix hp hs hr'
          intro sl' hsl' a ha hslab hclosed
          by_cases hk : sl'.suffix = e.h.slab
          · -- the slab of the closed section
            have : sl' = slc := hi'.inv.live_inj (show sl' ∈ s'.lg.live from hsl') hslc (by omega)
            subst this
            by_cases hopen : s'.hasOpen e.h.slab
            · obtain ⟨b, hb, hbo, hbs, hfl, hmin⟩ := hyes hopen
              by_cases hlt : b.h.off < a.h.off
              · exact .inr ⟨b, hb, hbo, by omega, hlt⟩
              · left
                obtain ⟨x, hx⟩ := List.getElem?_of_mem ha
                obtain ⟨y, hy⟩ := List.getElem?_of_mem hb
                have hxy : x ≠ y := by
                  rintro rfl
                  rw [hx] at hy
                  obtain rfl := Option.some.inj hy
                  rw [hclosed] at hbo; cases hbo
                have hba := (hbound a ha).2.1
                have hbb := (hbound b hb).2.1
                have hb2 := (hbound b hb).2.2.1
                have hmx : maxHeader = 15 := rfl
                rcases hdisj x y a b hx hy hxy (by omega) with hd | hd <;> omega
            · left
              rw [hno hopen]
              exact ((halloc sl' hsl').2 a ha hslab).1
          · -- another slab
            obtain ⟨x, hx⟩ := List.getElem?_of_mem ha
            rw [hissued] at hx
            have hxi : i ≠ x := by
              rintro rfl
              rw [List.getElem?_set_self (List.getElem?_eq_some_iff.1 he).1] at hx
              obtain rfl := Option.some.inj hx
              exact hk hslab.symm
            rw [List.getElem?_set_ne hxi] at hx
            obtain ⟨lay, hi⟩ := reachable_inv hp hs hr
            obtain ⟨s2, lay2, h1, hi2, h2, -⟩ := step_inv hp hi hop
            rw [hstep] at h1
            obtain rfl := Rs.ok.inj h1
            rcases h2 sl' hsl' with ⟨sl, hsl, hss, hle⟩ | hnew
            · rcases ih sl hsl a (List.mem_of_getElem? hx) (by omega) hclosed with h | ⟨b, hb, hbo, hbs, hlt⟩
              · left; omega
              · right
                obtain ⟨y, hy⟩ := List.getElem?_of_mem hb
                have hyi : i ≠ y := by
                  rintro rfl
                  rw [he] at hy
                  obtain rfl := Option.some.inj hy
                  omega
                refine ⟨b, ?_, hbo, by omega, hlt⟩
                rw [hissued]
                exact List.mem_of_getElem? (i := y) (by rw [List.getElem?_set_ne hyi]; exact hy)
            · have := (issued_first hi (List.mem_of_getElem? hx)).1
              have := hi.inv.front_suffix
              omega

/-- The sections up to one with no open one among them have been asked to be written back. -/
theorem prefix_flushed {page slabSize : Nat} (hp : 13 < page) (hs : 10 ≤ slabSize) {s : SecSys}
    (h : Reachable page slabSize s) {n : Nat} {e : Issued} (hn : s.issued[n]? = some e)
    (hclosed : ∀ x ∈ s.issued.take (n + 1), x.isOpen = false) : e.h.off + e.h.req ≤ s.lg.flushedOf e.h.slab := by
  obtain ⟨lay, hi⟩ := reachable_inv hp hs h
  have hem := List.mem_of_getElem? hn
  by_cases hlive : ∃ sl ∈ s.lg.live, sl.suffix = e.h.slab
  · obtain ⟨sl, hsl, hsuf⟩ := hlive
    rw [← hsuf, flushedOf_live hi.inv hsl]
    have hec : e.isOpen = false := hclosed e (List.mem_of_getElem? (i := n) (by
      rw [List.getElem?_take_of_lt (by omega)]; exact hn))
    rcases reachable_behind hp hs h sl hsl e hem hsuf.symm hec with h1 | ⟨b, hb, hbo, hbs, hlt⟩
    · exact h1
    · exfalso
      obtain ⟨y, hy⟩ := List.getElem?_of_mem hb
      have hny : n < y := by
        apply Classical.byContradiction
        intro hge
        have := hclosed b (List.mem_of_getElem? (i := y) (by
          rw [List.getElem?_take_of_lt (by omega)]; exact hy))
        rw [hbo] at this; cases this
      have h1 := (issued_disjoint hi hn hy hny).2 (by omega)
      have h2 := ((C02_sections_disjoint hp hs h).2 e hem).2.1
      omega
  · have hm : (e.h.slab, e.h.off, e.h.req) ∈ cells page 0 (shape lay) := by
      rw [hi.cells]; exact List.mem_map.2 ⟨e, hem, rfl⟩
    obtain ⟨pre, x, post, h1, h2, h3⟩ := mem_cells_lay hm
    simp only [Nat.sub_zero] at h1 h2 h3
    obtain ⟨f, hf⟩ := hi.inv.lookup h1
    rw [flushedOf_unmapped (fun sl hsl e' => hlive ⟨sl, hsl, e'⟩) hf]
    have hok := hi.inv.secs _ _ _ hf h1
    rw [hi.pageEq] at hok
    have := ((secsOk_append _ _ _ _ _).1 hok).2.1.inside
    rw [h2, h3]; exact this

/-! ### Reading the disk -/

theorem secOk_agree {page off : Nat} {f d : Bytes} {x : Sec} (h : SecOk page f off x) 
    (hd : ∀ i, i < off + x.req → d[i]? = f[i]?) : SecOk page d off x := by
  have h1 := enc_header_le (x.header page)
  have h2 := h.req
  have h3 := h.room
  have hin : off + x.req ≤ d.length := by
    have h4 := h.inside
    apply Classical.byContradiction
    intro hlt
    have h5 := hd d.length (by omega)
    rw [List.getElem?_eq_none (Nat.le_refl _), List.getElem?_eq_getElem (show d.length < f.length by omega)] at h5
    cases h5
  refine ⟨h.req, h.size, hin, h.room, ?_, ?_, fun ho => ?_⟩
  · rw [slice_congr (f := f) (fun i _ hi => hd i (by omega))]; exact h.header
  · rw [slice_congr (f := f) (fun i _ hi => hd i (by omega))]; exact h.data
  · rw [slice_congr (f := f) (fun i _ hi => hd i (by omega))]; exact h.gap ho

theorem secsOk_agree {page off : Nat} {f d : Bytes} {l : List Sec} (hp : 0 < page) (h : SecsOk page f off l)
    (hd : ∀ i, i < endOf page off l → d[i]? = f[i]?) : SecsOk page d off l := by
  induction l generalizing off with
  | nil => trivial
  | cons x l ih =>
    have h1 : off + align page x.req ≤ endOf page (off + align page x.req) l := le_endOf _ _ _
    have h2 := align_le hp x.req
    exact ⟨secOk_agree h.1 (fun i hi => hd i (by simp only [endOf]; omega)), ih h.2 (fun i hi => hd i hi)⟩

theorem split_flatten {lay : List (List Sec)} {n : Nat} {x : Sec} (h : lay.flatten[n]? = some x) :
    ∃ K pre post, lay[K]? = some (pre ++ x :: post) ∧ n = (lay.take K).flatten.length + pre.length := by
  induction lay generalizing n with
  | nil => simp at h
  | cons a lay ih =>
    rw [List.flatten_cons, List.getElem?_append] at h
    split at h
    · rename_i hlt
      obtain ⟨h1, h2⟩ := List.getElem?_eq_some_iff.1 h
      refine ⟨0, a.take n, a.drop (n + 1), ?_, by simp; omega⟩
      rw [← h2, List.getElem_cons_drop, List.take_append_drop]
      rfl
    · rename_i hge
      obtain ⟨K, pre, post, h1, h2⟩ := ih h
      refine ⟨K + 1, pre, post, by simpa using h1, ?_⟩
      simp only [List.take_succ_cons, List.flatten_cons, List.length_append]
      omega

theorem cells_at {page k K : Nat} {lay : List (List Sec)} {pre post : List Sec} {x : Sec}
    (h : lay[K]? = some (pre ++ x :: post)) :
    (cells page k (shape lay))[(lay.take K).flatten.length + pre.length]? =
      some (k + K, endOf page (startOf page (k + K)) pre, x.req) := by
  induction lay generalizing k K with
  | nil => simp at h
  | cons a lay ih =>
    show (cellsFrom page k (startOf page k) (a.map Sec.req) ++ cells page (k + 1) (shape lay))[_]? = _
    cases K with
    | zero =>
      simp only [List.getElem?_cons_zero, Option.some.injEq] at h
      subst h
      simp only [List.take_zero, List.flatten_nil, List.length_nil, Nat.zero_add, Nat.add_zero]
      rw [List.getElem?_append_left (by rw [cellsFrom_length]; simp)]
      clear ih
      generalize startOf page k = off
      induction pre generalizing off with
      | nil => simp [cellsFrom, endOf]
      | cons y pre ih2 =>
        simp only [List.cons_append, List.map_cons, cellsFrom, List.length_cons, List.getElem?_cons_succ, endOf]
        exact ih2 _
    | succ K =>
      simp only [List.getElem?_cons_succ] at h
      have := ih (k := k + 1) h
      rw [List.getElem?_append_right (by
        rw [cellsFrom_length]; simp only [List.take_succ_cons, List.flatten_cons, List.length_append, List.length_map]; omega)]
      rw [cellsFrom_length]
      simp only [List.take_succ_cons, List.flatten_cons, List.length_append, List.length_map]
      rw [show a.length + (lay.take K).flatten.length + pre.length - a.length =
        (lay.take K).flatten.length + pre.length by omega, this, show k + 1 + K = k + (K + 1) by omega]

/-- The sections up to one that has been written back, with those before it, can be read from the disk. -/
theorem holds_disk {page slabSize : Nat} (hp : 13 < page) (hpx : page < 65536) {s : SecSys}
    (hi : SecInv page slabSize s lay) {disk : List Bytes} (hd : Kept s disk) {n : Nat} {e : Issued}
    (hn : s.issued[n]? = some e) (hslab : e.h.slab ≤ s.lg.oldestMapped)
    (hfl : e.h.off + e.h.req ≤ s.lg.flushedOf e.h.slab) :
    ∃ lay', Holds page disk lay' ∧ lay'.flatten = (s.issued.take (n + 1)).mapIdx secOf := by
  have hx : lay.flatten[n]? = some (secOf n e) := by rw [hi.flat, List.getElem?_mapIdx, hn]; rfl
  obtain ⟨K, pre, post, hK, hlen⟩ := split_flatten hx
  have hcell := cells_at (page := page) (k := 0) hK
  rw [← hlen, hi.cells, List.getElem?_map, hn] at hcell
  simp only [Option.map_some, Option.some.injEq, Prod.mk.injEq, Nat.zero_add] at hcell
  obtain ⟨e1, e2, e3⟩ := hcell
  have hKl : K < lay.length := (List.getElem?_eq_some_iff.1 hK).1
  obtain ⟨-, hold⟩ := oldest_le hi.inv
  have hun : ∀ k, k < K → ∀ sl ∈ s.lg.live, sl.suffix ≠ k := by
    intro k hk sl hsl he
    have := hold sl hsl
    omega
  have hsame : ∀ k, k < K → disk[k]? = s.lg.files[k]? := by
    intro k hk
    have hkf : k < s.lg.files.length := by rw [hi.inv.files_len]; omega
    have hkd : k < disk.length := Nat.lt_of_lt_of_le hkf hd.len
    obtain ⟨h3, h2⟩ := hd.same k _ _ (List.getElem?_eq_getElem hkf) (List.getElem?_eq_getElem hkd)
    have h2 := h2 (hun k hk)
    rw [List.getElem?_eq_getElem hkd, List.getElem?_eq_getElem hkf]
    congr 1
    apply List.ext_getElem?
    intro i
    by_cases hik : i < s.lg.flushedOf k
    · exact h3 i hik
    · rw [flushedOf_unmapped (hun k hk) (List.getElem?_eq_getElem hkf)] at hik
      rw [List.getElem?_eq_none (by omega), List.getElem?_eq_none (by omega)]
  have hoff : startOf page K ≤ e.h.off := by rw [e2]; exact le_endOf _ _ _
  have hlk : (lay.take K).length = K := by rw [List.length_take]; omega
  have get : ∀ (k : Nat) secs, (lay.take K ++ [pre ++ [secOf n e]])[k]? = some secs →
      (k < K ∧ lay[k]? = some secs) ∨ (k = K ∧ secs = pre ++ [secOf n e]) := by
    intro k secs h
    rw [List.getElem?_append] at h
    split at h
    · rename_i hk
      rw [hlk] at hk
      rw [List.getElem?_take_of_lt hk] at h
      exact .inl ⟨hk, h⟩
    · rename_i hk
      rw [hlk] at hk h
      have : k = K := by
        have := (List.getElem?_eq_some_iff.1 h).1
        simp at this; omega
      subst this
      simp at h
      exact .inr ⟨rfl, h.symm⟩
  refine ⟨lay.take K ++ [pre ++ [secOf n e]], ⟨by omega, hpx, ?_, by simp, ?_, ?_, ?_, ?_⟩, ?_⟩
  · rw [List.length_append, hlk, List.length_singleton]
    have := hd.len
    have := hi.inv.files_len
    omega
  · intro k d secs hdk hl
    rcases get k secs hl with ⟨hk, hl⟩ | ⟨rfl, rfl⟩
    · rw [hsame k hk] at hdk
      have := hi.inv.secs k d secs hdk hl
      rwa [hi.pageEq] at this
    · obtain ⟨f, hf⟩ := hi.inv.lookup hK
      obtain ⟨h3, -⟩ := hd.same _ f d hf hdk
      have hok := hi.inv.secs _ _ _ hf hK
      rw [hi.pageEq, secsOk_append] at hok
      rw [e1] at hfl
      refine (secsOk_append _ _ _ _ _).2 ⟨secsOk_agree (by omega) hok.1 (fun i hi' => h3 i (by omega)),
        secOk_agree hok.2.1 (fun i hi' => h3 i ?_), trivial⟩
      have : (secOf n e).req = e.h.req := rfl
      omega
  · intro k d secs hdk hl hk
    rw [List.length_append, hlk] at hk
    simp only [List.length_cons, List.length_nil] at hk
    rcases get k secs hl with ⟨hk', hl⟩ | ⟨rfl, rfl⟩
    · rw [hsame k hk'] at hdk
      have := (hi.inv.trimmed k d secs hdk hl (hun k hk')).2
      rwa [hi.pageEq] at this
    · omega
  · intro d hd0
    have hmain := hi.inv.main
    rw [hi.pageEq] at hmain
    have h0 : 0 < s.lg.files.length := by rw [hi.inv.files_len]; omega
    have hat := hi.inv.main_at _ (List.getElem?_eq_getElem h0)
    rw [hi.pageEq] at hat
    by_cases hK0 : K = 0
    · subst hK0
      obtain ⟨h3, -⟩ := hd.same 0 _ _ (List.getElem?_eq_getElem h0) hd0
      rw [slice_congr (f := s.lg.files[0]) (fun i _ hi' => h3 i (by
        simp only [startOf, if_true] at hoff
        rw [e1] at hfl
        omega))]
      exact hat
    · rw [hsame 0 (by omega), List.getElem?_eq_getElem h0] at hd0
      obtain rfl := Option.some.inj hd0
      exact hat
  · intro k hk hc
    rcases get k _ hc with ⟨_, hl⟩ | ⟨_, h⟩
    · exact hi.nonempty k hk hl
    · simp at h
  · have hf : lay.flatten = (lay.take K).flatten ++ (pre ++ secOf n e :: post) ++ (lay.drop (K + 1)).flatten := by
      conv => lhs; rw [← List.take_append_drop K lay]
      rw [List.drop_eq_getElem_cons hKl, (List.getElem?_eq_some_iff.1 hK).2]
      simp
    rw [mapIdx_take, ← hi.flat]
    conv => rhs; rw [hf]
    rw [List.flatten_append, List.append_assoc, List.take_append (l₁ := (lay.take K).flatten), List.take_of_length_le (l := (lay.take K).flatten) (i := n + 1) (by omega)]
    congr 1
    rw [show n + 1 - (lay.take K).flatten.length = pre.length + 1 by omega]
    simp only [List.take_append, List.take_of_length_le (l := pre) (i := pre.length + 1) (by omega)]
    simp

end ULog
end Verif
