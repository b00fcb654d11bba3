import Verif.Proofs.UnifiedLogTorn
/-! Crashes in the middle of an operation on a log. -/
namespace Verif
namespace ULog
open Bincode

/-! ### Sequences of effects -/

theorem CrashDuring.append {files files' : List Bytes} {a b : List Effect}
    (h : CrashDuring files (a ++ b) files') :
    CrashDuring files a files' ∨ CrashDuring (a.foldl Effect.apply files) b files' := by
  induction a generalizing files with
  | nil => exact .inr h
  | cons e a ih =>
    cases h with
    | torn h => exact .inl (.torn h)
    | next h =>
      rcases ih h with h | h
      · exact .inl (.next h)
      · exact .inr h

/-- One store: the file has some of the bytes. -/
theorem crash_store {files files' : List Bytes} {k o : Nat} {d f : Bytes}
    (h : CrashDuring files [.store k o d] files') (hf : files[k]? = some f)
    (hl : o + d.length ≤ f.length) :
    ∃ f', TornBytes f (writeAt f o d) f' ∧ files'[k]? = some f' ∧
      ∀ j : Nat, j ≠ k → files'[j]? = files[j]? := by
  have key : ∀ f', TornBytes f (writeAt f o d) f' → files' = files.modify k (fun _ => f') →
      files'[k]? = some f' ∧ ∀ j : Nat, j ≠ k → files'[j]? = files[j]? := by
    intro f' _ e
    subst e
    constructor
    · rw [List.getElem?_modify, hf]; simp
    · intro j hj
      rw [List.getElem?_modify]
      simp [Ne.symm hj]
  cases h with
  | torn h =>
    obtain ⟨f', e, ht⟩ := h
    exact ⟨f', ht f hf, key f' (ht f hf) e⟩
  | next h =>
    cases h with
    | done =>
      refine ⟨writeAt f o d, tornBytes_done (length_writeAt hl), key _ (tornBytes_done (length_writeAt hl)) ?_⟩
      show files.modify k _ = _
      rw [modify_eq_set _ hf, modify_eq_set _ hf]

/-- Effects on other files. -/
def Effect.above (n : Nat) : Effect → Prop
  | .store k _ _ => n ≤ k
  | .setLen k _ => n ≤ k
  | .create => True

theorem apply_above {n : Nat} {e : Effect} {files : List Bytes} (h : e.above n)
    (hn : n ≤ files.length) : n ≤ (e.apply files).length ∧
      ∀ j : Nat, j < n → (e.apply files)[j]? = files[j]? := by
  cases e with
  | store k o d =>
    have h : n ≤ k := h
    refine ⟨by simp [Effect.apply]; exact hn, fun j hj => ?_⟩
    show (files.modify k _)[j]? = _
    rw [List.getElem?_modify]
    simp [show k ≠ j by omega]
  | setLen k m =>
    have h : n ≤ k := h
    refine ⟨by simp [Effect.apply]; exact hn, fun j hj => ?_⟩
    show (files.modify k _)[j]? = _
    rw [List.getElem?_modify]
    simp [show k ≠ j by omega]
  | create =>
    refine ⟨by simp [Effect.apply]; omega, fun j hj => ?_⟩
    show (files ++ [[]])[j]? = _
    rw [List.getElem?_append_left (by omega)]

theorem crash_above {n : Nat} {es : List Effect} {files files' : List Bytes}
    (hc : CrashDuring files es files') (h : ∀ e ∈ es, e.above n) (hn : n ≤ files.length) :
    ∀ j : Nat, j < n → files'[j]? = files[j]? := by
  induction hc with
  | done => intro j _; rfl
  | @torn files files' e es ht =>
    intro j hj
    have he := h e (by simp)
    cases e with
    | store k o d =>
      have he : n ≤ k := he
      obtain ⟨f', rfl, _⟩ := ht
      rw [List.getElem?_modify]
      simp [show k ≠ j by omega]
    | setLen k m => rw [show files' = files from ht]
    | create => rw [show files' = files from ht]
  | @next files files' e es _ ih =>
    intro j hj
    obtain ⟨h1, h2⟩ := apply_above (h e (by simp)) hn
    rw [ih (fun x hx => h x (by simp [hx])) h1 j hj, h2 j hj]

/-- The cuts of a collection. -/
def cuts (l : List Slab) : List Effect := l.map (fun s => .setLen s.suffix s.cgp)

theorem gcEffects_eq (lg : Logger) :
    gcEffects lg = cuts (lg.back.filter (fun s => s.inFlight.isEmpty)) := rfl

theorem dropSlabs_cuts {l : List Slab} (hf : ∀ sl ∈ l, sl.flushed ≤ sl.cgp) (files : List Bytes) :
    dropSlabs files l = .ok ((cuts l).foldl Effect.apply files) := by
  induction l generalizing files with
  | nil => rfl
  | cons x l ih =>
    unfold dropSlabs
    have hd : dropSlab files x = .ok (files.modify x.suffix (fun f => setLen f x.cgp)) := by
      unfold dropSlab
      rw [flushUntil_ok (hf x (by simp))]
    rw [hd]
    simp only
    rw [ih (fun sl h => hf sl (by simp [h]))]
    rfl

theorem crash_cuts {l : List Slab} {files files' : List Bytes}
    (h : CrashDuring files (cuts l) files') :
    ∃ l1 l2, l = l1 ++ l2 ∧ files' = (cuts l1).foldl Effect.apply files := by
  induction l generalizing files with
  | nil => cases h; exact ⟨[], [], rfl, rfl⟩
  | cons x l ih =>
    cases h with
    | torn h => exact ⟨[], x :: l, rfl, h⟩
    | next h =>
      obtain ⟨l1, l2, rfl, e⟩ := ih h
      exact ⟨x :: l1, l2, rfl, e⟩

/-! ### The files after a crash -/

/-- What is left of a slab file. -/
structure After (page k : Nat) (secs : List Sec) (f f' : Bytes) (whole : Prop) : Prop where
  similar : Similar page (startOf page k) secs f'
  whole : whole → f' = f
  main : k = 0 → slice f' 0 (enc (mainHd page)).length = enc (mainHd page)

variable {lg : Logger} {lay : List (List Sec)} {own : Nat → Option Handle}

theorem after_same (hi : Inv lg lay own) {k : Nat} {f : Bytes} {secs : List Sec}
    (hf : lg.files[k]? = some f) (hl : lay[k]? = some secs) (w : Prop) :
    After lg.pageSize k secs f f w :=
  ⟨similar_of_ok hi.page_pos (hi.secs k f secs hf hl), fun _ => rfl,
    fun h0 => hi.main_at f (by rw [← h0]; exact hf)⟩

theorem back_facts (hi : Inv lg lay own) :
    (∀ sl ∈ lg.back.filter (fun s => s.inFlight.isEmpty), sl.flushed ≤ sl.cgp) ∧
    ((lg.back.filter (fun s => s.inFlight.isEmpty)).map Slab.suffix).Nodup := by
  have hsb : (lg.back.map Slab.suffix).Pairwise (· < ·) := by
    have := hi.sorted
    unfold Logger.live at this
    rw [List.map_append, List.pairwise_append] at this
    exact this.1
  refine ⟨fun sl hsl => ?_, (hsb.sublist ((List.filter_sublist (l := lg.back)).map _)).imp
    (fun h => Nat.ne_of_lt h)⟩
  have hb : sl ∈ lg.live := by
    have := (List.mem_filter.1 hsl).1
    simp [Logger.live, this]
  obtain ⟨file, secs, hf, hl⟩ := hi.slab_at hb
  exact (hi.live sl hb file secs hf hl).flushed_cgp

/-- During a collection. -/
theorem after_cuts (hi : Inv lg lay own) {l1 l2 : List Slab}
    (hl12 : lg.back.filter (fun s => s.inFlight.isEmpty) = l1 ++ l2)
    {k : Nat} {f : Bytes} {secs : List Sec}
    (hf : lg.files[k]? = some f) (hl : lay[k]? = some secs) :
    ∃ f', ((cuts l1).foldl Effect.apply lg.files)[k]? = some f' ∧
      After lg.pageSize k secs f f' (k < lg.oldestMapped) := by
  obtain ⟨hfl, hnd⟩ := back_facts hi
  rw [hl12] at hfl hnd
  have hfl1 : ∀ sl ∈ l1, sl.flushed ≤ sl.cgp := fun sl h => hfl sl (by simp [h])
  have hnd1 : (l1.map Slab.suffix).Nodup := by
    rw [List.map_append] at hnd
    exact (List.nodup_append.1 hnd).1
  have hmem : ∀ sl ∈ l1, sl ∈ lg.back := by
    intro sl h
    have : sl ∈ lg.back.filter (fun s => s.inFlight.isEmpty) := by rw [hl12]; simp [h]
    exact (List.mem_filter.1 this).1
  obtain ⟨files', h1, _, h3, h4⟩ := dropSlabs_spec lg.files hfl1 hnd1
  rw [dropSlabs_cuts hfl1] at h1
  obtain rfl := Rs.ok.inj h1
  by_cases hk : ∃ sl ∈ l1, sl.suffix = k
  · obtain ⟨sl, hsl, rfl⟩ := hk
    have hb := hmem sl hsl
    have hlv : sl ∈ lg.live := by simp [Logger.live, hb]
    have hok := hi.live sl hlv f secs hf hl
    refine ⟨setLen f sl.cgp, by rw [h3 sl hsl, hf]; rfl, ?_, ?_, ?_⟩
    · exact similar_of_ok hi.page_pos (secsOk_setLen hi.page_pos (hi.secs _ f secs hf hl) hok.last)
    · intro hlt
      have := (oldest_le hi).2 sl hlv
      omega
    · intro h0
      have hm := hi.main_at f (by rw [← h0]; exact hf)
      have hlen := slice_len hm rfl
      have hmain := hi.main
      have hge : lg.pageSize ≤ sl.cgp := by
        rw [hi.back sl hb secs hl]
        have := le_endOf lg.pageSize (startOf lg.pageSize sl.suffix) secs
        rw [h0] at this ⊢
        simpa [startOf] using this
      rw [slice_setLen (by omega)]
      · exact hm
      · rcases hlen with h | h
        · exact h
        · omega
  · refine ⟨f, ?_, after_same hi hf hl _⟩
    rw [h4 k (fun sl h e => hk ⟨sl, h, e⟩)]; exact hf

theorem oldest_front (hi : Inv lg lay own) : lg.oldestMapped ≤ lg.front.suffix :=
  (oldest_le hi).2 lg.front (by simp [Logger.live])

/-- The slab of an open section is not older than the oldest one mapped. -/
theorem oldest_owner (hi : Inv lg lay own) {i : Nat} {h : Handle} (ho : own i = some h) :
    lg.oldestMapped ≤ h.slab := by
  obtain ⟨sl, hsl, e⟩ := hi.owner_live ho
  rw [← e]; exact (oldest_le hi).2 sl hsl

/-- The files after a crash during an operation. -/
theorem after_crash {page slabSize : Nat} {s : SecSys} {lay : List (List Sec)} (hp : 13 < page)
    (hi : SecInv page slabSize s lay) {op : SecOp} (hop : SecOpOk page slabSize op)
    {files' : List Bytes} (hc : CrashDuring s.lg.files (opEffects s op) files')
    {k : Nat} (hk : k ≤ s.lg.oldestMapped) {f : Bytes} {secs : List Sec}
    (hf : s.lg.files[k]? = some f) (hl : lay[k]? = some secs) :
    ∃ f', files'[k]? = some f' ∧ After page k secs f f' (k < s.lg.oldestMapped) := by
  have hpg := hi.pageEq
  have hpp := hi.inv.page_pos
  have nothing : CrashDuring s.lg.files [] files' →
      ∃ f', files'[k]? = some f' ∧ After page k secs f f' (k < s.lg.oldestMapped) := by
    intro h
    cases h
    refine ⟨f, hf, ?_⟩
    rw [← hpg]; exact after_same hi.inv hf hl _
  cases op with
  | add t req =>
    have hop : SizeOk page slabSize req := hop
    have hof := oldest_front hi.inv
    rcases CrashDuring.append (show CrashDuring s.lg.files (gcEffects s.lg ++ _) files' from hc) with hc | hc
    · -- during the collection
      obtain ⟨l1, l2, hl12, rfl⟩ := crash_cuts (gcEffects_eq s.lg ▸ hc)
      rw [← hpg]; exact after_cuts hi.inv hl12 hf hl
    · -- after it
      obtain ⟨f1, hf1, ha1⟩ := after_cuts hi.inv (l1 := s.lg.back.filter (fun s => s.inFlight.isEmpty))
        (l2 := []) (by simp) hf hl
      obtain ⟨files1, hgc, hinv1, _⟩ := inv_gc hi.inv
      have hfiles1 : files1 = (cuts (s.lg.back.filter (fun s => s.inFlight.isEmpty))).foldl
          Effect.apply s.lg.files := by
        unfold Logger.gc at hgc
        rw [dropSlabs_cuts (back_facts hi.inv).1] at hgc
        have := Rs.ok.inj hgc
        exact (congrArg Logger.files this).symm
      rw [gcEffects_eq, ← hfiles1] at hc
      rw [← hfiles1] at hf1
      rw [hpg] at ha1
      unfold headerEffects at hc
      simp only at hc
      split at hc
      · -- in a new slab
        have := crash_above (n := s.lg.front.suffix + 1) hc (by
          intro e he
          simp only [List.mem_cons, List.not_mem_nil, or_false] at he
          rcases he with rfl | rfl | rfl
          · exact True.intro
          · exact Nat.le_refl _
          · exact Nat.le_refl _) (by
          have := hinv1.files_len
          have := hinv1.front_suffix
          show _ ≤ (s.lg.collected files1).files.length
          rw [hinv1.files_len, ← hinv1.front_suffix]
          exact Nat.le_refl _) k (by omega)
        exact ⟨f1, by rw [this]; exact hf1, ha1⟩
      · -- in the current slab
        rename_i hroom
        obtain ⟨ff, fsecs, hff, hfl⟩ := hinv1.front_at
        have hff : files1[s.lg.front.suffix]? = some ff := hff
        have hfl : lay[s.lg.front.suffix]? = some fsecs := hfl
        have hok := hinv1.live s.lg.front (by simp [Logger.live, Logger.collected]) ff fsecs hff hfl
        have hcgp : align s.lg.pageSize s.lg.front.cgp =
          endOf s.lg.pageSize (startOf s.lg.pageSize s.lg.front.suffix) fsecs := hok.cgp
        have hlen : ff.length = s.lg.slabSize := hok.len
        have hsecs : SecsOk s.lg.pageSize ff (startOf s.lg.pageSize s.lg.front.suffix) fsecs :=
          hinv1.secs _ _ _ hff hfl
        have hal := align_le hpp req
        have hmin := hop.min
        have hhl := enc_header_le (mkHeader t (UInt32.ofNat (align s.lg.pageSize req)) 0)
        have hfit : align s.lg.pageSize s.lg.front.cgp +
          (enc (mkHeader t (UInt32.ofNat (align s.lg.pageSize req)) 0)).length ≤ ff.length := by omega
        obtain ⟨f', ht, hk', hother⟩ := crash_store hc hff hfit
        by_cases hkf : k = s.lg.front.suffix
        · subst hkf
          obtain rfl : fsecs = secs := Option.some.inj (hfl.symm.trans hl)
          obtain rfl : ff = f1 := Option.some.inj (hff.symm.trans hf1)
          refine ⟨f', hk', ?_, fun h => by omega, fun h0 => ?_⟩
          · rw [hcgp] at ht hfit
            have := similar_behind hpp hsecs (Nat.le_refl _) hfit ht
            rw [hpg] at this; exact this
          · have := ha1.main h0
            have hm := hi.inv.main
            rw [hpg] at hm
            rw [ht.slice hfit (.inl ?_)]
            · exact this
            · rw [hcgp]
              have := le_endOf s.lg.pageSize (startOf s.lg.pageSize s.lg.front.suffix) fsecs
              simp only [startOf, h0, if_true] at this ⊢
              rw [hpg] at this ⊢
              omega
        · exact ⟨f1, by rw [hother k hkf]; exact hf1, ha1⟩
  | write i obj =>
    unfold opEffects at hc
    simp only at hc
    split at hc
    · rename_i h data he
      have ho := own_open he rfl
      simp only at ho
      obtain ⟨pre, x, post, w⟩ := hi.inv.owns i h ho
      obtain ⟨g, hg⟩ := hi.inv.lookup w.at_
      have hsecs := hi.inv.secs _ _ _ hg w.at_
      have hso := ((secsOk_append _ _ _ _ _).1 hsecs).2.1
      have hroom := hso.room
      have hin := hso.inside
      have hoff := w.off
      have hreq := w.req
      have hused := w.used
      have hmx : maxHeader = 15 := rfl
      have hlen := fitChunks_length (h.req - (maxHeader + h.used)) obj
      have hof := oldest_owner hi.inv ho
      have hfit : h.off + maxHeader + h.used +
        (fitChunks (h.req - (maxHeader + h.used)) obj).1.length ≤ g.length := by omega
      obtain ⟨f', ht, hk', hother⟩ := crash_store hc hg hfit
      by_cases hkf : k = h.slab
      · subst hkf
        obtain rfl : g = f := Option.some.inj (hg.symm.trans hf)
        obtain rfl : pre ++ x :: post = secs := Option.some.inj (w.at_.symm.trans hl)
        refine ⟨f', hk', ?_, fun h => by omega, fun h0 => ?_⟩
        · rw [← hpg]
          exact similar_write hpp hsecs (by omega) (by omega) ht
        · rw [ht.slice hfit (.inl ?_), ← hpg]
          · exact hi.inv.main_at g (by rw [← h0]; exact hg)
          · have hm := hi.inv.main
            have := le_endOf s.lg.pageSize (startOf s.lg.pageSize h.slab) pre
            rw [← hoff] at this
            simp only [startOf, h0, if_true] at this
            rw [hpg] at hm this
            omega
      · exact ⟨f, by rw [hother k hkf]; exact hf, by rw [← hpg]; exact after_same hi.inv hf hl _⟩
    · exact nothing hc
  | close i =>
    unfold opEffects at hc
    simp only at hc
    split at hc
    · rename_i h data he
      have ho := own_open he rfl
      simp only at ho
      obtain ⟨pre, x, post, w⟩ := hi.inv.owns i h ho
      obtain ⟨g, hg⟩ := hi.inv.lookup w.at_
      have hsecs := hi.inv.secs _ _ _ hg w.at_
      have hso := ((secsOk_append _ _ _ _ _).1 hsecs).2.1
      have hroom := hso.room
      have hin := hso.inside
      have hoff := w.off
      have hd := updateHeader_header hso.room hso.size w.owner w.header w.used
      have hof := oldest_owner hi.inv ho
      have hhl := enc_header_le (Sec.header s.lg.pageSize { x with owner := none })
      rw [hd] at hc
      have hfit : h.off + (enc (Sec.header s.lg.pageSize { x with owner := none })).length ≤
        g.length := by omega
      obtain ⟨f', ht, hk', hother⟩ := crash_store hc hg hfit
      by_cases hkf : k = h.slab
      · subst hkf
        obtain rfl : g = f := Option.some.inj (hg.symm.trans hf)
        obtain rfl : pre ++ x :: post = secs := Option.some.inj (w.at_.symm.trans hl)
        refine ⟨f', hk', ?_, fun h => by omega, fun h0 => ?_⟩
        · rw [hoff] at ht
          rw [← hpg]
          exact similar_close hpp hsecs (by rw [w.owner]; rfl) ht
        · rw [ht.slice hfit (.inl ?_), ← hpg]
          · exact hi.inv.main_at g (by rw [← h0]; exact hg)
          · have hm := hi.inv.main
            have := le_endOf s.lg.pageSize (startOf s.lg.pageSize h.slab) pre
            rw [← hoff] at this
            simp only [startOf, h0, if_true] at this
            rw [hpg] at hm this
            omega
      · exact ⟨f, by rw [hother k hkf]; exact hf, by rw [← hpg]; exact after_same hi.inv hf hl _⟩
    · exact nothing hc

/-! ### Reading what is left -/

theorem list_of_forall {α : Type} {P : Nat → α → Prop} (n : Nat) (h : ∀ k, k < n → ∃ x, P k x) :
    ∃ l : List α, l.length = n ∧ ∀ (k : Nat) x, l[k]? = some x → P k x := by
  induction n with
  | zero => exact ⟨[], rfl, fun k x h => by simp at h⟩
  | succ n ih =>
    obtain ⟨l, h1, h2⟩ := ih (fun k hk => h k (by omega))
    obtain ⟨x, hx⟩ := h n (by omega)
    refine ⟨l ++ [x], by simp [h1], fun k y hy => ?_⟩
    rw [List.getElem?_append] at hy
    split at hy
    · exact h2 k y hy
    · rename_i hk
      have hk0 : k - l.length = 0 := by
        have := (List.getElem?_eq_some_iff.1 hy).1
        simp at this; omega
      rw [hk0] at hy
      have : x = y := by simpa using hy
      subst this
      rw [show k = n by omega]; exact hx

theorem pointwise_flatten {α : Type} {R : α → α → Prop} {a b : List (List α)} (hlen : a.length = b.length)
    (h : ∀ (k : Nat) x y, a[k]? = some x → b[k]? = some y → Pointwise R x y) :
    Pointwise R a.flatten b.flatten := by
  induction a generalizing b with
  | nil =>
    cases b with
    | nil => exact .nil
    | cons _ _ => simp at hlen
  | cons x a ih =>
    cases b with
    | nil => simp at hlen
    | cons y b =>
      rw [List.flatten_cons, List.flatten_cons]
      exact pointwise_append (h 0 x y rfl rfl)
        (ih (by simpa using hlen) (fun k u v hu hv => h (k + 1) u v hu hv))

theorem pointwise_take {α β : Type} {R : α → β → Prop} {a : List α} {b : List β} (h : Pointwise R a b)
    (n : Nat) : Pointwise R (a.take n) (b.take n) := by
  induction h generalizing n with
  | nil => simp; exact .nil
  | cons h _ ih =>
    cases n with
    | zero => exact .nil
    | succ n => exact .cons h (ih n)

theorem rel_type {a b : List Sec} (h : Pointwise RelSec a b) {i : Nat} {x : Sec}
    (hx : b[i]? = some x) : ∃ y, a[i]? = some y ∧ x.et = y.et := by
  induction h generalizing i with
  | nil => simp at hx
  | @cons u v _ _ h _ ih =>
    cases i with
    | zero =>
      have : v = x := by simpa using hx
      subst this
      exact ⟨u, rfl, h.2.1⟩
    | succ i => exact ih (by simpa using hx)

theorem left_filter {l : List Issued} {l' : List Sec} {t : EntryType} (ht : t ≠ .empty) {k : Nat}
    (h : Pointwise RelSec (l.mapIdx (fun i => secOf (i + k))) l') :
    Pointwise Issued.left (l.filter (·.h.header.entryType == t))
      ((l'.filter (·.et == t)).map Sec.data) := by
  induction l generalizing l' k with
  | nil => cases h; exact .nil
  | cons e l ih =>
    rw [List.mapIdx_cons] at h
    cases h with
    | @cons _ s' _ r h1 h2 =>
      have hfun : (fun i => secOf (i + 1 + k)) = fun i => secOf (i + (k + 1)) := by
        funext i; congr 1; omega
      rw [hfun] at h2
      have hr := ih h2
      obtain ⟨_, het, hpre, hcl⟩ := h1
      have het' : s'.et = e.h.header.entryType := het
      by_cases he : e.h.header.entryType = t
      · rw [List.filter_cons_of_pos (by simp [he]), List.filter_cons_of_pos (by simp [het', he]),
          List.map_cons]
        refine .cons ⟨hpre, fun hop => hcl ?_ ?_⟩ hr
        · simp [secOf, hop]
        · show e.h.header.entryType ≠ .empty
          rw [he]; exact ht
      · rw [List.filter_cons_of_neg (by simp [he]), List.filter_cons_of_neg (by simp [het', he])]
        exact hr

theorem crash_read {page slabSize : Nat} {s : SecSys} {lay : List (List Sec)} (hp : 13 < page)
    (hpx : page < 65536) (hi : SecInv page slabSize s lay) {op : SecOp}
    (hop : SecOpOk page slabSize op) {files' : List Bytes}
    (hc : CrashDuring s.lg.files (opEffects s op) files')
    {n : Nat} {e : Issued} (hn : s.issued[n]? = some e) (hslab : e.h.slab ≤ s.lg.oldestMapped)
    (htypes : ∀ x ∈ s.issued.take (n + 1), x.h.header.entryType ≠ .lastEntry)
    {t : EntryType} (ht : t ≠ .lastEntry) (ht' : t ≠ .empty) :
    ∃ r ds, Reader.new files' = .ok r ∧ readSome files' t ds.length r = .ok ds ∧
      Pointwise Issued.left ((s.issued.take (n + 1)).filter (·.h.header.entryType == t)) ds := by
  obtain ⟨hold, _⟩ := oldest_le hi.inv
  generalize hK : s.lg.oldestMapped = K at *
  have hpp : 0 < page := by omega
  -- sections found in each file
  obtain ⟨lay', hlen', hlay'⟩ := list_of_forall
    (P := fun k secs' => ∀ f', files'[k]? = some f' → ∀ secs, lay[k]? = some secs →
      SecsR page f' (startOf page k) secs' ∧ Pointwise RelSec secs secs') (K + 1) (by
      intro k hk
      obtain ⟨secs, hl⟩ : ∃ secs, lay[k]? = some secs := ⟨_, List.getElem?_eq_getElem (by omega)⟩
      obtain ⟨f, hf⟩ := hi.inv.lookup hl
      obtain ⟨f', hf', ha⟩ := after_crash hp hi hop hc (by omega) hf hl
      obtain ⟨secs', h1, h2⟩ := ha.similar
      refine ⟨secs', fun g hg secs2 hl2 => ?_⟩
      obtain rfl : f' = g := Option.some.inj (hf'.symm.trans hg)
      obtain rfl : secs = secs2 := Option.some.inj (hl.symm.trans hl2)
      exact ⟨h1, h2⟩)
  have get : ∀ (k : Nat) x, lay'[k]? = some x → ∃ f f' secs, s.lg.files[k]? = some f ∧
      files'[k]? = some f' ∧ lay[k]? = some secs ∧ k ≤ K ∧
      After page k secs f f' (k < K) ∧ SecsR page f' (startOf page k) x ∧ Pointwise RelSec secs x := by
    intro k x hx
    have hk := (List.getElem?_eq_some_iff.1 hx).1
    obtain ⟨secs, hl⟩ : ∃ secs, lay[k]? = some secs := ⟨_, List.getElem?_eq_getElem (by omega)⟩
    obtain ⟨f, hf⟩ := hi.inv.lookup hl
    obtain ⟨f', hf', ha⟩ := after_crash hp hi hop hc (by omega) hf hl
    rw [hK] at ha
    obtain ⟨h1, h2⟩ := hlay' k x hx f' hf' secs hl
    exact ⟨f, f', secs, hf, hf', hl, by omega, ha, h1, h2⟩
  have hh : HoldsR page files' lay' := by
    refine ⟨hpp, hpx, ?_, by omega, ?_, ?_, ?_, ?_⟩
    · obtain ⟨x, hx⟩ : ∃ x, lay'[K]? = some x := ⟨_, List.getElem?_eq_getElem (by omega)⟩
      obtain ⟨f, f', secs, _, hf', _⟩ := get K x hx
      have := (List.getElem?_eq_some_iff.1 hf').1
      omega
    · intro k file x hf hx
      obtain ⟨f, f', secs, _, hf', _, _, _, h1, _⟩ := get k x hx
      obtain rfl : f' = file := Option.some.inj (hf'.symm.trans hf)
      exact h1
    · intro k file x hf hx hk
      obtain ⟨f, f', secs, hf0, hf', hl, _, ha, _, h2⟩ := get k x hx
      obtain rfl : f' = file := Option.some.inj (hf'.symm.trans hf)
      have hcut := (holds_crash hi.inv hi.nonempty (by rw [hi.pageEq]; exact hpx)).cut k f secs hf0 (by
        rw [hK, List.getElem?_take, if_pos (by omega)]; exact hl) (by
        rw [hK, List.length_take]; omega)
      rw [hi.pageEq] at hcut
      rw [ha.whole (by omega), endOf_rel h2]
      exact hcut
    · intro file hf
      obtain ⟨x, hx⟩ : ∃ x, lay'[0]? = some x := ⟨_, List.getElem?_eq_getElem (by omega)⟩
      obtain ⟨f, f', secs, hf0, hf', hl, _, ha, _, h2⟩ := get 0 x hx
      obtain rfl : f' = file := Option.some.inj (hf'.symm.trans hf)
      exact ha.main rfl
    · intro k hk hx
      obtain ⟨f, f', secs, hf0, hf', hl, _, ha, _, h2⟩ := get k [] hx
      cases h2
      exact hi.nonempty k hk hl
  have hlt := take_index hi hn hslab (by omega)
  obtain ⟨r, hr, hat⟩ := reader_newR hh
  have hfuel := holdsR_fuel hh
  have hpre := take_flatten_prefix (lay := lay) (K + 1)
  rw [hi.flat] at hpre
  have hpw : Pointwise RelSec (lay.take (K + 1)).flatten lay'.flatten := by
    refine pointwise_flatten (by rw [List.length_take]; omega) ?_
    intro k x y hx hy
    obtain ⟨f, f', secs, hf0, hf', hl, _, ha, _, h2⟩ := get k y hy
    rw [List.getElem?_take, if_pos (by omega), hl] at hx
    obtain rfl := Option.some.inj hx
    exact h2
  have hpl := pointwise_length hpw
  generalize (lay.take (K + 1)).flatten = F at *
  generalize lay'.flatten = F' at *
  have htake : F.take (n + 1) = (s.issued.take (n + 1)).mapIdx secOf := by
    rw [mapIdx_take, ← hpre, List.take_append_of_le_length (by omega)]
  have hpt := pointwise_take hpw (n + 1)
  rw [htake] at hpt
  have hleft := left_filter (k := 0) ht' hpt
  have hsplit : F' = F'.take (n + 1) ++ F'.drop (n + 1) := (List.take_append_drop _ _).symm
  rw [hsplit] at hat
  have hspec := readSome_specR hh ht (L := F'.take (n + 1)) (B := F'.drop (n + 1)) (by
      intro x hx
      -- the types are those of the sections issued
      obtain ⟨i, hi'⟩ := List.getElem?_of_mem hx
      obtain ⟨y, hy, het⟩ := rel_type hpt hi'
      rw [List.getElem?_mapIdx] at hy
      obtain ⟨z, hz, rfl⟩ := Option.map_eq_some_iff.1 hy
      rw [het]
      exact htypes z (List.mem_of_getElem? hz)) hat (by rw [List.length_take]; omega)
  refine ⟨r, _, hr, ?_, hleft⟩
  rw [List.length_map]
  exact hspec

end ULog
end Verif
