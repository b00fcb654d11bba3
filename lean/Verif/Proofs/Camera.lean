import Verif.Spec.Camera
/-! Lemmas about the camera source. -/
namespace Verif
namespace Camera
variable {D : Type}

/-- The indices and buffers the kernel has. -/
def Cam.kernel (s : Cam D) : List (Nat × Buf) := s.queued ++ s.done.map (fun x => (x.1, x.2.1))

theorem taken_eq (s : Cam D) : s.taken = s.kernel.map Prod.fst := by
  simp [Cam.taken, Cam.kernel, List.map_map, Function.comp_def]

theorem held_iff (s : Cam D) (b : Buf) : s.held b = true ↔ some b ∈ s.arena ∨ s.msg = some b ∨ b ∈ s.kept := by
  simp [Cam.held, or_assoc]

theorem held_false (s : Cam D) (b : Buf) :
    s.held b = false ↔ some b ∉ s.arena ∧ s.msg ≠ some b ∧ b ∉ s.kept := by
  rw [← Bool.not_eq_true, held_iff]; simp

structure Core (n : Nat) (s : Cam D) : Prop where
  len : s.arena.length = n
  nodup : s.free.Nodup
  apart : ∀ b ∈ s.free, s.held b = false
  all : ∀ b, b < n + 1 → b ∈ s.free ∨ s.held b = true
  inj : ∀ (i j : Nat) (b : Buf), s.arena[i]? = some (some b) → s.arena[j]? = some (some b) → i = j
  idx : s.taken.Nodup
  bufs : (s.kernel.map Prod.snd).Nodup
  out : ∀ (i : Nat) (b : Buf), (i, b) ∈ s.kernel → s.msg ≠ some b ∧ b ∉ s.kept
  mem : ∀ (i : Nat) (b : Buf) (f : Frame D), (i, b, f) ∈ s.done → s.mem b = f.data

/-- The arena has the buffers the kernel has, but maybe at `skip`. -/
def Coherent (s : Cam D) (skip : Nat → Prop) : Prop :=
  ∀ (i : Nat) (b : Buf), (i, b) ∈ s.kernel → ¬ skip i → s.arena[i]? = some (some b)

@[simp] theorem reclaim_arena (s : Cam D) (b : Option Buf) : (s.reclaim b).arena = s.arena := by
  cases b <;> simp only [Cam.reclaim] ; split <;> rfl
@[simp] theorem reclaim_last (s : Cam D) (b : Option Buf) : (s.reclaim b).last = s.last := by
  cases b <;> simp only [Cam.reclaim] ; split <;> rfl
@[simp] theorem reclaim_active (s : Cam D) (b : Option Buf) : (s.reclaim b).active = s.active := by
  cases b <;> simp only [Cam.reclaim] ; split <;> rfl
@[simp] theorem reclaim_offset (s : Cam D) (b : Option Buf) : (s.reclaim b).offset = s.offset := by
  cases b <;> simp only [Cam.reclaim] ; split <;> rfl
@[simp] theorem reclaim_queued (s : Cam D) (b : Option Buf) : (s.reclaim b).queued = s.queued := by
  cases b <;> simp only [Cam.reclaim] ; split <;> rfl
@[simp] theorem reclaim_done (s : Cam D) (b : Option Buf) : (s.reclaim b).done = s.done := by
  cases b <;> simp only [Cam.reclaim] ; split <;> rfl
@[simp] theorem reclaim_mem (s : Cam D) (b : Option Buf) : (s.reclaim b).mem = s.mem := by
  cases b <;> simp only [Cam.reclaim] ; split <;> rfl
@[simp] theorem reclaim_msg (s : Cam D) (b : Option Buf) : (s.reclaim b).msg = s.msg := by
  cases b <;> simp only [Cam.reclaim] ; split <;> rfl
@[simp] theorem reclaim_kept (s : Cam D) (b : Option Buf) : (s.reclaim b).kept = s.kept := by
  cases b <;> simp only [Cam.reclaim] ; split <;> rfl
@[simp] theorem reclaim_held (s : Cam D) (b : Option Buf) (x : Buf) : (s.reclaim b).held x = s.held x := by
  simp [Cam.held]
@[simp] theorem reclaim_taken (s : Cam D) (b : Option Buf) : (s.reclaim b).taken = s.taken := by
  simp [Cam.taken]
@[simp] theorem reclaim_kernel (s : Cam D) (b : Option Buf) : (s.reclaim b).kernel = s.kernel := by
  simp [Cam.kernel]

/-- What is free after a handle was dropped. -/
theorem reclaim_free {s : Cam D} {o : Option Buf} (hn : s.free.Nodup) (ha : ∀ b ∈ s.free, s.held b = false)
    (ho : ∀ b, o = some b → b ∉ s.free) (n : Nat)
    (hall : ∀ b, b < n → b ∈ s.free ∨ s.held b = true ∨ o = some b) :
    (s.reclaim o).free.Nodup ∧ (∀ b ∈ (s.reclaim o).free, s.held b = false) ∧
    (∀ b, b < n → b ∈ (s.reclaim o).free ∨ s.held b = true) := by
  cases o with
  | none =>
    refine ⟨hn, ha, fun b hb => ?_⟩
    rcases hall b hb with h | h | h
    · exact .inl h
    · exact .inr h
    · cases h
  | some x =>
    by_cases hx : s.held x = true
    · simp only [Cam.reclaim, hx, if_true]
      refine ⟨hn, ha, fun b hb => ?_⟩
      rcases hall b hb with h | h | h
      · exact .inl h
      · exact .inr h
      · cases h; exact .inr hx
    · simp only [Cam.reclaim, hx, if_false, Bool.false_eq_true]
      refine ⟨List.nodup_cons.2 ⟨ho x rfl, hn⟩, fun b hb => ?_, fun b hb => ?_⟩
      · rcases List.mem_cons.1 hb with rfl | h
        · simpa using hx
        · exact ha b h
      · rcases hall b hb with h | h | h
        · exact .inl (by simp [h])
        · exact .inr h
        · cases h; exact .inl (by simp)

/-- What stays in a step. -/
structure Same (s s' : Cam D) : Prop where
  last : s'.last = s.last
  active : s'.active = s.active
  offset : s'.offset = s.offset
  mem : s'.mem = s.mem
  msg : s'.msg = s.msg
  kept : s'.kept = s.kept
  done : s'.done = s.done

theorem queue_spec {n G : Nat} (hG : n ≤ G) {s : Cam D} (hc : Core n s) {index : Nat}
    (hcoh : Coherent s (· = index)) {s' : Cam D} {ok : Bool} (h : s.queue G index = .ok (s', ok)) :
    Core n s' ∧ Same s s' ∧
    ((ok = true ∧ index ∉ s.taken ∧ Coherent s' (fun _ => False) ∧ (∃ b, s'.queued = s.queued ++ [(index, b)])) ∨
     (ok = false ∧ index ∈ s.taken ∧ Coherent s' (· = index) ∧ s'.queued = s.queued)) ∧
    (∃ b, s'.arena[index]? = some (some b) ∧ b ∈ s.free) ∧
    (∀ i, i ≠ index → s'.arena[i]? = s.arena[i]?) := by
  unfold Cam.queue at h
  split at h
  case h_2 => cases h
  rename_i b free old hfree hold
  have hil : index < s.arena.length := by
    refine Decidable.byContradiction fun hh => ?_
    rw [List.getElem?_eq_none (by omega)] at hold
    cases hold
  have hbf : b ∈ s.free := by rw [hfree]; simp
  have hbn := hc.apart b hbf
  rw [held_false] at hbn
  have hnd := hc.nodup
  rw [hfree] at hnd
  have hget : ∀ i, (s.arena.set index (some b))[i]? = if i = index then some (some b) else s.arena[i]? := by
    intro i
    rw [List.getElem?_set]
    by_cases hi : i = index
    · subst hi; simp [hil]
    · rw [if_neg (fun e => hi e.symm), if_neg hi]
  generalize hs1 : ({ s with free := free, arena := s.arena.set index (some b) } : Cam D) = s1 at h
  have hheld : ∀ x, s1.held x = true ↔ x = b ∨ (∃ i, i ≠ index ∧ s.arena[i]? = some (some x)) ∨ s.msg = some x ∨ x ∈ s.kept := by
    intro x
    rw [held_iff, ← hs1]
    simp only
    constructor
    · rintro (h | h | h)
      · obtain ⟨i, hi⟩ := List.getElem?_of_mem h
        rw [hget] at hi
        by_cases hii : i = index
        · rw [if_pos hii] at hi; simp at hi; exact .inl hi.symm
        · rw [if_neg hii] at hi; exact .inr (.inl ⟨i, hii, hi⟩)
      · exact .inr (.inr (.inl h))
      · exact .inr (.inr (.inr h))
    · rintro (h | ⟨i, hi, h⟩ | h | h)
      · subst h
        exact .inl (List.mem_of_getElem? (i := index) (by rw [hget, if_pos rfl]))
      · exact .inl (List.mem_of_getElem? (i := i) (by rw [hget, if_neg hi]; exact h))
      · exact .inr (.inl h)
      · exact .inr (.inr h)
  have hfr := reclaim_free (s := s1) (o := old) (n := n + 1)
    (by rw [← hs1]; exact (List.nodup_cons.1 hnd).2)
    (by
      intro x hx
      rw [← hs1] at hx
      have hx' : x ∈ free := hx
      have h1 := hc.apart x (by rw [hfree]; simp [hx'])
      rw [held_false] at h1
      rw [← Bool.not_eq_true, hheld]
      rintro (h | ⟨i, _, h⟩ | h | h)
      · subst h; exact (List.nodup_cons.1 hnd).1 hx'
      · exact h1.1 (List.mem_of_getElem? h)
      · exact h1.2.1 h
      · exact h1.2.2 h)
    (by
      intro x hx hxf
      subst hx
      rw [← hs1] at hxf
      have h1 := hc.apart x (by rw [hfree]; simp only [List.mem_cons]; exact .inr hxf)
      rw [held_false] at h1
      exact h1.1 (List.mem_of_getElem? hold))
    (by
      intro x hx
      rcases hc.all x hx with h1 | h1
      · rw [hfree] at h1
        rcases List.mem_cons.1 h1 with rfl | h1
        · exact .inr (.inl ((hheld _).2 (.inl rfl)))
        · exact .inl (by rw [← hs1]; exact h1)
      · rw [held_iff] at h1
        rcases h1 with h1 | h1 | h1
        · obtain ⟨i, hi⟩ := List.getElem?_of_mem h1
          by_cases hii : i = index
          · subst hii
            rw [hold] at hi
            simp at hi
            exact .inr (.inr hi)
          · exact .inr (.inl ((hheld _).2 (.inr (.inl ⟨i, hii, hi⟩))))
        · exact .inr (.inl ((hheld _).2 (.inr (.inr (.inl h1)))))
        · exact .inr (.inl ((hheld _).2 (.inr (.inr (.inr h1))))))
  have harena : (s1.reclaim old).arena = s.arena.set index (some b) := by rw [reclaim_arena, ← hs1]
  have hker : (s1.reclaim old).kernel = s.kernel := by rw [reclaim_kernel, ← hs1]; rfl
  have htak : (s1.reclaim old).taken = s.taken := by rw [reclaim_taken, ← hs1]; rfl
  have hinj : ∀ (i j : Nat) (x : Buf), (s.arena.set index (some b))[i]? = some (some x) →
      (s.arena.set index (some b))[j]? = some (some x) → i = j := by
    intro i j x hi hj
    rw [hget] at hi hj
    by_cases h1 : i = index <;> by_cases h2 : j = index
    · rw [h1, h2]
    · rw [if_pos h1] at hi; rw [if_neg h2] at hj
      simp at hi; subst hi
      exact absurd (List.mem_of_getElem? hj) hbn.1
    · rw [if_neg h1] at hi; rw [if_pos h2] at hj
      simp at hj; subst hj
      exact absurd (List.mem_of_getElem? hi) hbn.1
    · rw [if_neg h1] at hi; rw [if_neg h2] at hj
      exact hc.inj i j x hi hj
  have hsame : Same s (s1.reclaim old) := by
    constructor <;> simp <;> rw [← hs1]
  have hheld2 : ∀ x, (s1.reclaim old).held x = s1.held x := fun x => reclaim_held s1 old x
  have hcore : Core n (s1.reclaim old) :=
    { len := by rw [harena]; simpa using hc.len
      nodup := hfr.1
      apart := fun x hx => by rw [hheld2]; exact hfr.2.1 x hx
      all := fun x hx => by rw [hheld2]; exact hfr.2.2 x hx
      inj := by rw [harena]; exact hinj
      idx := by rw [htak]; exact hc.idx
      bufs := by rw [hker]; exact hc.bufs
      out := by rw [hker, hsame.msg, hsame.kept]; exact hc.out
      mem := by rw [hsame.done, hsame.mem]; exact hc.mem }
  have hb' : (s1.reclaim old).arena[index]? = some (some b) := by rw [harena, hget, if_pos rfl]
  have hoth : ∀ i, i ≠ index → (s1.reclaim old).arena[i]? = s.arena[i]? := by
    intro i hi; rw [harena, hget, if_neg hi]
  have hq0 : (s1.reclaim old).queued = s.queued := by rw [reclaim_queued, ← hs1]
  have hcoh' : Coherent (s1.reclaim old) (· = index) := by
    intro i x hx hi
    rw [hker] at hx
    rw [hoth i hi]
    exact hcoh i x hx hi
  simp only at h
  split at h
  · rename_i hcond
    have hni : index ∉ s.taken := by rw [← htak]; exact hcond.2
    simp only [Rs.ok.injEq, Prod.mk.injEq] at h
    obtain ⟨rfl, rfl⟩ := h
    have hnk : ∀ x, (index, x) ∉ s.kernel := by
      intro x hx
      exact hni (by rw [taken_eq]; exact List.mem_map.2 ⟨_, hx, rfl⟩)
    have hbk : ∀ i, (i, b) ∉ s.kernel := by
      intro i hi
      by_cases hii : i = index
      · subst hii; exact hnk b hi
      · exact hbn.1 (List.mem_of_getElem? (hcoh i b hi hii))
    have hk2 : ({ s1.reclaim old with queued := (s1.reclaim old).queued ++ [(index, b)] } : Cam D).kernel.Perm
        ((index, b) :: s.kernel) := by
      have : (s1.reclaim old).kernel = s.kernel := hker
      simp only [Cam.kernel, reclaim_queued, reclaim_done] at this ⊢
      rw [← this, List.append_assoc]
      exact List.perm_middle
    refine ⟨?_, ⟨hsame.last, hsame.active, hsame.offset, hsame.mem, hsame.msg, hsame.kept, hsame.done⟩,
      .inl ⟨rfl, hni, ?_, b, by rw [hq0]⟩, ⟨b, hb', hbf⟩, hoth⟩
    · refine { len := hcore.len, nodup := hcore.nodup, apart := hcore.apart, all := hcore.all, inj := hcore.inj,
               idx := ?_, bufs := ?_, out := ?_, mem := hcore.mem }
      · rw [taken_eq]
        refine ((hk2.map Prod.fst).nodup_iff).2 ?_
        rw [List.map_cons, ← taken_eq]
        exact List.nodup_cons.2 ⟨hni, hc.idx⟩
      · refine ((hk2.map Prod.snd).nodup_iff).2 ?_
        rw [List.map_cons]
        refine List.nodup_cons.2 ⟨?_, hc.bufs⟩
        intro hh
        obtain ⟨⟨i, x⟩, hx, rfl⟩ := List.mem_map.1 hh
        exact hbk i hx
      · intro i x hx
        rcases List.mem_cons.1 (hk2.mem_iff.1 hx) with h | h
        · cases h
          rw [hsame.msg, hsame.kept]
          exact hbn.2
        · have := hc.out i x h
          rw [hsame.msg, hsame.kept]
          exact this
    · intro i x hx _
      rcases List.mem_cons.1 (hk2.mem_iff.1 hx) with h | h
      · cases h; exact hb'
      · by_cases hii : i = index
        · subst hii; exact absurd h (hnk x)
        · exact (hoth i hii).trans (hcoh i x h hii)
  · rename_i hcond
    simp only [Rs.ok.injEq, Prod.mk.injEq] at h
    obtain ⟨rfl, rfl⟩ := h
    have hi : index ∈ s.taken := by
      refine Decidable.byContradiction fun hh => ?_
      exact hcond ⟨by have := hc.len; omega, by rw [htak]; exact hh⟩
    exact ⟨hcore, hsame, .inr ⟨rfl, hi, hcoh', hq0⟩, ⟨b, hb', hbf⟩, hoth⟩


theorem queueAll_spec {n G : Nat} (hG : n ≤ G) : ∀ (l : List Nat) {s : Cam D}, Core n s →
    Coherent s (fun _ => False) → l.Nodup → (∀ i ∈ l, i ∉ s.taken) → ∀ {s' : Cam D} {ok : Bool},
    s.queueAll G l = .ok (s', ok) →
    ok = true ∧ Core n s' ∧ Coherent s' (fun _ => False) ∧ Same s s' ∧ s'.queued.length = s.queued.length + l.length ∧
    (∀ i ∈ s'.taken, i ∈ s.taken ∨ i ∈ l)
  | [], s, hc, hcoh, _, _, s', ok, h => by
    simp only [Cam.queueAll, Rs.ok.injEq, Prod.mk.injEq] at h
    obtain ⟨rfl, rfl⟩ := h
    exact ⟨rfl, hc, hcoh, ⟨rfl, rfl, rfl, rfl, rfl, rfl, rfl⟩, rfl, fun i hi => .inl hi⟩
  | i :: l, s, hc, hcoh, hn, hf, s', ok, h => by
    unfold Cam.queueAll at h
    split at h
    · cases h
    · rename_i s1 h1
      obtain ⟨-, -, h2, -, -⟩ := queue_spec hG hc (fun j b hj _ => hcoh j b hj id) h1
      rcases h2 with ⟨h2, -⟩ | ⟨-, h2, -⟩
      · cases h2
      · exact absurd h2 (hf i (by simp))
    · rename_i s1 h1
      obtain ⟨hc1, hsame, h2, -, -⟩ := queue_spec hG hc (fun j b hj _ => hcoh j b hj id) h1
      rcases h2 with ⟨-, h2, h3, b, h4⟩ | ⟨h2, -⟩
      · have ht : ∀ j, j ∈ s1.taken ↔ j ∈ s.taken ∨ j = i := by
          intro j
          simp only [Cam.taken, h4, hsame.done, List.map_append, List.map_cons, List.map_nil, List.mem_append,
            List.mem_cons, List.not_mem_nil, or_false]
          constructor
          · rintro ((h | h) | h)
            · exact .inl (.inl h)
            · exact .inr h
            · exact .inl (.inr h)
          · rintro ((h | h) | h)
            · exact .inl (.inl h)
            · exact .inr h
            · exact .inl (.inr h)
        obtain ⟨r1, r2, r3, r4, r5, r6⟩ := queueAll_spec hG l hc1 h3 (List.nodup_cons.1 hn).2
          (by
            intro j hj hh
            rcases (ht j).1 hh with h | h
            · exact hf j (by simp [hj]) h
            · subst h; exact (List.nodup_cons.1 hn).1 hj) h
        refine ⟨r1, r2, r3, ⟨r4.last.trans hsame.last, r4.active.trans hsame.active, r4.offset.trans hsame.offset,
          r4.mem.trans hsame.mem, r4.msg.trans hsame.msg, r4.kept.trans hsame.kept, r4.done.trans hsame.done⟩, ?_, ?_⟩
        · rw [r5, h4]; simp; omega
        · intro j hj
          rcases r6 j hj with h | h
          · rcases (ht j).1 h with h | h
            · exact .inl h
            · exact .inr (by simp [h])
          · exact .inr (by simp [h])
      · cases h2

theorem write_same (mem : Buf → D) {b x : Buf} (d : D) (h : x ≠ b) : write mem b d x = mem x := by
  simp [write, h]

/-- A capture moves a buffer within the kernel. -/
theorem capture_spec {n : Nat} {s : Cam D} (hc : Core n s) (f : Frame D) :
    Core n (s.capture f) ∧ (s.capture f).kernel.Perm s.kernel ∧ (s.capture f).arena = s.arena ∧
    (s.capture f).last = s.last ∧ (s.capture f).active = s.active ∧ (s.capture f).offset = s.offset ∧
    (s.capture f).msg = s.msg ∧ (s.capture f).kept = s.kept ∧
    (∀ b, (s.capture f).mem b ≠ s.mem b → ∃ i, (i, b) ∈ s.queued) := by
  unfold Cam.capture
  split
  case isFalse => exact ⟨hc, .refl _, rfl, rfl, rfl, rfl, rfl, rfl, fun b h => absurd rfl h⟩
  cases hq : s.queued with
  | nil => exact ⟨hc, .refl _, rfl, rfl, rfl, rfl, rfl, rfl, fun b h => absurd rfl h⟩
  | cons p rest =>
    obtain ⟨i, b⟩ := p
    have hp : ({ s with queued := rest, done := s.done ++ [(i, b, f)], mem := write s.mem b f.data } : Cam D).kernel.Perm
        s.kernel := by
      simp only [Cam.kernel, hq, List.map_append, List.map_cons, List.map_nil, List.cons_append]
      rw [← List.append_assoc]
      exact List.perm_append_singleton _ _
    refine ⟨?_, hp, rfl, rfl, rfl, rfl, rfl, rfl, ?_⟩
    · refine { len := hc.len, nodup := hc.nodup, apart := hc.apart, all := hc.all, inj := hc.inj, idx := ?_,
               bufs := ((hp.map _).nodup_iff).2 hc.bufs, out := fun j x hx => hc.out j x (hp.mem_iff.1 hx), mem := ?_ }
      · rw [taken_eq]; exact ((hp.map _).nodup_iff).2 (by rw [← taken_eq]; exact hc.idx)
      · intro j x g hg
        have hg0 : (j, x, g) ∈ s.done ++ [(i, b, f)] := hg
        clear hg
        rcases List.mem_append.1 hg0 with hg | hg
        · have hne : x ≠ b := by
            rintro rfl
            have hb := hc.bufs
            simp only [Cam.kernel, hq, List.map_append, List.map_cons, List.cons_append] at hb
            refine (List.nodup_cons.1 hb).1 (List.mem_append.2 (.inr ?_))
            exact List.mem_map.2 ⟨(j, x), List.mem_map.2 ⟨(j, x, g), hg, rfl⟩, rfl⟩
          show write s.mem b f.data x = _
          rw [write_same _ _ hne]
          exact hc.mem j x g hg
        · simp only [List.mem_cons, List.not_mem_nil, or_false, Prod.mk.injEq] at hg
          obtain ⟨rfl, rfl, rfl⟩ := hg
          simp [write]
    · intro x hx
      by_cases hxb : x = b
      · subst hxb; exact ⟨i, by simp⟩
      · exact absurd (write_same _ _ hxb) hx

theorem coherent_perm {s s' : Cam D} {skip : Nat → Prop} (h : Coherent s skip) (hp : s'.kernel.Perm s.kernel)
    (ha : s'.arena = s.arena) : Coherent s' skip :=
  fun i b hi hs => by rw [ha]; exact h i b (hp.mem_iff.1 hi) hs

theorem captures_spec {n : Nat} : ∀ (fs : List (Frame D)) {s : Cam D}, Core n s →
    Core n (fs.foldl Cam.capture s) ∧ (fs.foldl Cam.capture s).kernel.Perm s.kernel ∧
    (fs.foldl Cam.capture s).arena = s.arena ∧
    (fs.foldl Cam.capture s).last = s.last ∧ (fs.foldl Cam.capture s).active = s.active ∧
    (fs.foldl Cam.capture s).offset = s.offset ∧
    (fs.foldl Cam.capture s).msg = s.msg ∧ (fs.foldl Cam.capture s).kept = s.kept ∧
    (∀ b, (fs.foldl Cam.capture s).mem b ≠ s.mem b → ∃ i, (i, b) ∈ s.kernel)
  | [], s, hc => ⟨hc, .refl _, rfl, rfl, rfl, rfl, rfl, rfl, fun b h => absurd rfl h⟩
  | f :: fs, s, hc => by
    obtain ⟨c1, c2, c3, c4, c5, c6, c7, c8, c9⟩ := capture_spec hc f
    obtain ⟨d1, d2, d3, d4, d5, d6, d7, d8, d9⟩ := captures_spec fs c1
    refine ⟨d1, d2.trans c2, d3.trans c3, d4.trans c4, d5.trans c5, d6.trans c6, d7.trans c7, d8.trans c8, ?_⟩
    intro b hb
    by_cases h : (s.capture f).mem b = s.mem b
    · obtain ⟨i, hi⟩ := d9 b (by rw [h]; exact hb)
      exact ⟨i, c2.mem_iff.1 hi⟩
    · obtain ⟨i, hi⟩ := c9 b h
      exact ⟨i, List.mem_append_left _ hi⟩

/-- The view of a state. -/
structure Rel (n : Nat) (s : Cam D) (v : View D) : Prop where
  core : Core n s
  coh : Coherent s (· = s.last)
  idle : s.active = false → s.kernel = []
  running : v.running = s.active
  offset : v.offset = s.offset
  stuck : s.active = true → (v.stuck = true ↔ s.last ∈ s.taken)
  room : s.active = true → v.room = s.queued.length
  waiting : s.active = true → v.waiting = s.done.map (fun x => x.2.2)

/-- What a frame does to both. -/
theorem capture_view {s : Cam D} {v : View D} (f : Frame D) (h1 : v.running = s.active)
    (h2 : s.active = true → v.room = s.queued.length) (h3 : s.active = true → v.waiting = s.done.map (fun x => x.2.2)) :
    (v.capture f).running = (s.capture f).active ∧ (v.capture f).stuck = v.stuck ∧ (v.capture f).offset = v.offset ∧
    ((s.capture f).active = true → (v.capture f).room = (s.capture f).queued.length) ∧
    ((s.capture f).active = true → (v.capture f).waiting = (s.capture f).done.map (fun x => x.2.2)) := by
  unfold Cam.capture View.capture
  cases ha : s.active with
  | false =>
    rw [ha] at h1
    simp [h1, ha]
  | true =>
    rw [ha] at h1
    have h2 := h2 ha
    have h3 := h3 ha
    cases hq : s.queued with
    | nil =>
      simp only [hq, List.length_nil] at h2
      simp [h1, h2, h3, ha, hq]
    | cons p rest =>
      simp only [hq, List.length_cons] at h2
      simp [h1, h2, h3]

theorem captures_view : ∀ (fs : List (Frame D)) {s : Cam D} {v : View D}, v.running = s.active →
    (s.active = true → v.room = s.queued.length) → (s.active = true → v.waiting = s.done.map (fun x => x.2.2)) →
    (fs.foldl View.capture v).running = (fs.foldl Cam.capture s).active ∧
    (fs.foldl View.capture v).stuck = v.stuck ∧ (fs.foldl View.capture v).offset = v.offset ∧
    ((fs.foldl Cam.capture s).active = true → (fs.foldl View.capture v).room = (fs.foldl Cam.capture s).queued.length) ∧
    ((fs.foldl Cam.capture s).active = true →
      (fs.foldl View.capture v).waiting = (fs.foldl Cam.capture s).done.map (fun x => x.2.2))
  | [], _, _, h1, h2, h3 => ⟨h1, rfl, rfl, h2, h3⟩
  | f :: fs, s, v, h1, h2, h3 => by
    obtain ⟨a1, a2, a3, a4, a5⟩ := capture_view f h1 h2 h3
    obtain ⟨b1, b2, b3, b4, b5⟩ := captures_view fs a1 a4 a5
    exact ⟨b1, b2.trans a2, b3.trans a3, b4, b5⟩

/-- Other holders change. -/
theorem core_holders {n : Nat} {s : Cam D} (hc : Core n s) (msg : Option Buf) (kept : List Buf) (o : Option Buf)
    (hsub : ∀ b, msg = some b ∨ b ∈ kept → s.held b = true)
    (hnk : ∀ (i : Nat) (b : Buf), (i, b) ∈ s.kernel → msg ≠ some b ∧ b ∉ kept)
    (ho : ∀ b, o = some b → s.held b = true)
    (hgone : ∀ b, s.held b = true → some b ∈ s.arena ∨ msg = some b ∨ b ∈ kept ∨ o = some b) :
    Core n (({ s with msg := msg, kept := kept } : Cam D).reclaim o) := by
  have hold : ∀ b, ({ s with msg := msg, kept := kept } : Cam D).held b = true ↔
      some b ∈ s.arena ∨ msg = some b ∨ b ∈ kept := fun b => held_iff _ b
  have hfr := reclaim_free (s := ({ s with msg := msg, kept := kept } : Cam D)) (o := o) (n := n + 1) hc.nodup
    (by
      intro b hb
      rw [← Bool.not_eq_true, hold]
      have hf := hc.apart b hb
      intro h
      have : s.held b = true := by
        rcases h with h | h | h
        · exact (held_iff s b).2 (.inl h)
        · exact hsub b (.inl h)
        · exact hsub b (.inr h)
      rw [hf] at this; cases this)
    (by
      intro b hb hbf
      have := ho b hb
      rw [hc.apart b hbf] at this; cases this)
    (by
      intro b hb
      rcases hc.all b hb with h | h
      · exact .inl h
      · rcases hgone b h with h | h | h | h
        · exact .inr (.inl ((hold b).2 (.inl h)))
        · exact .inr (.inl ((hold b).2 (.inr (.inl h))))
        · exact .inr (.inl ((hold b).2 (.inr (.inr h))))
        · exact .inr (.inr h))
  exact
    { len := by simpa using hc.len
      nodup := hfr.1
      apart := fun b hb => by rw [reclaim_held]; exact hfr.2.1 b hb
      all := fun b hb => by rw [reclaim_held]; exact hfr.2.2 b hb
      inj := by simpa using hc.inj
      idx := by rw [reclaim_taken]; exact hc.idx
      bufs := by rw [reclaim_kernel]; exact hc.bufs
      out := by rw [reclaim_kernel, reclaim_msg, reclaim_kept]; exact hnk
      mem := by simpa using hc.mem }


theorem rel_new (n : Nat) (d : D) : Rel n (Cam.new n d) View.new := by
  refine ⟨⟨by simp [Cam.new], List.nodup_range, ?_, ?_, ?_, by simp [Cam.new, Cam.taken], by simp [Cam.new, Cam.kernel],
    by simp [Cam.new, Cam.kernel], by simp [Cam.new]⟩, ?_, fun _ => rfl, rfl, rfl, ?_, ?_, ?_⟩
  · intro b _
    rw [held_false]
    simp [Cam.new, List.mem_replicate]
  · intro b hb
    exact .inl (by simpa [Cam.new] using hb)
  · intro i j b hi
    simp [Cam.new, List.getElem?_replicate] at hi
  · intro i b hi
    simp [Cam.new, Cam.kernel] at hi
  all_goals intro h; simp [Cam.new] at h

/-- The end of a call of `process`: the buffer leaves the kernel and becomes the image of the message. -/
theorem rel_process {n G : Nat} (hG : n ≤ G) {s s' : Cam D} {v : View D} {o : Out D} (hr : Rel n s v)
    (arrivals : List (Frame D)) (h : s.process G arrivals = .ok (s', o)) :
    Rel n s' (v.process arrivals).1 ∧ o = (v.process arrivals).2 ∧ s'.active = s.active ∧ s'.kept = s.kept ∧
    (∀ b, s'.mem b ≠ s.mem b → (∃ i, (i, b) ∈ s.kernel) ∨ b ∈ s.free) ∧
    (∀ b, s'.msg = some b → s.msg = some b ∨ some b ∈ s'.arena) ∧
    (∀ d t, o = .image d t → ∃ b, s'.msg = some b ∧ s'.mem b = d ∧ some b ∈ s'.arena) := by
  unfold Cam.process at h
  unfold View.process
  cases ha : s.active with
  | false =>
    simp only [ha, if_true] at h
    simp only [Rs.ok.injEq, Prod.mk.injEq] at h
    obtain ⟨rfl, rfl⟩ := h
    have : v.running = false := by rw [hr.running, ha]
    simp only [this, true_or, if_true]
    refine ⟨hr, trivial, ha, trivial, fun b hb => absurd rfl hb, fun b hb => .inl hb, fun d t hd => by cases hd⟩
  | true =>
    have hrun : v.running = true := by rw [hr.running, ha]
    simp only [ha, Bool.true_eq_false, if_false] at h
    split at h
    · cases h
    · rename_i s1 h1
      simp only [Rs.ok.injEq, Prod.mk.injEq] at h
      obtain ⟨rfl, rfl⟩ := h
      obtain ⟨hc1, hsame, h2, -, -⟩ := queue_spec hG hr.core hr.coh h1
      rcases h2 with ⟨h2, -⟩ | ⟨-, h2, h3, h4⟩
      · cases h2
      have hst : v.stuck = true := (hr.stuck ha).2 h2
      simp only [hst, or_true, if_true]
      have htak : s1.taken = s.taken := by simp only [Cam.taken, h4, hsame.done]
      refine ⟨?_, trivial, hsame.active.trans ha, hsame.kept, fun b hb => absurd (by rw [hsame.mem]) hb,
        fun b hb => .inl (by rw [← hsame.msg]; exact hb), fun d t hd => by cases hd⟩
      exact
        { core := hc1
          coh := by rw [hsame.last]; exact h3
          idle := by rw [hsame.active, ha]; intro h; cases h
          running := by rw [hsame.active]; exact hr.running
          offset := by rw [hsame.offset]; exact hr.offset
          stuck := by rw [hsame.active, hsame.last, htak]; exact hr.stuck
          room := by rw [hsame.active, h4]; exact hr.room
          waiting := by rw [hsame.active, hsame.done]; exact hr.waiting }
    · rename_i s1 h1
      obtain ⟨hc1, hsame, h2, ⟨nb, hnb, hnbf⟩, hoth⟩ := queue_spec hG hr.core hr.coh h1
      rcases h2 with ⟨-, h2, h3, b1, h4⟩ | ⟨h2, -⟩
      case inr => cases h2
      have hst : v.stuck = false := by
        cases hv : v.stuck with
        | false => rfl
        | true => exact absurd ((hr.stuck ha).1 hv) h2
      have hcond : ¬ (v.running = false ∨ v.stuck = true) := by simp [hrun, hst]
      simp only [hcond, if_false]
      obtain ⟨c1, c2, c3, c4, c5, c6, c7, c8, c9⟩ := captures_spec arrivals hc1
      obtain ⟨d1, d2, d3, d4, d5⟩ := captures_view arrivals (s := s1) (v := { v with room := v.room + 1 })
        (by simpa [hsame.active] using hr.running)
        (by intro _; simp only [h4, List.length_append, List.length_cons, List.length_nil]; rw [hr.room ha])
        (by intro _; simp only [hsame.done]; exact hr.waiting ha)
      generalize hs2 : arrivals.foldl Cam.capture s1 = s2 at *
      generalize hv2 : arrivals.foldl View.capture { v with room := v.room + 1 } = v2 at *
      have hact : s2.active = true := by rw [c5, hsame.active]; exact ha
      have hcoh2 : Coherent s2 (fun _ => False) := coherent_perm h3 c2 c3
      have hker1 : ∀ i x, (i, x) ∈ s1.kernel → (i, x) ∈ s.kernel ∨ (i = s.last ∧ x = b1) := by
        intro i x hx
        simp only [Cam.kernel, h4, hsame.done, List.mem_append, List.mem_cons, List.not_mem_nil, or_false, Prod.mk.injEq] at hx ⊢
        rcases hx with (hx | hx) | hx
        · exact .inl (.inl hx)
        · exact .inr hx
        · exact .inl (.inr hx)
      have hb1 : b1 = nb := by
        have : (s.last, b1) ∈ s1.kernel := by simp [Cam.kernel, h4]
        have := h3 _ _ this id
        rw [hnb] at this
        simpa using this.symm
      have hmem : ∀ b, s2.mem b ≠ s.mem b → (∃ i, (i, b) ∈ s.kernel) ∨ b ∈ s.free := by
        intro b hb
        rw [← hsame.mem] at hb
        obtain ⟨i, hi⟩ := c9 b hb
        rcases hker1 i b hi with h | ⟨-, h⟩
        · exact .inl ⟨i, h⟩
        · rw [hb1] at h; subst h; exact .inr hnbf
      have hlast : s.last ∈ s2.taken := by
        rw [taken_eq]
        refine List.mem_map.2 ⟨(s.last, b1), c2.mem_iff.2 ?_, rfl⟩
        simp [Cam.kernel, h4]
      cases hd : s2.done with
      | nil =>
        rw [hd] at h d5
        simp only [Rs.ok.injEq, Prod.mk.injEq] at h
        obtain ⟨rfl, rfl⟩ := h
        have hw : v2.waiting = [] := d5 hact
        simp only [hw]
        refine ⟨?_, trivial, hact, by rw [c8, hsame.kept], hmem,
          fun b hb => .inl (by rw [← hsame.msg, ← c7]; exact hb), fun d t hd => by cases hd⟩
        exact
          { core := c1
            coh := fun i b hi _ => hcoh2 i b hi id
            idle := by rw [hact]; intro h; cases h
            running := d1
            offset := by rw [c6, hsame.offset]; exact d3.trans hr.offset
            stuck := by
              intro _
              simp only [true_iff]
              rw [c4, hsame.last]
              exact hlast
            room := d4
            waiting := by intro _; simp [hd] }
      | cons x done =>
        obtain ⟨i, b, f⟩ := x
        rw [hd] at h d5
        have hw : v2.waiting = f :: done.map (fun x => x.2.2) := d5 hact
        simp only [hw]
        have hib : (i, b) ∈ s2.kernel := by simp [Cam.kernel, hd]
        have harena := hcoh2 i b hib id
        simp only [harena] at h
        have hmb : s2.mem b = f.data := c1.mem i b f (by simp [hd])
        -- the state without the frame
        have hker3 : s2.kernel.Perm ((i, b) :: ({ s2 with done := done, last := i } : Cam D).kernel) := by
          simp only [Cam.kernel, hd, List.map_cons]
          exact List.perm_middle
        have hnd := (hker3.map Prod.fst).nodup_iff.1 (by rw [← taken_eq]; exact c1.idx)
        have hndb := (hker3.map Prod.snd).nodup_iff.1 c1.bufs
        rw [List.map_cons] at hnd hndb
        have hsub3 : ∀ j x, (j, x) ∈ ({ s2 with done := done, last := i } : Cam D).kernel → (j, x) ∈ s2.kernel :=
          fun j x hx => hker3.mem_iff.2 (by simp [hx])
        have core3 : Core n ({ s2 with done := done, last := i } : Cam D) :=
          { len := c1.len, nodup := c1.nodup, apart := c1.apart, all := c1.all, inj := c1.inj
            idx := by rw [taken_eq]; exact (List.nodup_cons.1 hnd).2
            bufs := (List.nodup_cons.1 hndb).2
            out := fun j x hx => c1.out j x (hsub3 j x hx)
            mem := fun j x g hg => c1.mem j x g (by rw [hd]; exact List.mem_cons_of_mem _ hg) }
        have hnotin : i ∉ ({ s2 with done := done, last := i } : Cam D).taken := by
          rw [taken_eq]; exact (List.nodup_cons.1 hnd).1
        have rel3 : Rel n ({ s2 with done := done, last := i } : Cam D)
            { v2 with waiting := done.map (fun x => x.2.2) } :=
          { core := core3
            coh := fun j x hj _ => hcoh2 j x (hsub3 j x hj) id
            idle := by simp only [hact]; intro h; cases h
            running := d1
            offset := by simp only [c6, hsame.offset]; exact d3.trans hr.offset
            stuck := by
              intro _
              simp only [d2, hst, Bool.false_eq_true, false_iff]
              exact hnotin
            room := d4
            waiting := fun _ => rfl }
        by_cases hu : f.used = 0
        · simp only [hu, ne_eq, not_true_eq_false, if_false, Rs.ok.injEq, Prod.mk.injEq] at h
          obtain ⟨rfl, rfl⟩ := h
          simp only [hu, if_true]
          exact ⟨rel3, trivial, hact, by simp only [c8, hsame.kept], hmem,
            fun b hb => .inl (by rw [← hsame.msg, ← c7]; exact hb), fun d t hd => by cases hd⟩
        · simp only [hu, ne_eq, not_false_eq_true, if_true, Rs.ok.injEq, Prod.mk.injEq] at h
          obtain ⟨rfl, rfl⟩ := h
          simp only [hu, if_false]
          have hbm : some b ∈ s2.arena := List.mem_of_getElem? harena
          have core4 : Core n (({ s2 with done := done, last := i, msg := some b } : Cam D).reclaim s2.msg) := by
            have := core_holders core3 (some b) s2.kept s2.msg
              (by
                rintro x (hx | hx)
                · cases hx; exact (held_iff _ _).2 (.inl hbm)
                · exact (held_iff _ _).2 (.inr (.inr hx)))
              (by
                intro j x hx
                refine ⟨?_, (core3.out j x hx).2⟩
                rintro ⟨⟩
                refine (List.nodup_cons.1 hndb).1 (List.mem_map.2 ⟨(j, b), hx, rfl⟩))
              (by intro x hx; exact (held_iff _ _).2 (.inr (.inl hx)))
              (by
                intro x hx
                rcases (held_iff _ _).1 hx with h | h | h
                · exact .inl h
                · exact .inr (.inr (.inr h))
                · exact .inr (.inr (.inl h)))
            exact this
          refine ⟨?_, ?_, ?_, ?_, ?_, ?_, ?_⟩
          · exact
              { core := core4
                coh := by
                  intro j x hj hne
                  rw [reclaim_kernel] at hj
                  rw [reclaim_arena]
                  exact hcoh2 j x (hsub3 j x hj) id
                idle := by rw [reclaim_active]; simp only [hact]; intro h; cases h
                running := by rw [reclaim_active]; exact rel3.running
                offset := by rw [reclaim_offset]; exact rel3.offset
                stuck := by
                  rw [reclaim_active, reclaim_last, reclaim_taken]; exact rel3.stuck
                room := by rw [reclaim_active, reclaim_queued]; exact rel3.room
                waiting := by rw [reclaim_active, reclaim_done]; exact rel3.waiting }
          · rw [hmb, c6, hsame.offset, d3, hr.offset]
          · rw [reclaim_active]; exact hact
          · rw [reclaim_kept]; simp only [c8, hsame.kept]
          · rw [reclaim_mem]; exact hmem
          · intro x hx
            rw [reclaim_msg] at hx
            cases hx
            rw [reclaim_arena]
            exact .inr hbm
          · intro d t hd
            simp only [Out.image.injEq] at hd
            refine ⟨b, by rw [reclaim_msg], ?_, by rw [reclaim_arena]; exact hbm⟩
            rw [reclaim_mem]
            exact hd.1


/-- Whether the source runs after an event. -/
def Event.runs (a : Bool) : Event D → Bool
  | .start _ _ => true
  | .stop => false
  | _ => a

/-- What a step does to the view, and to images somebody has. -/
theorem rel_step {n G : Nat} (hG : n ≤ G) {s s' : Cam D} {v : View D} {o : Out D} (hr : Rel n s v) (e : Event D)
    (hs : ∀ m r, e = .start m r → s.active = false) (h : s.step G e = .ok (s', o)) :
    Rel n s' (v.step n e).1 ∧ o = (v.step n e).2 ∧
    (∀ b, s.msg = some b ∨ b ∈ s.kept → s'.mem b = s.mem b) ∧
    s'.active = e.runs s.active := by
  cases e with
  | start m r =>
    have ha := hs m r rfl
    have hk := hr.idle ha
    unfold Cam.step at h
    simp only [View.step]
    have hc0 : Core n ({ s with offset := (m : Int) - r } : Cam D) :=
      { len := hr.core.len, nodup := hr.core.nodup, apart := hr.core.apart, all := hr.core.all, inj := hr.core.inj,
        idx := hr.core.idx, bufs := hr.core.bufs, out := hr.core.out, mem := hr.core.mem }
    have hk0 : ({ s with offset := (m : Int) - r } : Cam D).kernel = [] := hk
    have hq0 : s.queued = [] := (List.append_eq_nil_iff.1 hk).1
    have hd0 : s.done = [] := by
      have := (List.append_eq_nil_iff.1 hk).2
      simpa using this
    simp only [Cam.start] at h
    cases hq : ({ s with offset := (m : Int) - r } : Cam D).queueAll G (List.range' 1 (s.arena.length - 1)) with
    | panic => rw [hq] at h; cases h
    | ok x =>
      obtain ⟨s1, ok⟩ := x
      obtain ⟨rfl, r2, r3, r4, r5, r6⟩ := queueAll_spec hG _ hc0 (fun i b hi _ => by rw [hk0] at hi; cases hi)
        List.nodup_range' (fun i _ hi => by rw [taken_eq, hk0] at hi; cases hi) hq
      rw [hq] at h
      simp only [if_true, Rs.ok.injEq, Prod.mk.injEq] at h
      obtain ⟨rfl, rfl⟩ := h
      have hlen : s1.queued.length = n - 1 := by
        rw [r5]
        simp only [hq0, List.length_nil, List.length_range', hr.core.len]
        omega
      refine ⟨?_, rfl, fun b _ => by rw [show ({ s1 with last := 0, active := true } : Cam D).mem = s1.mem from rfl, r4.mem], rfl⟩
      exact
        { core := { len := r2.len, nodup := r2.nodup, apart := r2.apart, all := r2.all, inj := r2.inj,
                    idx := r2.idx, bufs := r2.bufs, out := r2.out, mem := r2.mem }
          coh := fun i b hi _ => r3 i b hi id
          idle := fun h => by cases h
          running := rfl
          offset := r4.offset.symm
          stuck := by
            intro _
            simp only [Bool.false_eq_true, false_iff]
            intro hh
            rcases r6 0 hh with h | h
            · rw [taken_eq, hk0] at h; cases h
            · have := (List.mem_range'_1.1 h).1; omega
          room := fun _ => hlen.symm
          waiting := by
            intro _
            have : s1.done = [] := r4.done.trans hd0
            simp [this] }
  | stop =>
    simp only [Cam.step, Rs.ok.injEq, Prod.mk.injEq] at h
    obtain ⟨rfl, rfl⟩ := h
    refine ⟨?_, rfl, fun _ _ => rfl, rfl⟩
    exact
      { core := { len := hr.core.len, nodup := hr.core.nodup, apart := hr.core.apart, all := hr.core.all,
                  inj := hr.core.inj, idx := List.nodup_nil, bufs := List.nodup_nil, out := (fun i b hi => by cases hi),
                  mem := (fun i b f hi => by cases hi) }
        coh := fun i b hi _ => by cases hi
        idle := fun _ => rfl
        running := rfl
        offset := hr.offset
        stuck := fun h => by cases h
        room := fun h => by cases h
        waiting := fun h => by cases h }
  | process arrivals =>
    obtain ⟨h1, h2, h3, -, h4, -, -⟩ := rel_process hG hr arrivals h
    refine ⟨h1, h2, ?_, h3⟩
    intro b hb
    refine Classical.byContradiction fun hne => ?_
    rcases h4 b hne with ⟨i, hi⟩ | hf
    · have := hr.core.out i b hi
      rcases hb with hb | hb
      · exact this.1 hb
      · exact this.2 hb
    · have := (held_false s b).1 (hr.core.apart b hf)
      rcases hb with hb | hb
      · exact this.2.1 hb
      · exact this.2.2 hb
  | capture f =>
    simp only [Cam.step, Rs.ok.injEq, Prod.mk.injEq] at h
    obtain ⟨rfl, rfl⟩ := h
    obtain ⟨c1, c2, c3, c4, c5, c6, c7, c8, c9⟩ := capture_spec hr.core f
    obtain ⟨d1, d2, d3, d4, d5⟩ := capture_view f hr.running hr.room hr.waiting
    refine ⟨?_, rfl, ?_, c5⟩
    · exact
        { core := c1
          coh := by rw [c4]; exact coherent_perm hr.coh c2 c3
          idle := by
            rw [c5]; intro h
            have := hr.idle h
            rw [this] at c2
            exact c2.eq_nil
          running := d1
          offset := by rw [c6]; exact d3.trans hr.offset
          stuck := by
            rw [c5, c4]
            intro h
            show (v.capture f).stuck = true ↔ _
            rw [d2, hr.stuck h, taken_eq, taken_eq]
            exact ((c2.map Prod.fst).mem_iff).symm
          room := d4
          waiting := d5 }
    · intro b hb
      refine Classical.byContradiction fun hne => ?_
      obtain ⟨i, hi⟩ := c9 b hne
      have := hr.core.out i b (List.mem_append_left _ hi)
      rcases hb with hb | hb
      · exact this.1 hb
      · exact this.2 hb
  | scribble k d =>
    simp only [Cam.step, Rs.ok.injEq, Prod.mk.injEq] at h
    obtain ⟨rfl, rfl⟩ := h
    unfold Cam.scribble
    cases hk : s.queued[k]? with
    | none => exact ⟨hr, rfl, fun _ _ => rfl, rfl⟩
    | some p =>
      obtain ⟨i, b⟩ := p
      have hq : (i, b) ∈ s.queued := List.mem_of_getElem? hk
      refine ⟨?_, rfl, ?_, rfl⟩
      · exact
          { core := { len := hr.core.len, nodup := hr.core.nodup, apart := hr.core.apart, all := hr.core.all,
                      inj := hr.core.inj, idx := hr.core.idx, bufs := hr.core.bufs, out := hr.core.out,
                      mem := by
                        intro j x f hf
                        have hne : x ≠ b := by
                          rintro rfl
                          have hb := hr.core.bufs
                          simp only [Cam.kernel, List.map_append] at hb
                          exact (List.nodup_append.1 hb).2.2 x (List.mem_map.2 ⟨(i, x), hq, rfl⟩) x
                            (List.mem_map.2 ⟨(j, x), List.mem_map.2 ⟨(j, x, f), hf, rfl⟩, rfl⟩) rfl
                        show write s.mem b d x = _
                        rw [write_same _ _ hne]
                        exact hr.core.mem j x f hf }
            coh := hr.coh, idle := hr.idle, running := hr.running, offset := hr.offset, stuck := hr.stuck,
            room := hr.room, waiting := hr.waiting }
      · intro x hx
        have hne : x ≠ b := by
          rintro rfl
          have := hr.core.out i x (List.mem_append_left _ hq)
          rcases hx with hx | hx
          · exact this.1 hx
          · exact this.2 hx
        exact write_same _ _ hne
  | clear =>
    simp only [Cam.step, Rs.ok.injEq, Prod.mk.injEq] at h
    obtain ⟨rfl, rfl⟩ := h
    have core' := core_holders hr.core none s.kept s.msg
      (by rintro b (hb | hb)
          · cases hb
          · exact (held_iff _ _).2 (.inr (.inr hb)))
      (fun i b hi => ⟨nofun, (hr.core.out i b hi).2⟩)
      (fun b hb => (held_iff _ _).2 (.inr (.inl hb)))
      (fun b hb => by
        rcases (held_iff _ _).1 hb with h | h | h
        · exact .inl h
        · exact .inr (.inr (.inr h))
        · exact .inr (.inr (.inl h)))
    refine ⟨?_, rfl, fun b _ => by rw [reclaim_mem], by rw [reclaim_active]; rfl⟩
    exact
      { core := core'
        coh := by intro i b hi hne; rw [reclaim_kernel] at hi; rw [reclaim_arena]; rw [reclaim_last] at hne; exact hr.coh i b hi hne
        idle := by rw [reclaim_active, reclaim_kernel]; exact hr.idle
        running := by rw [reclaim_active]; exact hr.running
        offset := by rw [reclaim_offset]; exact hr.offset
        stuck := by rw [reclaim_active, reclaim_last, reclaim_taken]; exact hr.stuck
        room := by rw [reclaim_active, reclaim_queued]; exact hr.room
        waiting := by rw [reclaim_active, reclaim_done]; exact hr.waiting }
  | keep =>
    simp only [Cam.step] at h
    cases hm : s.msg with
    | none =>
      rw [hm] at h
      simp only [Rs.ok.injEq, Prod.mk.injEq] at h
      obtain ⟨rfl, rfl⟩ := h
      exact ⟨hr, rfl, fun _ _ => rfl, rfl⟩
    | some b0 =>
      rw [hm] at h
      simp only [Rs.ok.injEq, Prod.mk.injEq] at h
      obtain ⟨rfl, rfl⟩ := h
      have core' := core_holders hr.core s.msg (b0 :: s.kept) none
        (by rintro b (hb | hb)
            · exact (held_iff _ _).2 (.inr (.inl hb))
            · rcases List.mem_cons.1 hb with rfl | hb
              · exact (held_iff _ _).2 (.inr (.inl hm))
              · exact (held_iff _ _).2 (.inr (.inr hb)))
        (fun i b hi => by
          have := hr.core.out i b hi
          refine ⟨this.1, ?_⟩
          intro hh
          rcases List.mem_cons.1 hh with rfl | hh
          · exact this.1 hm
          · exact this.2 hh)
        (fun b hb => by cases hb)
        (fun b hb => by
          rcases (held_iff _ _).1 hb with h | h | h
          · exact .inl h
          · exact .inr (.inl h)
          · exact .inr (.inr (.inl (by simp [h]))))
      refine ⟨?_, rfl, fun _ _ => rfl, rfl⟩
      exact
        { core := by rw [← hm]; exact core', coh := hr.coh, idle := hr.idle, running := hr.running, offset := hr.offset,
          stuck := hr.stuck, room := hr.room, waiting := hr.waiting }
  | drop k =>
    simp only [Cam.step, Rs.ok.injEq, Prod.mk.injEq] at h
    obtain ⟨rfl, rfl⟩ := h
    have core' := core_holders hr.core s.msg (s.kept.eraseIdx k) s.kept[k]?
      (by rintro b (hb | hb)
          · exact (held_iff _ _).2 (.inr (.inl hb))
          · exact (held_iff _ _).2 (.inr (.inr (List.mem_of_mem_eraseIdx hb))))
      (fun i b hi => ⟨(hr.core.out i b hi).1, fun hh => (hr.core.out i b hi).2 (List.mem_of_mem_eraseIdx hh)⟩)
      (fun b hb => (held_iff _ _).2 (.inr (.inr (List.mem_of_getElem? hb))))
      (fun b hb => by
        rcases (held_iff _ _).1 hb with h | h | h
        · exact .inl h
        · exact .inr (.inl h)
        · obtain ⟨j, hj⟩ := List.getElem?_of_mem h
          by_cases hjk : j = k
          · subst hjk; exact .inr (.inr (.inr hj))
          · exact .inr (.inr (.inl (List.mem_eraseIdx_iff_getElem?.2 ⟨j, hjk, hj⟩))))
    refine ⟨?_, rfl, fun b _ => by rw [reclaim_mem], by rw [reclaim_active]; rfl⟩
    exact
      { core := core'
        coh := by intro i b hi hne; rw [reclaim_kernel] at hi; rw [reclaim_arena]; rw [reclaim_last] at hne; exact hr.coh i b hi hne
        idle := by rw [reclaim_active, reclaim_kernel]; exact hr.idle
        running := by rw [reclaim_active]; exact hr.running
        offset := by rw [reclaim_offset]; exact hr.offset
        stuck := by rw [reclaim_active, reclaim_last, reclaim_taken]; exact hr.stuck
        room := by rw [reclaim_active, reclaim_queued]; exact hr.room
        waiting := by rw [reclaim_active, reclaim_done]; exact hr.waiting }

theorem startsOnce_cons {may : Bool} {e : Event D} {es : List (Event D)} (h : startsOnce may (e :: es) = true) :
    (∀ m r, e = .start m r → may = true) ∧
    startsOnce (!e.runs (!may)) es = true := by
  cases e with
  | start m r =>
    simp only [startsOnce, Bool.and_eq_true] at h
    exact ⟨fun _ _ _ => h.1, h.2⟩
  | stop => exact ⟨fun _ _ h => (by cases h), h⟩
  | _ => exact ⟨fun _ _ h => (by cases h), by simpa [Event.runs, startsOnce] using h⟩

theorem rel_run {n G : Nat} (hG : n ≤ G) : ∀ (es : List (Event D)) {s s' : Cam D} {v : View D} {os : List (Out D)},
    Rel n s v → startsOnce (!s.active) es = true → s.run G es = .ok (s', os) →
    Rel n s' (v.run n es).1 ∧ os = (v.run n es).2
  | [], s, s', v, os, hr, _, h => by
    simp only [Cam.run, Rs.ok.injEq, Prod.mk.injEq] at h
    obtain ⟨rfl, rfl⟩ := h
    exact ⟨hr, rfl⟩
  | e :: es, s, s', v, os, hr, hs, h => by
    unfold Cam.run at h
    split at h
    · cases h
    · rename_i s1 o h1
      split at h
      · cases h
      · rename_i s2 os' h2
        simp only [Rs.ok.injEq, Prod.mk.injEq] at h
        obtain ⟨rfl, rfl⟩ := h
        obtain ⟨hs1, hs2⟩ := startsOnce_cons hs
        obtain ⟨r1, r2, -, r4⟩ := rel_step hG hr e (fun m r he => by simpa using hs1 m r he) h1
        obtain ⟨q1, q2⟩ := rel_run hG es r1 (by rw [r4]; simpa using hs2) h2
        exact ⟨q1, by rw [r2, q2]; rfl⟩

/-- The buffers are not exhausted when nobody else has one. -/
theorem free_ne {n : Nat} {s : Cam D} (hc : Core n s) (hk : s.kept = [])
    (hm : ∀ b, s.msg = some b → some b ∈ s.arena) : s.free ≠ [] := by
  intro hf
  have hsub : (List.range (n + 1)).map some ⊆ s.arena := by
    intro x hx
    obtain ⟨b, hb, rfl⟩ := List.mem_map.1 hx
    rcases hc.all b (List.mem_range.1 hb) with h | h
    · rw [hf] at h; cases h
    · rcases (held_iff s b).1 h with h | h | h
      · exact h
      · exact hm b h
      · rw [hk] at h; cases h
  have hnd : ((List.range (n + 1)).map some).Nodup :=
    List.Pairwise.map some (fun a b hab h => hab (Option.some.inj h)) List.nodup_range
  have := List.Nodup.length_le_of_subset hnd hsub
  simp only [List.length_map, List.length_range, hc.len] at this
  omega

theorem queue_ok {G : Nat} {s : Cam D} {i : Nat} (hf : s.free ≠ []) (hi : i < s.arena.length) :
    ∃ r, s.queue G i = .ok r := by
  unfold Cam.queue
  cases hfr : s.free with
  | nil => exact absurd hfr hf
  | cons b l =>
    rw [List.getElem?_eq_getElem hi]
    simp only
    split <;> exact ⟨_, rfl⟩

theorem queueAll_ok {n G : Nat} (hG : n ≤ G) : ∀ (l : List Nat) {s : Cam D}, Core n s → Coherent s (fun _ => False) →
    s.kept = [] → s.msg = none → l.Nodup → (∀ i ∈ l, i < n ∧ i ∉ s.taken) → ∃ r, s.queueAll G l = .ok r
  | [], s, _, _, _, _, _, _ => ⟨_, rfl⟩
  | i :: l, s, hc, hcoh, hk, hm, hn, hl => by
    obtain ⟨⟨s1, ok⟩, h1⟩ := queue_ok (G := G) (s := s) (i := i) (free_ne hc hk (by rw [hm]; intro b h; cases h))
      (by rw [hc.len]; exact (hl i (by simp)).1)
    unfold Cam.queueAll
    rw [h1]
    obtain ⟨hc1, hsame, h2, -, -⟩ := queue_spec hG hc (fun j b hj _ => hcoh j b hj id) h1
    rcases h2 with ⟨rfl, h2, h3, b, h4⟩ | ⟨rfl, h2, -⟩
    · simp only
      refine queueAll_ok hG l hc1 h3 (hsame.kept.trans hk) (hsame.msg.trans hm) (List.nodup_cons.1 hn).2 ?_
      intro j hj
      refine ⟨(hl j (by simp [hj])).1, ?_⟩
      intro hh
      simp only [Cam.taken, h4, hsame.done, List.map_append, List.map_cons, List.map_nil, List.mem_append,
        List.mem_cons, List.not_mem_nil, or_false] at hh
      have := (hl j (by simp [hj])).2
      simp only [Cam.taken, List.mem_append] at this
      rcases hh with (h | h) | h
      · exact this (.inl h)
      · subst h; exact (List.nodup_cons.1 hn).1 hj
      · exact this (.inr h)
    · exact ⟨_, rfl⟩

theorem process_ok {n G : Nat} (hG : n ≤ G) {s : Cam D} {v : View D} (hr : Rel n s v) (arrivals : List (Frame D))
    (hf : s.free ≠ []) (hl : s.last < n) : ∃ r, s.process G arrivals = .ok r := by
  unfold Cam.process
  split
  · exact ⟨_, rfl⟩
  · rename_i ha
    obtain ⟨⟨s1, ok⟩, h1⟩ := queue_ok (G := G) (s := s) (i := s.last) hf (by rw [hr.core.len]; exact hl)
    rw [h1]
    obtain ⟨hc1, hsame, h2, -, -⟩ := queue_spec hG hr.core hr.coh h1
    rcases h2 with ⟨rfl, h2, h3, b1, h4⟩ | ⟨rfl, -⟩
    · obtain ⟨c1, c2, c3, -⟩ := captures_spec arrivals hc1
      have hcoh2 : Coherent (arrivals.foldl Cam.capture s1) (fun _ => False) := coherent_perm h3 c2 c3
      simp only
      generalize arrivals.foldl Cam.capture s1 = s2 at *
      cases hd : s2.done with
      | nil => exact ⟨_, rfl⟩
      | cons x done =>
        obtain ⟨i, b, f⟩ := x
        have := hcoh2 i b (by simp [Cam.kernel, hd]) id
        simp only [this]
        split <;> exact ⟨_, rfl⟩
    · exact ⟨_, rfl⟩

theorem process_last {n G : Nat} {s s' : Cam D} {o : Out D} (hl : s.last < n) (hlen : s.arena.length = n)
    (arrivals : List (Frame D)) (h : s.process G arrivals = .ok (s', o)) : s'.last < n := by
  have hq : ∀ {s s' : Cam D} {i : Nat} {ok : Bool}, s.queue G i = .ok (s', ok) →
      s'.last = s.last ∧ s'.arena.length = s.arena.length := by
    intro s s' i ok h
    unfold Cam.queue at h
    split at h
    · simp only at h
      split at h
      · simp only [Rs.ok.injEq, Prod.mk.injEq] at h
        obtain ⟨rfl, -⟩ := h
        exact ⟨by simp, by simp⟩
      · simp only [Rs.ok.injEq, Prod.mk.injEq] at h
        obtain ⟨rfl, -⟩ := h
        exact ⟨by simp, by simp⟩
    · cases h
  have hcap : ∀ (fs : List (Frame D)) (s : Cam D), (fs.foldl Cam.capture s).last = s.last ∧
      (fs.foldl Cam.capture s).arena = s.arena := by
    intro fs
    induction fs with
    | nil => exact fun s => ⟨rfl, rfl⟩
    | cons f fs ih =>
      intro s
      have : (s.capture f).last = s.last ∧ (s.capture f).arena = s.arena := by
        unfold Cam.capture
        split
        · split <;> exact ⟨rfl, rfl⟩
        · exact ⟨rfl, rfl⟩
      exact ⟨(ih _).1.trans this.1, (ih _).2.trans this.2⟩
  unfold Cam.process at h
  split at h
  · simp only [Rs.ok.injEq, Prod.mk.injEq] at h
    obtain ⟨rfl, -⟩ := h; exact hl
  · split at h
    · cases h
    · rename_i s1 h1
      simp only [Rs.ok.injEq, Prod.mk.injEq] at h
      obtain ⟨rfl, -⟩ := h
      rw [(hq h1).1]; exact hl
    · rename_i s1 h1
      simp only at h
      have hc := hcap arrivals s1
      have h2 := hq h1
      generalize arrivals.foldl Cam.capture s1 = s2 at *
      split at h
      · simp only [Rs.ok.injEq, Prod.mk.injEq] at h
        obtain ⟨rfl, -⟩ := h
        rw [hc.1, h2.1]; exact hl
      · split at h
        · rename_i b hb
          have hi := by
            have := (List.getElem?_eq_some_iff.1 hb).1
            rw [hc.2, h2.2, hlen] at this
            exact this
          split at h
          · simp only [Rs.ok.injEq, Prod.mk.injEq] at h
            obtain ⟨rfl, -⟩ := h
            rw [reclaim_last]; exact hi
          · simp only [Rs.ok.injEq, Prod.mk.injEq] at h
            obtain ⟨rfl, -⟩ := h
            exact hi
        · cases h

theorem startsOnce_snoc (e : Event D) : ∀ (es : List (Event D)) (may : Bool), startsOnce may (es ++ [e]) = true →
    startsOnce may es = true ∧ (∀ m r, e = .start m r → es.foldl (fun a e => e.runs a) (!may) = false) := by
  intro es
  induction es with
  | nil =>
    intro may h
    exact ⟨rfl, fun m r he => by simpa using (startsOnce_cons h).1 m r he⟩
  | cons x es ih =>
    intro may h
    obtain ⟨h1, h2⟩ := startsOnce_cons h
    obtain ⟨h3, h4⟩ := ih _ h2
    refine ⟨?_, ?_⟩
    · cases x with
      | start m r => simp only [startsOnce, h1 m r rfl, Bool.true_and]; exact h3
      | stop => exact h3
      | _ => simpa [startsOnce, Event.runs] using h3
    · intro m r he
      simpa using h4 m r he

theorem run_active {n G : Nat} (hG : n ≤ G) : ∀ (es : List (Event D)) {s s' : Cam D} {v : View D} {os : List (Out D)}, Rel n s v →
    startsOnce (!s.active) es = true → s.run G es = .ok (s', os) →
    s'.active = es.foldl (fun a e => e.runs a) s.active := by
  intro es
  induction es with
  | nil =>
    intro s s' v os _ _ h
    simp only [Cam.run, Rs.ok.injEq, Prod.mk.injEq] at h
    obtain ⟨rfl, rfl⟩ := h
    rfl
  | cons x es ih =>
    intro s s' v os hr hs h
    unfold Cam.run at h
    split at h
    · cases h
    · rename_i s1 o h1
      split at h
      · cases h
      · rename_i s2 os' h2
        simp only [Rs.ok.injEq, Prod.mk.injEq] at h
        obtain ⟨rfl, rfl⟩ := h
        obtain ⟨hs1, hs2⟩ := startsOnce_cons hs
        obtain ⟨r1, -, -, r4⟩ := rel_step hG hr x (fun m r he => by simpa using hs1 m r he) h1
        have := ih r1 (by rw [r4]; simpa using hs2) h2
        rw [this, r4]
        rfl

theorem view_append (n : Nat) : ∀ (l₁ l₂ : List (Event D)) (v : View D),
    (v.run n (l₁ ++ l₂)).2 = (v.run n l₁).2 ++ ((v.run n l₁).1.run n l₂).2 := by
  intro l₁
  induction l₁ with
  | nil => intro l₂ v; rfl
  | cons e l₁ ih => intro l₂ v; simp only [List.cons_append, View.run, ih]

theorem startsOnce_prefix : ∀ (l₁ l₂ : List (Event D)) (may : Bool), startsOnce may (l₁ ++ l₂) = true → startsOnce may l₁ = true := by
  intro l₁
  induction l₁ with
  | nil => intro _ _ _; rfl
  | cons e l₁ ih =>
    intro l₂ may h
    cases e with
    | start m r =>
      simp only [List.cons_append, startsOnce, Bool.and_eq_true] at h ⊢
      exact ⟨h.1, ih _ _ h.2⟩
    | _ => exact ih _ _ (by simpa [startsOnce] using h)

theorem startsOnce_suffix : ∀ (l₁ l₂ : List (Event D)) (may : Bool), startsOnce may (l₁ ++ l₂) = true → ∃ may', startsOnce may' l₂ = true ∧
    may' = l₁.foldl (fun a e => !e.runs (!a)) may := by
  intro l₁
  induction l₁ with
  | nil => intro _ _ h; exact ⟨_, h, rfl⟩
  | cons e l₁ ih =>
    intro l₂ may h
    obtain ⟨may', h1, h2⟩ := ih _ _ (startsOnce_cons h).2
    exact ⟨may', h1, h2⟩

theorem captures_running : ∀ (fs : List (Frame D)) (v : View D), (fs.foldl View.capture v).running = v.running := by
  intro fs
  induction fs with
  | nil => intro v; rfl
  | cons f fs ih =>
    intro v
    rw [List.foldl_cons, ih]
    unfold View.capture
    split <;> rfl

theorem fold_not : ∀ (l : List (Event D)) (b : Bool), l.foldl (fun a e => !e.runs (!a)) b = !(l.foldl (fun a e => e.runs a) (!b)) := by
  intro l
  induction l with
  | nil => intro b; simp
  | cons e l ih => intro b; simp only [List.foldl_cons, ih, Bool.not_not]

theorem view_running (n : Nat) : ∀ (l : List (Event D)) (v : View D), (v.run n l).1.running = l.foldl (fun a e => e.runs a) v.running := by
  intro l
  induction l with
  | nil => intro v; rfl
  | cons e l ih =>
    intro v
    simp only [View.run, List.foldl_cons, ih]
    congr 1
    cases e with
    | capture f => exact captures_running [f] v
    | process a =>
      simp only [View.step, View.process, Event.runs]
      split
      · rfl
      · have := captures_running a { v with room := v.room + 1 }
        split <;> exact this
    | _ => rfl

theorem stuck_run (n : Nat) : ∀ (l : List (Event D)) (w : View D), w.stuck = true → w.running = true → Event.stop ∉ l →
    startsOnce false l = true → ∀ (k : Nat) (a : List (Frame D)), l[k]? = some (.process a) →
    (w.run n l).2[k]? = some .failed := by
  intro l
  induction l with
  | nil => intro w _ _ _ _ k a hk; simp at hk
  | cons e l ih =>
    intro w hw1 hw2 hst hso k a hk
    have hnext : (w.step n e).1.stuck = true ∧ (w.step n e).1.running = true := by
      cases e with
      | start m r => simp [startsOnce] at hso
      | stop => simp at hst
      | process b => simp [View.step, View.process, hw1, hw2]
      | capture f =>
        simp only [View.step, View.capture]
        split <;> exact ⟨hw1, hw2⟩
      | _ => exact ⟨hw1, hw2⟩
    cases k with
    | zero =>
      simp only [List.getElem?_cons_zero, Option.some.injEq] at hk
      subst hk
      simp [View.run, View.step, View.process, hw1]
    | succ k =>
      rw [List.getElem?_cons_succ] at hk
      simp only [View.run, List.getElem?_cons_succ]
      have hso' := (startsOnce_cons hso).2
      refine ih _ hnext.1 hnext.2 (fun h => hst (List.mem_cons_of_mem _ h)) ?_ k a hk
      cases e with
      | start m r => simp [startsOnce] at hso
      | stop => simp at hst
      | _ => simpa [Event.runs] using hso'

end Camera
end Verif
