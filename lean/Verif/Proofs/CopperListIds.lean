import Verif.Proofs.CopperList
/-! Lemmas on the ids of the bounded stack specification. -/
namespace Verif
open CopperList
namespace CopperList
variable {P : Type}

theorem created_le_creates (s : BStack P) (ops : List (Op P)) :
    (s.run ops).1.created ≤ s.created + (ops.filter Op.isCreate).length := by
  induction ops generalizing s with
  | nil => simp [BStack.run]
  | cons op ops ih =>
    have h := ih (s.step op).1
    have h7 : (s.run (op :: ops)).1.created = ((s.step op).1.run ops).1.created := rfl
    have h8 : (s.step op).1.created ≤ s.created + (if op.isCreate then 1 else 0) := by
      cases op <;> simp [BStack.step, Op.isCreate]
      split <;> simp
    rw [h7, List.filter_cons]
    cases hc : op.isCreate <;> simp [hc] at h8 ⊢ <;> omega

theorem createdIds_run (s : BStack P) (ops : List (Op P)) :
    createdIds (s.run ops).2 =
      (List.range' s.created ((s.run ops).1.created - s.created)).map UInt32.ofNat := by
  induction ops generalizing s with
  | nil => simp [BStack.run, createdIds]
  | cons op ops ih =>
    have h7 : (s.run (op :: ops)).1.created = ((s.step op).1.run ops).1.created := rfl
    have h8 : (s.run (op :: ops)).2 = (s.step op).2 :: ((s.step op).1.run ops).2 := rfl
    have hm := created_run_mono (s.step op).1 ops
    rw [h7, h8]
    have same : ∀ s' : BStack P, ∀ out : Out P, (s.step op) = (s', out) → s'.created = s.created →
        (∀ i, out ≠ .created (some i)) → createdIds ((s.step op).2 :: ((s.step op).1.run ops).2) =
        (List.range' s.created (((s.step op).1.run ops).1.created - s.created)).map UInt32.ofNat := by
      intro s' out he hcr hne
      have hih := ih (s.step op).1
      rw [he] at hih ⊢
      simp only at hih ⊢
      rw [hcr] at hih
      rw [← hih]
      cases out with
      | created o =>
        cases o with
        | none => rfl
        | some i => exact absurd rfl (hne i)
      | _ => rfl
    cases op with
    | create st msgs =>
      by_cases hf : s.items.length < s.cap
      · have hih := ih (s.step (.create st msgs)).1
        simp only [BStack.step, hf, if_true] at hih hm ⊢
        simp only [createdIds, hih]
        generalize hk : (BStack.run (⟨s.cap, ⟨UInt32.ofNat s.created, st, msgs⟩ :: s.items, s.created + 1⟩ : BStack P) ops).1.created = k at hm ⊢
        have : k - s.created = (k - (s.created + 1)) + 1 := by omega
        rw [this, List.range'_succ]; simp
      · exact same s (.created none) (by simp [BStack.step, hf]) rfl (by simp)
    | pop => exact same _ _ rfl rfl (by simp)
    | dropLast => exact same _ _ rfl rfl (by simp)
    | peek => exact same _ _ rfl rfl (by simp)
    | clear => exact same _ _ rfl rfl (by simp)
    | len => exact same _ _ rfl rfl (by simp)
    | isEmpty => exact same _ _ rfl rfl (by simp)
    | isFull => exact same _ _ rfl rfl (by simp)
    | iter => exact same _ _ rfl rfl (by simp)
    | mutate k st msgs => exact same _ _ rfl rfl (by simp)

/-- Ids of the stack: strictly decreasing from the newest, all below the counter. -/
def IdsOk (s : BStack P) : Prop :=
  s.items.Pairwise (fun a b => b.id < a.id) ∧ ∀ c ∈ s.items, c.id.toNat < s.created

theorem idsOk_step (s : BStack P) (op : Op P) (h : IdsOk s)
    (hc : (s.step op).1.created ≤ 4294967296) : IdsOk (s.step op).1 := by
  obtain ⟨h1, h2⟩ := h
  cases op with
  | create st msgs =>
    by_cases hf : s.items.length < s.cap
    · simp only [BStack.step, hf, if_true] at hc ⊢
      have e : (UInt32.ofNat s.created).toNat = s.created := by
        simp only [UInt32.toNat_ofNat']; exact Nat.mod_eq_of_lt (by omega)
      refine ⟨List.pairwise_cons.2 ⟨fun b hb => ?_, h1⟩, ?_⟩
      · rw [UInt32.lt_iff_toNat_lt]; simp only [e]; exact h2 b hb
      · intro c hcm
        rcases List.mem_cons.1 hcm with rfl | hcm
        · simp only [e]; omega
        · have := h2 c hcm; simp only; omega
    · simp only [BStack.step, hf, if_false]; exact ⟨h1, h2⟩
  | pop => exact ⟨h1.tail, fun c hc => h2 c (List.mem_of_mem_tail hc)⟩
  | dropLast => exact ⟨h1.tail, fun c hc => h2 c (List.mem_of_mem_tail hc)⟩
  | peek => exact ⟨h1, h2⟩
  | clear => exact ⟨List.Pairwise.nil, by simp [BStack.step]⟩
  | len => exact ⟨h1, h2⟩
  | isEmpty => exact ⟨h1, h2⟩
  | isFull => exact ⟨h1, h2⟩
  | iter => exact ⟨h1, h2⟩
  | mutate k st msgs =>
    have hmap : (s.items.modify k (fill st msgs)).map CL.id = s.items.map CL.id := by
      apply List.ext_getElem?
      intro i
      simp only [List.getElem?_map, List.getElem?_modify]
      by_cases hi : k = i
      · subst hi; cases s.items[k]? <;> simp [fill]
      · simp [hi]
    constructor
    · have : (s.items.map CL.id).Pairwise (fun a b => b < a) := List.pairwise_map.2 h1
      rw [← hmap] at this
      exact List.pairwise_map.1 this
    · intro c hcm
      have : c.id ∈ (s.items.modify k (fill st msgs)).map CL.id := List.mem_map_of_mem hcm
      rw [hmap] at this
      obtain ⟨c', hc', he⟩ := List.mem_map.1 this
      have := h2 c' hc'
      rw [← he]; exact this

theorem idsOk_run (s : BStack P) (ops : List (Op P)) (h : IdsOk s)
    (hc : (s.run ops).1.created ≤ 4294967296) : IdsOk (s.run ops).1 := by
  induction ops generalizing s with
  | nil => exact h
  | cons op ops ih =>
    have h7 : (s.run (op :: ops)).1 = ((s.step op).1.run ops).1 := rfl
    rw [h7] at hc ⊢
    refine ih _ (idsOk_step s op h ?_) hc
    have := created_run_mono (s.step op).1 ops
    omega
end CopperList
end Verif
