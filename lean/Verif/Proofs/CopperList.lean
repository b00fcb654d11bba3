import Verif.Spec.BoundedStack
/-! Refinement of the ring manager to the bounded stack. -/
namespace Verif
namespace CopperList
variable {P : Type}

/-- The lists currently lent out, newest first. -/
def Manager.live (m : Manager P) : List (CL P) := (m.data.take m.length).reverse

/-- Ring invariant: the ring is in fact a stack growing from slot 0. -/
structure Manager.Inv (m : Manager P) : Prop where
  len_le : m.length ≤ m.cap
  ins : m.insertionIndex = m.length % m.cap

theorem Manager.new_inv (N : Nat) (z : P) : (Manager.new N z).Inv := by
  constructor <;> simp [Manager.new, Manager.cap]

theorem Manager.Inv.ins_lt {m : Manager P} (h : m.Inv) (hf : m.length < m.cap) :
    m.insertionIndex = m.length := by
  rw [h.ins, Nat.mod_eq_of_lt hf]

theorem Manager.Inv.ins_full {m : Manager P} (h : m.Inv) (hf : m.length = m.cap) :
    m.insertionIndex = 0 := by
  rw [h.ins, hf, Nat.mod_self]

theorem Manager.Inv.ins_le {m : Manager P} (h : m.Inv) : m.insertionIndex ≤ m.length := by
  rw [h.ins]; exact Nat.mod_le _ _

theorem Manager.Inv.lastIndex {m : Manager P} (h : m.Inv) (hp : m.length ≠ 0) :
    m.lastIndex = m.length - 1 := by
  unfold Manager.lastIndex
  have hl := h.len_le
  by_cases hf : m.length = m.cap
  · simp [h.ins_full hf, hf]
  · have := h.ins_lt (by omega)
    rw [this, if_neg hp]

theorem Manager.isFull_iff (m : Manager P) : m.isFull = true ↔ m.length = m.cap := by
  simp only [Manager.isFull, Manager.len, beq_iff_eq]; exact eq_comm

theorem Manager.live_length {m : Manager P} (h : m.Inv) : m.live.length = m.length := by
  have := h.len_le
  simp only [Manager.live, List.length_reverse, List.length_take]
  unfold Manager.cap at this
  omega

/-- `create` on a manager that is not full. -/
theorem Manager.create_ok {o : Overflow} {m : Manager P} (h : m.Inv) (hf : m.length < m.cap)
    (hid : m.currentClId ≠ 0xFFFFFFFF ∨ o = .wrapping) :
    ∃ slot, m.data[m.length]? = some slot ∧
      m.create o = .ok
        ({ data := m.data.set m.length { slot with id := m.currentClId }
           insertionIndex := (m.length + 1) % m.cap
           length := m.length + 1
           currentClId := m.currentClId + 1 }, some m.length) := by
  have hi := h.ins_lt hf
  have hg : m.length < m.data.length := hf
  refine ⟨m.data[m.length], by simp [hg], ?_⟩
  have hnf : ¬ m.isFull = true := by rw [Manager.isFull_iff]; omega
  unfold Manager.create
  rw [if_neg hnf, hi]
  have hc : ¬ (m.currentClId = 0xFFFFFFFF ∧ o = .checked) := by
    rintro ⟨h1, h2⟩
    rcases hid with h3 | h3
    · exact h3 h1
    · rw [h3] at h2; exact absurd h2 (by decide)
  simp [hg, hc]

theorem take_set_succ {α : Type} (l : List α) (n : Nat) (x : α) (h : n < l.length) :
    (l.set n x).take (n + 1) = l.take n ++ [x] := by
  rw [List.take_add_one]
  rw [List.take_set, List.set_eq_of_length_le (by simp; omega)]
  simp [h]

theorem Manager.live_modify {m : Manager P} (h : m.Inv) (k : Nat) (f : CL P → CL P)
    (hk : k < m.length) :
    (m.write (m.length - 1 - k) f).live = m.live.modify k f := by
  have hl : m.length ≤ m.data.length := h.len_le
  unfold Manager.live Manager.write
  apply List.ext_getElem?
  intro i
  simp only [List.getElem?_modify]
  by_cases hi : i < m.length
  · rw [List.getElem?_reverse (by simp; omega), List.getElem?_reverse (by simp; omega)]
    simp only [List.length_take, List.length_modify, Nat.min_eq_left hl]
    rw [List.getElem?_take_of_lt (by omega), List.getElem?_take_of_lt (by omega),
      List.getElem?_modify]
    by_cases hik : k = i
    · subst hik; simp
    · have : ¬ m.length - 1 - k = m.length - 1 - i := by omega
      simp [this, hik]
  · rw [List.getElem?_eq_none (by simp; omega), List.getElem?_eq_none (by simp; omega)]
    simp

theorem Manager.live_write_dead {m : Manager P} (slot : Nat) (f : CL P → CL P)
    (hk : m.length ≤ slot) : (m.write slot f).live = m.live := by
  unfold Manager.live Manager.write
  dsimp only
  congr 1
  apply List.ext_getElem?
  intro i
  by_cases hi : i < m.length
  · simp only [List.getElem?_take_of_lt hi, List.getElem?_modify]
    have : slot ≠ i := by omega
    simp [this]
  · rw [List.getElem?_take_eq_none (by omega), List.getElem?_take_eq_none (by omega)]

/-- The correspondence between a ring and the abstract stack. -/
structure Rel (m : Manager P) (s : BStack P) : Prop where
  inv : m.Inv
  cap : s.cap = m.cap
  items : s.items = m.live
  id : m.currentClId = UInt32.ofNat s.created

theorem rel_new (N : Nat) (z : P) : Rel (Manager.new N z) (BStack.empty N) := by
  refine ⟨Manager.new_inv N z, ?_, ?_, ?_⟩ <;>
    simp [Manager.new, BStack.empty, Manager.cap, Manager.live]

theorem live_pop {m : Manager P} (h : m.Inv) (hp : m.length ≠ 0) :
    ∃ c, m.data[m.length - 1]? = some c ∧ m.live = c :: (m.data.take (m.length - 1)).reverse := by
  have hl : m.length ≤ m.data.length := h.len_le
  have hg : m.length - 1 < m.data.length := by omega
  refine ⟨m.data[m.length - 1], by simp [hg], ?_⟩
  unfold Manager.live
  have : m.length = (m.length - 1) + 1 := by omega
  conv => lhs; rw [this, List.take_add_one]
  simp [hg]

theorem Manager.inv_shrink {m : Manager P} (h : m.Inv) (hp : m.length ≠ 0) :
    ({ m with insertionIndex := m.length - 1, length := m.length - 1 } : Manager P).Inv := by
  have hl := h.len_le
  refine ⟨?_, ?_⟩
  · show m.length - 1 ≤ m.cap; omega
  · show m.length - 1 = (m.length - 1) % m.cap
    rw [Nat.mod_eq_of_lt (by omega)]

/-- One operation: same observation on both sides and the correspondence is kept, provided the
32-bit id counter is not exhausted (or wraps). -/
theorem rel_step {o : Overflow} {m : Manager P} {s : BStack P} (h : Rel m s) (op : Op P)
    (hid : (s.step op).1.created < 4294967296 ∨ o = .wrapping) :
    ∃ m', m.step o op = .ok (m', (s.step op).2) ∧ Rel m' (s.step op).1 := by
  obtain ⟨hinv, hcap, hitems, hclid⟩ := h
  have hlen : s.items.length = m.length := by rw [hitems, Manager.live_length hinv]
  have hle : m.length ≤ m.data.length := hinv.len_le
  cases op with
  | create st msgs =>
    by_cases hf : m.length < m.cap
    · have hid' : m.currentClId ≠ 0xFFFFFFFF ∨ o = .wrapping := by
        rcases hid with h1 | h1
        · left
          have h1 : s.created + 1 < 4294967296 := by
            simpa [BStack.step, hlen, hcap, hf] using h1
          rw [hclid]
          intro hc
          have := congrArg UInt32.toNat hc
          simp only [UInt32.toNat_ofNat'] at this
          rw [Nat.mod_eq_of_lt (by omega)] at this
          have h2 : (0xFFFFFFFF : UInt32).toNat = 4294967295 := by decide
          omega
        · exact .inr h1
      obtain ⟨slot, hslot, hc⟩ := Manager.create_ok (o := o) hinv hf hid'
      have hf' : m.length < m.data.length := hf
      refine ⟨({ data := m.data.set m.length { slot with id := m.currentClId }
                 insertionIndex := (m.length + 1) % m.cap
                 length := m.length + 1
                 currentClId := m.currentClId + 1 } : Manager P).write m.length (fill st msgs),
        ?_, ?_⟩
      · unfold Manager.step
        rw [hc]
        simp only [Manager.write, List.getElem?_modify, BStack.step, hlen, hcap, if_pos hf]
        simp [hf', fill, hclid]
      · simp only [BStack.step, hlen, hcap, if_pos hf]
        refine ⟨⟨?_, ?_⟩, ?_, ?_, ?_⟩
        · simp [Manager.write, Manager.cap]; omega
        · simp [Manager.write, Manager.cap]
        · simpa [Manager.write, Manager.cap] using hcap
        · rw [hitems]
          simp only [Manager.live, Manager.write]
          have hset : (m.data.set m.length { slot with id := m.currentClId }).modify m.length
              (fill st msgs) = m.data.set m.length ⟨m.currentClId, st, msgs⟩ := by
            apply List.ext_getElem?
            intro i
            simp only [List.getElem?_modify, List.getElem?_set]
            by_cases hi : m.length = i
            · subst hi; simp [hf', fill]
            · simp [hi]
          rw [hset, take_set_succ _ _ _ hf', ← hclid]
          simp
        · simp [Manager.write, hclid, UInt32.ofNat_add]
    · have hfull : m.isFull = true := by rw [Manager.isFull_iff]; have := hinv.len_le; omega
      refine ⟨m, ?_, ?_⟩
      · simp [Manager.step, Manager.create, hfull, BStack.step, hlen, hcap, hf]
      · simp only [BStack.step, hlen, hcap, if_neg hf]
        exact ⟨hinv, hcap, hitems, hclid⟩
  | pop =>
    by_cases hp : m.length = 0
    · refine ⟨m, ?_, ?_⟩
      · have : s.items = [] := by simpa [hp] using hlen
        simp [Manager.step, Manager.pop, hp, BStack.step, this]
      · have : s.items = [] := by simpa [hp] using hlen
        refine ⟨hinv, hcap, ?_, hclid⟩
        simp [BStack.step, this, ← hitems]
    · obtain ⟨c, hc, hlive⟩ := live_pop hinv hp
      refine ⟨{ m with insertionIndex := m.length - 1, length := m.length - 1 }, ?_, ?_⟩
      · simp [Manager.step, Manager.pop, hp, hinv.lastIndex hp, hc, BStack.step, hitems, hlive]
      · refine ⟨Manager.inv_shrink hinv hp, hcap, ?_, hclid⟩
        show s.items.tail = _
        rw [hitems, hlive]; rfl
  | dropLast =>
    by_cases hp : m.length = 0
    · refine ⟨m, ?_, ?_⟩
      · simp [Manager.step, Manager.dropLast, hp, BStack.step]
      · have : s.items = [] := by simpa [hp] using hlen
        refine ⟨hinv, hcap, ?_, hclid⟩
        simp [BStack.step, this, ← hitems]
    · obtain ⟨c, hc, hlive⟩ := live_pop hinv hp
      refine ⟨{ m with insertionIndex := m.length - 1, length := m.length - 1 }, ?_, ?_⟩
      · simp [Manager.step, Manager.dropLast, hp, hinv.lastIndex hp, BStack.step]
      · refine ⟨Manager.inv_shrink hinv hp, hcap, ?_, hclid⟩
        show s.items.tail = _
        rw [hitems, hlive]; rfl
  | peek =>
    refine ⟨m, ?_, ⟨hinv, hcap, hitems, hclid⟩⟩
    by_cases hp : m.length = 0
    · have : s.items = [] := by simpa [hp] using hlen
      simp [Manager.step, Manager.peek, hp, BStack.step, this]
    · obtain ⟨c, hc, hlive⟩ := live_pop hinv hp
      simp [Manager.step, Manager.peek, hp, hinv.lastIndex hp, hc, BStack.step, hitems, hlive]
  | clear =>
    refine ⟨m.clear, rfl, ?_⟩
    refine ⟨⟨?_, ?_⟩, hcap, ?_, hclid⟩ <;> simp [Manager.clear, BStack.step, Manager.live]
  | len => exact ⟨m, by simp [Manager.step, BStack.step, Manager.len, hlen], ⟨hinv, hcap, hitems, hclid⟩⟩
  | isEmpty =>
    exact ⟨m, by simp [Manager.step, BStack.step, Manager.isEmpty, hlen], ⟨hinv, hcap, hitems, hclid⟩⟩
  | isFull =>
    refine ⟨m, ?_, ⟨hinv, hcap, hitems, hclid⟩⟩
    have : (m.cap == m.length) = (m.length == m.cap) := by
      rw [Bool.eq_iff_iff]; simp only [beq_iff_eq]; exact eq_comm
    simp only [Manager.step, BStack.step, Manager.isFull, Manager.len, hlen, hcap, this]
  | iter =>
    refine ⟨m, ?_, ⟨hinv, hcap, hitems, hclid⟩⟩
    have h1 := hinv.len_le
    have h2 : m.insertionIndex ≤ (m.data.take m.length).length := by
      have := hinv.ins_le
      simp; omega
    have hiter : m.iter = .ok m.live := by
      unfold Manager.iter
      rw [if_pos h1]
      simp only [splitAt', if_pos h2]
      by_cases hf : m.length = m.cap
      · rw [hinv.ins_full hf]; simp [Manager.live]
      · rw [hinv.ins_lt (by omega)]
        simp [Manager.live, List.take_take]
    simp [Manager.step, hiter, BStack.step, hitems]
  | mutate k st msgs =>
    by_cases hk : k < m.cap
    · refine ⟨m.write (m.iterMutSlot k) (fill st msgs), by simp [Manager.step, hk, BStack.step], ?_⟩
      refine ⟨⟨?_, ?_⟩, ?_, ?_, hclid⟩
      · simpa [Manager.write, Manager.cap] using hinv.len_le
      · simpa [Manager.write, Manager.cap] using hinv.ins
      · simpa [Manager.write, Manager.cap, BStack.step] using hcap
      · simp only [BStack.step, hitems]
        by_cases hkl : k < m.length
        · have : m.iterMutSlot k = m.length - 1 - k := by
            unfold Manager.iterMutSlot
            by_cases hf : m.length = m.cap
            · rw [hinv.ins_full hf]; simp; omega
            · rw [hinv.ins_lt (by have := hinv.len_le; omega), if_pos hkl]
          rw [this, Manager.live_modify hinv k _ hkl]
        · have hf : m.length < m.cap := by omega
          have : m.length ≤ m.iterMutSlot k := by
            unfold Manager.iterMutSlot
            rw [hinv.ins_lt hf, if_neg hkl]; omega
          rw [Manager.live_write_dead _ _ this, List.modify_eq_self]
          rw [Manager.live_length hinv]; omega
    · refine ⟨m, by simp [Manager.step, hk, BStack.step], ⟨hinv, hcap, ?_, hclid⟩⟩
      simp only [BStack.step, hitems]
      rw [List.modify_eq_self]
      rw [Manager.live_length hinv]; have := hinv.len_le; omega

theorem created_step_le (s : BStack P) (op : Op P) :
    (s.step op).1.created ≤ s.created + 1 := by
  cases op <;> simp [BStack.step]
  split <;> simp

theorem created_mono (s : BStack P) (op : Op P) : s.created ≤ (s.step op).1.created := by
  cases op <;> simp [BStack.step]
  split <;> simp

theorem created_run_mono (s : BStack P) (ops : List (Op P)) : s.created ≤ (s.run ops).1.created := by
  induction ops generalizing s with
  | nil => exact Nat.le_refl _
  | cons op ops ih => exact Nat.le_trans (created_mono s op) (ih _)

/-- A whole session. -/
theorem rel_run {o : Overflow} {m : Manager P} {s : BStack P} (h : Rel m s) (ops : List (Op P))
    (hid : (s.run ops).1.created < 4294967296 ∨ o = .wrapping) :
    ∃ m', m.run o ops = .ok (m', (s.run ops).2) ∧ Rel m' (s.run ops).1 := by
  induction ops generalizing m s with
  | nil => exact ⟨m, rfl, h⟩
  | cons op ops ih =>
    have hs : (s.step op).1.created < 4294967296 ∨ o = .wrapping := by
      rcases hid with h5 | h5
      · left
        have := created_run_mono (s.step op).1 ops
        have h7 : (s.run (op :: ops)).1.created = ((s.step op).1.run ops).1.created := rfl
        omega
      · exact .inr h5
    obtain ⟨m', h1, h2⟩ := rel_step h op hs
    obtain ⟨m'', h3, h4⟩ := ih h2 hid
    refine ⟨m'', ?_, h4⟩
    simp only [Manager.run, h1, h3, BStack.run]

end CopperList
end Verif
