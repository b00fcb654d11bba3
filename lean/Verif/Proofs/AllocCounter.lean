import Verif.Spec.AllocCounter
/-! Allocation counters used by several threads. -/
namespace Verif
namespace Alloc

theorem steps_cons (s : Sys) (a : Act) (as : List Act) : s.steps (a :: as) = (s.step a).steps as := rfl

theorem steps_append (s : Sys) (as bs : List Act) : s.steps (as ++ bs) = (s.steps as).steps bs := by
  unfold Sys.steps; rw [List.foldl_append]

/-- The counters are the bytes of the calls that ended. -/
theorem counted (as : List Act) : ∀ s : Sys, NoReset as →
    (s.steps as).allocated = s.allocated + UInt64.ofNat (ended .alloc (fun _ => true) s as) ∧
    (s.steps as).deallocated = s.deallocated + UInt64.ofNat (ended .dealloc (fun _ => true) s as) := by
  induction as with
  | nil => intro s _; simp [Sys.steps, ended]
  | cons a as ih =>
    intro s hr
    obtain ⟨h1, h2⟩ := ih (s.step a) (fun h => hr (List.mem_cons_of_mem _ h))
    rw [steps_cons, h1, h2]
    simp only [ended, UInt64.ofNat_add]
    cases a with
    | allocSys th n => simp [Sys.step]
    | deallocSys th n => simp [Sys.step]
    | reset => exact absurd (by simp) hr
    | count th =>
      cases hc : s.callOf th with
      | none => simp [Sys.step, hc]
      | some p =>
        obtain ⟨k, n⟩ := p
        cases k <;> simp [Sys.step, hc, UInt64.add_assoc]

theorem ended_le (k : Kind) (sel : Nat → Bool) (as : List Act) : ∀ s : Sys,
    ended k sel s as ≤ ended k (fun _ => true) s as := by
  induction as with
  | nil => intro s; simp [ended]
  | cons a as ih =>
    intro s
    have := ih (s.step a)
    simp only [ended]
    refine Nat.add_le_add ?_ this
    cases a with
    | count th =>
      simp only
      cases s.callOf th with
      | none => simp
      | some p =>
        simp only
        by_cases h : p.1 = k <;> by_cases h' : sel th = true <;> simp [h, h']
    | _ => simp

theorem ended_all (k : Kind) (sel : Nat → Bool) (as : List Act) : ∀ s : Sys,
    (∀ th, .count th ∈ as → sel th = true) →
    ended k sel s as = ended k (fun _ => true) s as := by
  induction as with
  | nil => intro s _; simp [ended]
  | cons a as ih =>
    intro s hsel
    simp only [ended, ih (s.step a) (fun th h => hsel th (List.mem_cons_of_mem _ h))]
    congr 1
    cases a with
    | count th => simp only [hsel th (by simp)]
    | _ => rfl

theorem ended_append (k : Kind) (sel : Nat → Bool) (as bs : List Act) : ∀ s : Sys,
    ended k sel s (as ++ bs) = ended k sel s as + ended k sel (s.steps as) bs := by
  induction as with
  | nil => intro s; simp [ended, Sys.steps]
  | cons a as ih =>
    intro s
    simp only [List.cons_append, ended, ih, steps_cons]
    omega

/-- What the memory of the program is made of. -/
structure Inv (s : Sys) (A D : Nat) : Prop where
  bytes : A = D + s.blocks.sum + underWay .dealloc s
  held : s.held = s.blocks.sum + underWay .alloc s

theorem lookup_mem {l : List (Nat × Kind × Nat)} {th : Nat} {p : Kind × Nat} (h : l.lookup th = some p) :
    (th, p) ∈ l := by
  induction l with
  | nil => simp at h
  | cons q l ih =>
    obtain ⟨t, r⟩ := q
    simp only [List.lookup_cons] at h
    by_cases he : th = t
    · subst he
      simp at h
      subst h
      exact List.mem_cons_self
    · have : (th == t) = false := by simpa using he
      rw [this] at h
      exact List.mem_cons_of_mem _ (ih h)

theorem sum_erase {l : List Nat} {n : Nat} (h : n ∈ l) : l.sum = n + (l.erase n).sum := by
  have := (List.perm_cons_erase h).sum_nat
  simpa using this

theorem underWay_erase {l : List (Nat × Kind × Nat)} {th : Nat} {k : Kind} {n : Nat} (h : (th, k, n) ∈ l) (k' : Kind) :
    ((l.filter (·.2.1 == k')).map (·.2.2)).sum =
      (if k = k' then n else 0) + (((l.erase (th, k, n)).filter (·.2.1 == k')).map (·.2.2)).sum := by
  have := (((List.perm_cons_erase h).filter (·.2.1 == k')).map (·.2.2)).sum_nat
  rw [this]
  by_cases hk : k = k' <;> simp [hk]

/-- The invariant, along any actions. -/
theorem inv_steps (as : List Act) : ∀ (s : Sys) (A D : Nat), Legal s as → Inv s A D →
    Inv (s.steps as) (A + ended .alloc (fun _ => true) s as) (D + ended .dealloc (fun _ => true) s as) := by
  induction as with
  | nil => intro s A D _ h; exact h
  | cons a as ih =>
    intro s A D hl hi
    obtain ⟨ha, hl⟩ := hl
    rw [steps_cons]
    simp only [ended, ← Nat.add_assoc]
    apply ih _ _ _ hl
    obtain ⟨h1, h2⟩ := hi
    cases a with
    | allocSys th n =>
      refine ⟨?_, ?_⟩
      · simpa [Sys.step, underWay] using h1
      · simp [Sys.step, underWay] at h2 ⊢; omega
    | deallocSys th n =>
      have hs := sum_erase ha.2
      refine ⟨?_, ?_⟩
      · simp [Sys.step, underWay] at h1 ⊢; omega
      · simp [Sys.step, underWay] at h2 ⊢; omega
    | reset => exact ⟨h1, h2⟩
    | count th =>
      cases hc : s.callOf th with
      | none => exact absurd hc ha
      | some p =>
        obtain ⟨k, n⟩ := p
        have hm := lookup_mem hc
        have e1 := underWay_erase hm .alloc
        have e2 := underWay_erase hm .dealloc
        cases k with
        | alloc =>
          simp at e1 e2
          refine ⟨?_, ?_⟩
          · simp only [Sys.step, hc, underWay] at h1 ⊢
            try simp at h1 ⊢
            omega
          · simp only [Sys.step, hc, underWay] at h2 ⊢
            try simp at h2 ⊢
            omega
        | dealloc =>
          simp at e1 e2
          refine ⟨?_, ?_⟩
          · simp only [Sys.step, hc, underWay] at h1 ⊢
            try simp at h1 ⊢
            omega
          · simp only [Sys.step, hc, underWay] at h2 ⊢
            try simp at h2 ⊢
            omega

theorem sub_ok {m : Overflow} {a : UInt64} {n : Nat} (h : a.toNat + n < 2 ^ 64) :
    sub m (a + UInt64.ofNat n) a = .ok (UInt64.ofNat n) := by
  have he : a + UInt64.ofNat n - a = UInt64.ofNat n := by
    rw [UInt64.add_comm, UInt64.add_sub_cancel]
  cases m with
  | wrapping => simp [sub, he]
  | checked =>
    unfold sub
    simp only
    rw [if_pos, he]
    rw [UInt64.le_iff_toNat_le, UInt64.toNat_add, UInt64.toNat_ofNat',
      Nat.mod_eq_of_lt (a := n) (by omega), Nat.mod_eq_of_lt (by omega)]
    omega

end Alloc
end Verif
