import Verif.Proofs.CopperListIds
/-! Properties C08, C09, C10: the copper list manager. -/
namespace Verif
open CopperList

variable {P : Type}

/-! ### C08 Copper list pool behaves as a bounded stack -/

/-- Every client session on a fresh manager of any capacity (fewer than 2^32 creations) runs
without panic and observes exactly what it would observe on a bounded stack. -/
theorem C08_bounded_stack (o : Overflow) (N : Nat) (zero : P) (ops : List (Op P))
    (h : (ops.filter Op.isCreate).length < 2 ^ 32) :
    ∃ m, (Manager.new N zero).run o ops = .ok (m, ((BStack.empty N).run ops).2) := by
  obtain ⟨m, h1, _⟩ := rel_run (o := o) (rel_new N zero) ops
    (.inl (by
      have := created_le_creates (P := P) (BStack.empty N) ops
      simp only [BStack.empty] at this ⊢; omega))
  exact ⟨m, h1⟩

-- a session with rejection when full, peek, pop, mutation and wrap around of the ring
example : (Manager.new 2 (0 : Nat)).run .checked
    [.create .processing 10, .create .processing 11, .create .processing 12, .pop,
     .create .processing 13, .mutate 1 .doneProcessing 99, .iter, .peek, .isFull] =
    .ok ((Manager.mk [⟨0, .doneProcessing, 99⟩, ⟨2, .processing, 13⟩] 2 0 3),
     [.created (some 0), .created (some 1), .created none, .list (some ⟨1, .processing, 11⟩),
      .created (some 2), .unit, .lists [⟨2, .processing, 13⟩, ⟨0, .doneProcessing, 99⟩],
      .list (some ⟨2, .processing, 13⟩), .bool true]) := by decide

/-- Capacity: however the manager is used it never holds more than `N` lists, and a creation is
refused exactly when it holds `N`. -/
theorem C08_capacity (o : Overflow) (N : Nat) (zero : P) (ops : List (Op P)) (m : Manager P)
    (outs : List (Out P)) (h : (Manager.new N zero).run o ops = .ok (m, outs))
    (hb : (ops.filter Op.isCreate).length < 2 ^ 32) :
    m.len ≤ N ∧ (m.isFull = true ↔ m.len = N) ∧
    ∀ st msgs m' , m.step o (.create st msgs) = .ok (m', .created none) ↔ (m' = m ∧ m.len = N) := by
  have hb' : ((BStack.empty N : BStack P).run ops).1.created < 4294967296 := by
    have := created_le_creates (P := P) (BStack.empty N) ops
    simp only [BStack.empty] at this ⊢; omega
  obtain ⟨m1, h1, h2⟩ := rel_run (o := o) (rel_new N zero) ops (.inl hb')
  rw [h] at h1
  cases h1
  have hcapN : m.cap = N := by
    have : ((BStack.empty N : BStack P).run ops).1.cap = N := by
      have gen : ∀ (ops : List (Op P)) (s : BStack P), (s.run ops).1.cap = s.cap := by
        intro ops
        induction ops with
        | nil => intro s; rfl
        | cons op ops ih =>
          intro s
          show ((s.step op).1.run ops).1.cap = s.cap
          rw [ih]
          cases op <;> simp [BStack.step]
          split <;> rfl
      exact gen ops _
    rw [← h2.cap, this]
  refine ⟨by have := h2.inv.len_le; simpa [Manager.len, hcapN] using this,
    by rw [Manager.isFull_iff, hcapN]; rfl, ?_⟩
  intro st msgs m'
  constructor
  · intro hc
    by_cases hf : m.isFull = true
    · simp [Manager.step, Manager.create, hf] at hc
      exact ⟨hc.symm, by rw [Manager.isFull_iff, hcapN] at hf; exact hf⟩
    · exfalso
      simp only [Manager.step, Manager.create, hf] at hc
      revert hc
      cases m.data[m.insertionIndex]? with
      | none => simp
      | some c =>
        dsimp only
        by_cases hx : m.currentClId = 0xFFFFFFFF ∧ o = .checked
        · simp [hx]
        · simp only [hx, if_false, Bool.false_eq_true]
          split
          · simp
          · simp
  · rintro ⟨rfl, hl⟩
    have hf : m'.isFull = true := by rw [Manager.isFull_iff, hcapN]; exact hl
    simp [Manager.step, Manager.create, hf]

example : (Manager.new 1 'a').run .wrapping [.create .free 'b', .isFull] =
    .ok ((Manager.mk [⟨0, .free, 'b'⟩] 1 0 1), [.created (some 0), .bool true]) := by decide

/-! ### C09 Copper list ids are consecutive -/

/-- In every session of fewer than 2^32 creations the ids handed out are 0, 1, 2, ... in order,
whatever is freed in between. -/
theorem C09_ids_consecutive (o : Overflow) (N : Nat) (zero : P) (ops : List (Op P))
    (m : Manager P) (outs : List (Out P)) (h : (Manager.new N zero).run o ops = .ok (m, outs))
    (hb : (ops.filter Op.isCreate).length < 2 ^ 32) :
    createdIds outs = (List.range (createdIds outs).length).map UInt32.ofNat := by
  obtain ⟨m1, h1⟩ := C08_bounded_stack o N zero ops hb
  rw [h] at h1
  cases h1
  rw [createdIds_run]
  simp [BStack.empty, List.range_eq_range']

/-- The ids of the lists in flight are strictly decreasing from newest to oldest. -/
theorem C09_live_ids_decrease (o : Overflow) (N : Nat) (zero : P) (ops : List (Op P))
    (m : Manager P) (outs : List (Out P)) (h : (Manager.new N zero).run o ops = .ok (m, outs))
    (hb : (ops.filter Op.isCreate).length < 2 ^ 32) :
    ∃ l, m.iter = .ok l ∧ l.Pairwise (fun newer older => older.id < newer.id) := by
  have hb' : ((BStack.empty N : BStack P).run ops).1.created < 4294967296 := by
    have := created_le_creates (P := P) (BStack.empty N) ops
    simp only [BStack.empty] at this ⊢; omega
  obtain ⟨m1, h1, h2⟩ := rel_run (o := o) (rel_new N zero) ops (.inl hb')
  rw [h] at h1
  cases h1
  obtain ⟨m2, h3, _⟩ := rel_step (o := o) h2 .iter (.inl hb')
  have hids := idsOk_run (P := P) (BStack.empty N) ops ⟨List.Pairwise.nil, by simp [BStack.empty]⟩
    (by omega)
  refine ⟨((BStack.empty N : BStack P).run ops).1.items, ?_, hids.1⟩
  simp only [Manager.step, BStack.step] at h3
  cases hit : m.iter with
  | panic => rw [hit] at h3; simp at h3
  | ok l => rw [hit] at h3; simp at h3; rw [h3.2]

example : ∃ m outs, (Manager.new 3 'z').run .checked
    [.create .free 'a', .create .free 'b', .pop, .create .free 'c', .create .free 'd'] = .ok (m, outs) ∧
    createdIds outs = [0, 1, 2, 3] ∧ (m.iter = .ok [⟨3, .free, 'd'⟩, ⟨2, .free, 'c'⟩, ⟨0, .free, 'a'⟩]) := by
  refine ⟨_, _, rfl, ?_, ?_⟩ <;> decide

/-- `n` iterations of creating a list and freeing it. -/
def createPop (st : CLState) (msgs : P) : Nat → List (Op P)
  | 0 => []
  | n + 1 => .create st msgs :: .pop :: createPop st msgs n

/-- Refuted beyond 2^32 creations: without overflow checks the id counter wraps, so after 2^32
iterations the id 0 is handed out again. -/
theorem C09_violated_id_wrap (N : Nat) (hN : 0 < N) (zero : P) (st : CLState) :
    ∃ m outs, (Manager.new N zero).run .wrapping (createPop st zero (2 ^ 32) ++ [.create st zero])
      = .ok (m, outs ++ [.created (some 0)]) ∧ outs.head? = some (.created (some 0)) := by
  have hlen : ∀ (n : Nat) (s : BStack P), s.items = [] → 0 < s.cap →
      (s.run (createPop st zero n ++ [.create st zero])).2 =
        (s.run (createPop st zero n)).2 ++ [.created (some (UInt32.ofNat (s.created + n)))] := by
    intro n
    induction n with
    | zero => intro s hs hc; simp [createPop, BStack.run, BStack.step, hs, hc]
    | succ n ih =>
      intro s hs hc
      simp only [createPop, List.cons_append, BStack.run, BStack.step, hs, List.length_nil, hc,
        if_true, List.tail_cons, List.head?_cons]
      rw [ih ⟨s.cap, [], s.created + 1⟩ rfl hc]
      simp only [Nat.add_assoc, Nat.add_comm 1 n]
  have hwrap : UInt32.ofNat (2 ^ 32) = 0 := rfl
  have hpos : ∃ k, 2 ^ 32 = k + 1 := ⟨2 ^ 32 - 1, by decide⟩
  generalize 2 ^ 32 = n at hwrap hpos ⊢
  obtain ⟨k, rfl⟩ := hpos
  obtain ⟨m, h1, _⟩ := rel_run (o := .wrapping) (rel_new N zero)
    (createPop st zero (k + 1) ++ [.create st zero]) (.inr rfl)
  rw [hlen (k + 1) (BStack.empty N) rfl hN] at h1
  refine ⟨m, ((BStack.empty N : BStack P).run (createPop st zero (k + 1))).2, ?_, ?_⟩
  · rw [h1, show (BStack.empty N : BStack P).created = 0 from rfl, Nat.zero_add, hwrap]
  · simp [createPop, BStack.run, BStack.step, BStack.empty, hN]

/-! ### C10 Copper list iteration visits the live lists -/

/-- The full statement for the mutable and the ascending iterators, refuted below. -/
def C10_statement (P : Type) : Prop :=
  ∀ (o : Overflow) (N : Nat) (zero : P) (ops : List (Op P)) (m : Manager P) (outs : List (Out P)),
    (Manager.new N zero).run o ops = .ok (m, outs) → (ops.filter Op.isCreate).length < 2 ^ 32 →
    ∃ l, l = ((BStack.empty N).run ops).1.items ∧ m.iter = .ok l ∧ m.iterMut = .ok l ∧
      m.ascIter = .ok l.reverse

/-- With one list in flight out of two, the mutable and ascending iterators also visit the slot
that is not in use. -/
theorem C10_violated_dead_slots : ¬ C10_statement Nat := by
  intro h
  obtain ⟨l, h0, h1, h2, _⟩ := h .checked 2 0 [.create .processing 7] _ _ rfl (by decide)
  subst h0
  revert h2
  decide

/-- `iter` is exact on every reachable manager; the mutable and ascending iterators visit the
live lists first (resp. last), in the right order, followed (resp. preceded) by the unused
slots; they are exact when the manager is full. -/
theorem C10_iterators_partial (o : Overflow) (N : Nat) (zero : P) (ops : List (Op P))
    (m : Manager P) (outs : List (Out P)) (h : (Manager.new N zero).run o ops = .ok (m, outs))
    (hb : (ops.filter Op.isCreate).length < 2 ^ 32) :
    ∃ live dead, live = ((BStack.empty N).run ops).1.items ∧ m.iter = .ok live ∧
      m.iterMut = .ok (live ++ dead) ∧ (∃ dead', m.ascIter = .ok (dead' ++ live.reverse) ∧
        dead'.length = dead.length) ∧ live.length + dead.length = N ∧ live.length = m.len := by
  have hb' : ((BStack.empty N : BStack P).run ops).1.created < 4294967296 := by
    have := created_le_creates (P := P) (BStack.empty N) ops
    simp only [BStack.empty] at this ⊢; omega
  obtain ⟨m1, h1, h2⟩ := rel_run (o := o) (rel_new N zero) ops (.inl hb')
  rw [h] at h1
  cases h1
  obtain ⟨m2, h3, _⟩ := rel_step (o := o) h2 .iter (.inl hb')
  have hiter : m.iter = .ok ((BStack.empty N : BStack P).run ops).1.items := by
    simp only [Manager.step, BStack.step] at h3
    cases hit : m.iter with
    | panic => rw [hit] at h3; simp at h3
    | ok l => rw [hit] at h3; simp at h3; rw [h3.2]
  have hcap : m.cap = N := by
    have gen : ∀ (ops : List (Op P)) (s : BStack P), (s.run ops).1.cap = s.cap := by
      intro ops
      induction ops with
      | nil => intro s; rfl
      | cons op ops ih =>
        intro s
        show ((s.step op).1.run ops).1.cap = s.cap
        rw [ih]
        cases op <;> simp [BStack.step]
        split <;> rfl
    rw [← h2.cap, gen]; rfl
  have hl := h2.inv.len_le
  have hl' : m.length ≤ m.data.length := hl
  have hll := Manager.live_length h2.inv
  refine ⟨_, (m.data.drop m.length).reverse, rfl, hiter, ?_, ⟨m.data.drop m.length, ?_, by simp⟩, ?_, ?_⟩
  · rw [h2.items]
    unfold Manager.iterMut splitAt'
    by_cases hf : m.length = m.cap
    · rw [h2.inv.ins_full hf]
      have e : m.length = m.data.length := hf
      simp [Manager.live, e]
    · have := h2.inv.ins_lt (by omega)
      rw [this, if_pos hl']
      rfl
  · rw [h2.items]
    unfold Manager.ascIter splitAt'
    by_cases hf : m.length = m.cap
    · rw [h2.inv.ins_full hf]
      have e : m.length = m.data.length := hf
      simp [Manager.live, e]
    · have := h2.inv.ins_lt (by omega)
      rw [this, if_pos hl']
      simp [Manager.live]
  · rw [h2.items, hll]
    simp only [List.length_reverse, List.length_drop]
    unfold Manager.cap at hcap
    omega
  · rw [h2.items, hll]; rfl

example : ∃ m outs, (Manager.new 2 (0:Nat)).run .checked [.create .processing 7, .create .processing 8] =
    .ok (m, outs) ∧ m.iterMut = .ok [⟨1, .processing, 8⟩, ⟨0, .processing, 7⟩] ∧
    m.ascIter = .ok [⟨0, .processing, 7⟩, ⟨1, .processing, 8⟩] := by
  refine ⟨_, _, rfl, ?_, ?_⟩ <;> decide

end Verif
