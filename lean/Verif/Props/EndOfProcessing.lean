import Verif.Proofs.InFlight
/-!
C11 (copper lists are logged once, complete, in order) about the copper list manager and
`end_of_processing` (core/cu29_runtime/src/copperlist.rs, curuntime.rs:97-124).
-/
namespace Verif
namespace CopperList
variable {P : Type}

/-- An application that never takes more lists than the pool holds; the specification accepts its
history. -/
def Fits (N : Nat) (ops : List (LifeOp P)) : Prop := (Flight.empty N : Flight P).run ops ≠ none

instance (N : Nat) (ops : List (LifeOp P)) : Decidable (Fits N ops) := by
  unfold Fits
  cases (Flight.empty N : Flight P).run ops with
  | none => exact isFalse (fun h => h rfl)
  | some _ => exact isTrue (fun h => by cases h)

/-- For every history of creations and completions in any order that does not exceed the pool
(and the 32-bit ids), no step panics and, at the end:
* every list created is either in the log or still in the pool, with the messages it was given,
  and in exactly one of the two (the ids are distinct);
* the list in the log were created and declared finished afterwards;
so a list is logged at most once, complete, after its processing, and its slot is not given back
before that. -/
theorem C11_logged_once (o : Overflow) (N : Nat) (zero : P) (ops : List (LifeOp P))
    (hfit : Fits N ops) (hid : (createdLists ops).length ≤ 4294967295) :
    ∃ s, (Life.run o ⟨Manager.new N zero, []⟩ ops) = .ok s ∧
      (s.log.map (fun c => (c.id, c.msgs)) ++ s.mgr.live.map (fun c => (c.id, c.msgs))).Perm
        (createdLists ops) ∧
      (s.log.map (fun c => c.id) ++ s.mgr.live.map (fun c => c.id)).Nodup ∧
      (∀ c ∈ s.log, FinishedIn ops c.id) := by
  unfold Fits at hfit
  cases hf : (Flight.empty N : Flight P).run ops with
  | none => exact absurd hf hfit
  | some f =>
    have hi : FInv ops f := by simpa using finv_run (finv_empty N) ops hf
    obtain ⟨s, hs, hr⟩ := lrel_run (o := o) (lrel_new N zero) ops hf (.inl (by rw [hi.created]; exact hid))
    have h1 : s.log.map (fun c => (c.id, c.msgs)) = f.log := by
      rw [hr.log]; simp [Function.comp_def, logged]
    have h2 : s.mgr.live.map (fun c => (c.id, c.msgs)) = f.flying.map (fun c => (c.id, c.msgs)) := by
      rw [hr.live]; simp [Function.comp_def, InFlight.toCL]
    have h3 : (s.log.map (fun c => (c.id, c.msgs)) ++
        s.mgr.live.map (fun c => (c.id, c.msgs))).Perm (createdLists ops) := by
      rw [h1, h2]; exact hi.all
    refine ⟨s, hs, h3, ?_, ?_⟩
    · have h4 := (h3.map Prod.fst).nodup_iff.2 (createdLists_ids_nodup ops (by omega))
      simpa [Function.comp_def] using h4
    · intro c hc
      refine hi.fin c.id (.inl ?_)
      rw [← h1]
      exact List.mem_map.2 ⟨(c.id, c.msgs), List.mem_map.2 ⟨c, hc, rfl⟩, rfl⟩

/-- The hypotheses are met by a history with three lists in flight finishing out of order. -/
example : Fits (P := Nat) 3 [.create 10, .create 20, .create 30, .finish 1, .finish 2, .create 40,
    .finish 0] ∧
    (createdLists (P := Nat) [.create 10, .create 20, .create 30, .finish 1, .finish 2, .create 40,
    .finish 0]).length ≤ 4294967295 := by decide

theorem flight_cap {ops : List (LifeOp P)} : ∀ {f f' : Flight P}, f.run ops = some f' → f'.cap = f.cap := by
  induction ops with
  | nil => intro f f' h; cases h; rfl
  | cons op ops ih =>
    intro f f' h
    simp only [Flight.run] at h
    cases hs : f.step op with
    | none => simp [hs] at h
    | some f1 =>
      simp only [hs] at h
      rw [ih h]
      cases op with
      | create m =>
        simp only [Flight.step] at hs
        split at hs
        · cases hs; rfl
        · cases hs
      | finish id => simp only [Flight.step, Option.some.injEq] at hs; rw [← hs]

/-- The number of available lists is what is left of the pool: the lists created and not logged yet are in use.  When it
is 0, and only then, there is no list to create. -/
theorem C11_available (o : Overflow) (N : Nat) (zero : P) (ops : List (LifeOp P))
    (hfit : Fits N ops) (hid : (createdLists ops).length ≤ 4294967294) :
    ∃ s, (Life.run o ⟨Manager.new N zero, []⟩ ops) = .ok s ∧
      s.mgr.available + (createdLists ops).length = N + s.log.length ∧
      (s.mgr.available = 0 ∧ s.mgr.create o = .ok (s.mgr, none) ∨
        0 < s.mgr.available ∧ ∃ m slot, s.mgr.create o = .ok (m, some slot) ∧ m.available + 1 = s.mgr.available) := by
  obtain ⟨s, hs, hall, _⟩ := C11_logged_once o N zero ops hfit (by omega)
  unfold Fits at hfit
  cases hf : (Flight.empty N : Flight P).run ops with
  | none => exact absurd hf hfit
  | some f =>
    have hi : FInv ops f := by simpa using finv_run (finv_empty N) ops hf
    obtain ⟨s', hs', hr⟩ := lrel_run (o := o) (lrel_new N zero) ops hf (.inl (by rw [hi.created]; omega))
    rw [hs] at hs'
    cases hs'
    have h1 := hall.length_eq
    have h2 := Manager.live_length hr.inv
    have h3 := hr.inv.len_le
    have h4 : s.mgr.cap = N := by rw [hr.cap, flight_cap hf]; rfl
    simp only [List.length_append, List.length_map] at h1
    refine ⟨s, hs, by simp only [Manager.available, Manager.len]; omega, ?_⟩
    by_cases hfull : s.mgr.length = s.mgr.cap
    · refine .inl ⟨by simp only [Manager.available, Manager.len]; omega, ?_⟩
      have : s.mgr.isFull = true := by simp only [Manager.isFull, Manager.len, hfull, beq_self_eq_true]
      unfold Manager.create
      rw [if_pos this]
    · refine .inr ⟨by simp only [Manager.available, Manager.len]; omega, ?_⟩
      have hins := hr.inv.ins_lt (by omega)
      have hlt : s.mgr.insertionIndex < s.mgr.data.length := by
        rw [hins]; unfold Manager.cap at h3 hfull; omega
      have hne : s.mgr.currentClId ≠ 0xFFFFFFFF := by
        rw [hr.id, hi.created]
        intro h
        have := congrArg UInt32.toNat h
        rw [UInt32.toNat_ofNat'] at this
        simp at this
        omega
      refine ⟨⟨s.mgr.data.set s.mgr.insertionIndex { s.mgr.data[s.mgr.insertionIndex] with id := s.mgr.currentClId },
          s.mgr.length + 1, (s.mgr.insertionIndex + 1) % s.mgr.cap, s.mgr.currentClId + 1⟩, s.mgr.insertionIndex, ?_, ?_⟩
      · have hf' : s.mgr.isFull = false := by simp only [Manager.isFull, Manager.len, beq_eq_false_iff_ne]; exact Ne.symm hfull
        simp [Manager.create, hf', hlt, hne]
      · simp only [Manager.available, Manager.len, Manager.cap, List.length_set] at h4 h3 hfull ⊢
        omega

example : Fits (P := Nat) 2 [.create 10, .create 20, .finish 0] ∧ (match Life.run (P := Nat) .checked ⟨Manager.new 2 0, []⟩
    [.create 10, .create 20, .finish 0] with | .ok s => s.mgr.available | .panic => 7) = 0 := by decide

/-- A history using one list at a time never exhausts the pool, and its log holds all the lists in
creation order. -/
theorem C11_sequential_order (o : Overflow) (N : Nat) (hN : 0 < N) (zero : P) (msgs : List P)
    (hid : msgs.length ≤ 4294967295) :
    ∃ s, Life.run o ⟨Manager.new N zero, []⟩ (oneAtATime msgs) = .ok s ∧
      s.log.map (fun c => (c.id, c.msgs)) = msgs.zipIdx.map (fun x => (UInt32.ofNat x.2, x.1)) ∧
      s.mgr.live = [] := by
  have hf := flight_sequential msgs 0 (Flight.empty N) rfl hN rfl
  obtain ⟨s, hs, hr⟩ := lrel_run (o := o) (lrel_new N zero) _ hf (.inl (by simpa using hid))
  refine ⟨s, hs, ?_, ?_⟩
  · rw [hr.log]; simp [Function.comp_def, logged, Flight.empty]
  · rw [hr.live]; rfl

example := C11_sequential_order .checked 2 (by decide) 0 [10, 20, 30] (by decide)

/-- The part of the property about order, for lists that overlap: lists finished in creation order
are logged in creation order. -/
def C11_order_statement : Prop :=
  ∀ (o : Overflow) (N : Nat) (ops : List (LifeOp Nat)) (s : Life Nat), Fits N ops →
    (ops.filterMap (fun | .finish id => some id.toNat | .create _ => none)).Pairwise (· < ·) →
    Life.run o ⟨Manager.new N 0, []⟩ ops = .ok s →
    (s.log.map (fun c => c.id.toNat)).Pairwise (· < ·)

/-- Refuted: with two lists in flight finishing in creation order, both are logged when the second
one finishes, newest first. -/
theorem C11_violated_overlapping_order :
    ¬ C11_order_statement ∧
    (∃ s, Life.run .checked ⟨Manager.new 2 0, []⟩
        [.create 10, .create 20, .finish 0, .finish 1] = .ok s ∧
      s.log = [⟨1, .beingSerialized, 20⟩, ⟨0, .beingSerialized, 10⟩]) := by
  refine ⟨?_, _, rfl, by decide⟩
  intro h
  have := h .checked 2 [.create 10, .create 20, .finish 0, .finish 1] _ (by decide) (by decide) rfl
  revert this
  decide

end CopperList
end Verif
