import Verif.Proofs.EndOfProcessing
/-! Refinement of manager + `end_of_processing` to the in-flight stack (C11). -/
namespace Verif
namespace CopperList
variable {P : Type}

def InFlight.toCL (c : InFlight P) : CL P :=
  ⟨c.id, if c.done then .doneProcessing else .processing, c.msgs⟩

def logged (x : UInt32 × P) : CL P := ⟨x.1, .beingSerialized, x.2⟩

structure LRel (s : Life P) (f : Flight P) : Prop where
  inv : s.mgr.Inv
  dead : s.mgr.DeadFree
  live : s.mgr.live = f.flying.map InFlight.toCL
  cap : s.mgr.cap = f.cap
  id : s.mgr.currentClId = UInt32.ofNat f.created
  log : s.log = f.log.map logged

theorem LRel.active {s : Life P} {f : Flight P} (h : LRel s f) : s.mgr.LiveActive := by
  intro c hc
  rw [h.live] at hc
  obtain ⟨x, _, rfl⟩ := List.mem_map.1 hc
  cases hx : x.done <;> simp [InFlight.toCL, hx]

theorem mark_toCL (id : UInt32) (c : InFlight P) :
    mark id c.toCL = InFlight.toCL { c with done := c.done || c.id == id } := by
  unfold mark InFlight.toCL
  cases hd : c.done <;> by_cases hi : c.id = id <;> simp [hi]

theorem isDone_toCL (c : InFlight P) : isDone c.toCL = c.done := by
  cases hd : c.done <;> simp [isDone, InFlight.toCL, hd] <;> decide

theorem logAll_memLog (l : List (CL P)) (cs : List (CL P)) :
    logAll memLog l cs = .ok (l ++ cs.map (fun c => { c with state := .beingSerialized })) := by
  induction cs generalizing l with
  | nil => simp [logAll]
  | cons c cs ih =>
    show logAll memLog (l ++ [_]) cs = _
    rw [ih]; simp

theorem lrel_new (N : Nat) (z : P) : LRel ⟨Manager.new N z, []⟩ (Flight.empty N) := by
  refine ⟨Manager.new_inv N z, ?_, ?_, ?_, ?_, ?_⟩ <;>
    simp [Manager.new, Flight.empty, Manager.cap, Manager.live, Manager.DeadFree]

theorem lrel_step {o : Overflow} {s : Life P} {f f' : Flight P} (h : LRel s f) (op : LifeOp P)
    (hf : f.step op = some f') (hid : f'.created ≤ 4294967295 ∨ o = .wrapping) :
    ∃ s', s.step o op = .ok s' ∧ LRel s' f' := by
  have hlen : f.flying.length = s.mgr.length := by
    have := Manager.live_length h.inv
    rw [h.live] at this; simpa using this
  cases op with
  | create msgs =>
    simp only [Flight.step] at hf
    by_cases hc : f.flying.length < f.cap
    · rw [if_pos hc] at hf
      cases hf
      have hlt : s.mgr.length < s.mgr.cap := by rw [h.cap]; omega
      have hid' : s.mgr.currentClId ≠ 0xFFFFFFFF ∨ o = .wrapping := by
        rcases hid with h1 | h1
        · left
          have h1 : f.created + 1 ≤ 4294967295 := h1
          rw [h.id]
          intro hc
          have := congrArg UInt32.toNat hc
          simp only [UInt32.toNat_ofNat'] at this
          rw [Nat.mod_eq_of_lt (by omega)] at this
          have h2 : (0xFFFFFFFF : UInt32).toNat = 4294967295 := by decide
          omega
        · exact .inr h1
      obtain ⟨slot, hslot, hcr⟩ := Manager.create_ok (o := o) h.inv hlt hid'
      have hlt' : s.mgr.length < s.mgr.data.length := hlt
      have hset : (s.mgr.data.set s.mgr.length { slot with id := s.mgr.currentClId }).modify
          s.mgr.length (fun c => { c with state := .processing, msgs := msgs }) =
          s.mgr.data.set s.mgr.length ⟨s.mgr.currentClId, .processing, msgs⟩ := by
        apply List.ext_getElem?
        intro i
        simp only [List.getElem?_modify, List.getElem?_set]
        by_cases hi : s.mgr.length = i
        · subst hi; simp [hlt']
        · simp [hi]
      unfold Life.step
      rw [hcr]
      refine ⟨_, rfl, ?_⟩
      simp only [Manager.write, hset]
      refine ⟨⟨?_, ?_⟩, ?_, ?_, ?_, ?_, h.log⟩
      · simp only [Manager.cap, List.length_set]; omega
      · simp [Manager.cap]
      · intro c hc
        simp only [List.drop_set] at hc
        rw [if_pos (by omega)] at hc
        refine h.dead c ?_
        have : s.mgr.data.drop (s.mgr.length + 1) = (s.mgr.data.drop s.mgr.length).drop 1 := by
          simp
        rw [this] at hc
        exact List.mem_of_mem_drop hc
      · simp only [Manager.live, take_set_succ _ _ _ hlt', List.reverse_append,
          List.reverse_singleton, List.singleton_append, List.map_cons]
        rw [← h.live, h.id]; rfl
      · simpa [Manager.cap] using h.cap
      · simp [h.id, UInt32.ofNat_add]
    · rw [if_neg hc] at hf; cases hf
  | finish id =>
    simp only [Flight.step, Option.some.injEq] at hf
    subst hf
    have hmk : s.mgr.live.map (mark id) =
        (f.flying.map (fun c => { c with done := c.done || c.id == id })).map InFlight.toCL := by
      rw [h.live, List.map_map, List.map_map]
      exact List.map_congr_left (fun c _ => mark_toCL id c)
    have hcomp : (isDone ∘ InFlight.toCL : InFlight P → Bool) = (fun c => c.done) :=
      funext isDone_toCL
    rcases endOfProcessing_eq memLog s.log h.inv h.dead h.active id with ⟨h1, _⟩ | h1
    · rw [logAll_memLog] at h1; cases h1
    · obtain ⟨log', m', h1, h2, h3, h4, _, h6, h7, h8, _⟩ := h1
      rw [logAll_memLog] at h1
      cases h1
      refine ⟨⟨m', _⟩, by simp only [Life.step, h2]; rfl, h3, h4, ?_, ?_, ?_, ?_⟩
      · rw [h6, hmk, List.dropWhile_map, hcomp]
      · rw [h7]; exact h.cap
      · rw [h8]; exact h.id
      · show s.log ++ _ = _
        rw [h.log, hmk, List.takeWhile_map, hcomp]
        simp [logged, InFlight.toCL, Function.comp_def]

theorem flight_step_created {f f' : Flight P} {op : LifeOp P} (h : f.step op = some f') :
    f.created ≤ f'.created := by
  cases op with
  | create m =>
    simp only [Flight.step] at h
    split at h
    · cases h; exact Nat.le_succ _
    · cases h
  | finish id => simp only [Flight.step, Option.some.injEq] at h; subst h; exact Nat.le_refl _

theorem flight_run_created {f f' : Flight P} {ops : List (LifeOp P)} (h : f.run ops = some f') :
    f.created ≤ f'.created := by
  induction ops generalizing f with
  | nil => simp only [Flight.run, Option.some.injEq] at h; subst h; exact Nat.le_refl _
  | cons op ops ih =>
    unfold Flight.run at h
    cases hs : f.step op with
    | none => rw [hs] at h; cases h
    | some f1 =>
      rw [hs] at h
      exact Nat.le_trans (flight_step_created hs) (ih h)

theorem lrel_run {o : Overflow} {s : Life P} {f f' : Flight P} (h : LRel s f)
    (ops : List (LifeOp P)) (hf : f.run ops = some f')
    (hid : f'.created ≤ 4294967295 ∨ o = .wrapping) :
    ∃ s', s.run o ops = .ok s' ∧ LRel s' f' := by
  induction ops generalizing s f with
  | nil =>
    simp only [Flight.run, Option.some.injEq] at hf; subst hf
    exact ⟨s, rfl, h⟩
  | cons op ops ih =>
    unfold Flight.run at hf
    cases hs : f.step op with
    | none => rw [hs] at hf; cases hf
    | some f1 =>
      rw [hs] at hf
      obtain ⟨s1, h1, h2⟩ := lrel_step (o := o) h op hs (by
        rcases hid with h1 | h1
        · left; have := flight_run_created hf; omega
        · exact .inr h1)
      obtain ⟨s2, h3, h4⟩ := ih h2 hf
      exact ⟨s2, by simp only [Life.run, h1]; exact h3, h4⟩

/-! Properties of the specification's own histories. -/

theorem createdLists_append_create (ops : List (LifeOp P)) (m : P) :
    createdLists (ops ++ [.create m]) =
      createdLists ops ++ [(UInt32.ofNat (createdLists ops).length, m)] := by
  simp [createdLists, List.filterMap_append, List.zipIdx_append]

theorem createdLists_append_finish (ops : List (LifeOp P)) (id : UInt32) :
    createdLists (ops ++ [.finish id]) = createdLists ops := by
  simp [createdLists, List.filterMap_append]

structure FInv (ops : List (LifeOp P)) (f : Flight P) : Prop where
  all : (f.log ++ f.flying.map (fun c => (c.id, c.msgs))).Perm (createdLists ops)
  created : f.created = (createdLists ops).length
  fin : ∀ id, (id ∈ f.log.map Prod.fst ∨ ∃ c ∈ f.flying, c.id = id ∧ c.done = true) →
    FinishedIn ops id
  cap : f.flying.length ≤ f.cap

theorem FinishedIn.mono {ops : List (LifeOp P)} {id : UInt32} (h : FinishedIn ops id)
    (more : List (LifeOp P)) : FinishedIn (ops ++ more) id := by
  obtain ⟨a, b, h1, h2⟩ := h
  exact ⟨a, b ++ more, by rw [h1]; simp, h2⟩

theorem finv_step {ops : List (LifeOp P)} {f f' : Flight P} (h : FInv ops f) (op : LifeOp P)
    (hf : f.step op = some f') : FInv (ops ++ [op]) f' := by
  cases op with
  | create m =>
    simp only [Flight.step] at hf
    by_cases hc : f.flying.length < f.cap
    · rw [if_pos hc] at hf
      cases hf
      refine ⟨?_, ?_, ?_, ?_⟩
      · rw [createdLists_append_create, ← h.created]
        simp only [List.map_cons]
        refine List.perm_middle.trans ?_
        refine (List.Perm.cons _ h.all).trans ?_
        exact (List.perm_append_singleton _ _).symm
      · rw [createdLists_append_create]; simp [h.created]
      · intro id hid
        refine (h.fin id ?_).mono _
        rcases hid with h1 | ⟨c, hc1, hc2⟩
        · exact .inl h1
        · simp only [List.mem_cons] at hc1
          rcases hc1 with rfl | hc1
          · exact absurd hc2.2 (by simp)
          · exact .inr ⟨c, hc1, hc2⟩
      · simp only [List.length_cons]; omega
    · rw [if_neg hc] at hf; cases hf
  | finish id =>
    simp only [Flight.step, Option.some.injEq] at hf
    subst hf
    generalize hM : f.flying.map (fun c => { c with done := c.done || c.id == id }) = M
    have hMm : M.map (fun c => (c.id, c.msgs)) = f.flying.map (fun c => (c.id, c.msgs)) := by
      subst hM; simp [Function.comp_def]
    have hfin : ∀ c ∈ M, c.done = true → FinishedIn (ops ++ [.finish id]) c.id := by
      intro c hc hd
      subst hM
      obtain ⟨c', hc', rfl⟩ := List.mem_map.1 hc
      simp only [Bool.or_eq_true, beq_iff_eq] at hd
      rcases hd with hd | hd
      · exact (h.fin c'.id (.inr ⟨c', hc', rfl, hd⟩)).mono _
      · refine ⟨ops, [], by rw [hd], ?_⟩
        refine List.mem_map.2 ⟨(c'.id, c'.msgs), ?_, rfl⟩
        refine h.all.mem_iff.1 ?_
        exact List.mem_append_right _ (List.mem_map.2 ⟨c', hc', rfl⟩)
    refine ⟨?_, ?_, ?_, ?_⟩
    · rw [createdLists_append_finish]
      refine List.Perm.trans ?_ h.all
      rw [List.append_assoc, ← List.map_append, List.takeWhile_append_dropWhile, hMm]
    · rw [createdLists_append_finish]; exact h.created
    · intro i hi
      rcases hi with hi | ⟨c, hc1, hc2, hc3⟩
      · rw [List.map_append, List.mem_append] at hi
        rcases hi with hi | hi
        · exact (h.fin i (.inl hi)).mono _
        · rw [List.map_map, List.mem_map] at hi
          obtain ⟨c, hc, rfl⟩ := hi
          exact hfin c ((List.takeWhile_sublist _).subset hc) (by
            have := List.all_takeWhile (l := M) (p := fun c => c.done)
            rw [List.all_eq_true] at this
            exact this c hc)
      · rw [← hc2]
        exact hfin c ((List.dropWhile_sublist _).subset hc1) hc3
    · have h1 := (List.dropWhile_sublist (fun c : InFlight P => c.done) (l := M)).length_le
      have h2 : M.length = f.flying.length := by subst hM; simp
      have := h.cap
      show (M.dropWhile _).length ≤ f.cap
      omega

theorem finv_run {ops : List (LifeOp P)} {f f' : Flight P} (h : FInv ops f) (more : List (LifeOp P))
    (hf : f.run more = some f') : FInv (ops ++ more) f' := by
  induction more generalizing f ops with
  | nil => simp only [Flight.run, Option.some.injEq] at hf; subst hf; simpa using h
  | cons op more ih =>
    unfold Flight.run at hf
    cases hs : f.step op with
    | none => rw [hs] at hf; cases hf
    | some f1 =>
      rw [hs] at hf
      have := ih (finv_step h op hs) hf
      simpa using this

theorem finv_empty (N : Nat) : FInv [] (Flight.empty N : Flight P) := by
  refine ⟨by simp [Flight.empty, createdLists], by simp [Flight.empty, createdLists], ?_, by simp [Flight.empty]⟩
  intro id h
  simp [Flight.empty] at h

theorem createdLists_ids_nodup (ops : List (LifeOp P)) (h : (createdLists ops).length ≤ 4294967296) :
    ((createdLists ops).map Prod.fst).Nodup := by
  have h0 : (createdLists ops).map Prod.fst =
      (List.range (createdLists ops).length).map UInt32.ofNat := by
    apply List.ext_getElem?
    intro i
    simp only [createdLists, List.map_map, List.length_map, List.length_zipIdx, List.getElem?_map,
      List.getElem?_zipIdx, Option.map_map]
    generalize List.filterMap _ ops = L
    by_cases hi : i < L.length
    · simp [hi]
    · simp [hi]
  rw [h0]
  refine List.pairwise_map.2 ?_
  refine List.Pairwise.imp_of_mem ?_ (List.pairwise_lt_range (n := (createdLists ops).length))
  intro a b ha hb hab heq
  have ha := List.mem_range.1 ha
  have hb := List.mem_range.1 hb
  have := congrArg UInt32.toNat heq
  simp only [UInt32.toNat_ofNat'] at this
  rw [Nat.mod_eq_of_lt (by omega), Nat.mod_eq_of_lt (by omega)] at this
  omega

theorem flight_sequential (msgs : List P) (k : Nat) (f : Flight P) (hf : f.flying = [])
    (hc : 0 < f.cap) (hk : f.created = k) :
    f.run ((msgs.zipIdx k).flatMap (fun x => [.create x.1, .finish (UInt32.ofNat x.2)])) =
      some { f with created := k + msgs.length
                    log := f.log ++ (msgs.zipIdx k).map (fun x => (UInt32.ofNat x.2, x.1)) } := by
  induction msgs generalizing k f with
  | nil => subst hk; simp [Flight.run]
  | cons m msgs ih =>
    simp only [List.zipIdx_cons, List.flatMap_cons, List.cons_append, List.nil_append, Flight.run,
      Flight.step, hf, List.length_nil, if_pos hc, List.map_cons, List.map_nil, hk,
      beq_self_eq_true, Bool.or_true, List.dropWhile_cons, if_true, List.dropWhile_nil,
      List.takeWhile_cons, List.takeWhile_nil]
    rw [ih (k + 1) ⟨f.cap, [], k + 1, f.log ++ [(UInt32.ofNat k, m)]⟩ rfl hc rfl]
    simp; omega

end CopperList
end Verif
