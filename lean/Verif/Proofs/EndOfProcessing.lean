import Verif.Proofs.CopperList
import Verif.Spec.InFlight
/-! `end_of_processing` on a well formed manager. -/
namespace Verif
namespace CopperList
variable {P σ : Type}

/-- The slots not lent out are `Free`. -/
def Manager.DeadFree (m : Manager P) : Prop := ∀ c ∈ m.data.drop m.length, c.state = .free

/-- The lists lent out are being processed or finished. -/
def Manager.LiveActive (m : Manager P) : Prop :=
  ∀ c ∈ m.live, c.state = .processing ∨ c.state = .doneProcessing

def mark (id : UInt32) (c : CL P) : CL P :=
  if c.id = id ∧ c.state = .processing then { c with state := .doneProcessing } else c

def isDone (c : CL P) : Bool := c.state == .doneProcessing

def free (c : CL P) : CL P := { c with state := .free }

/-- The stream calls made for the finished lists. -/
def logAll (log : Logger σ P) : σ → List (CL P) → Rs σ
  | s, [] => .ok s
  | s, c :: cs =>
    match log with
    | none => logAll log s cs
    | some f =>
      match f s { c with state := .beingSerialized } with
      | .panic => .panic
      | .ok s' => logAll log s' cs

theorem eopLoop_notTop (log : Logger σ P) (id : UInt32) (s : σ) (nb : Nat) (l : List (CL P)) :
    eopLoop log id s false nb l = .ok (s, nb, l.map (mark id)) := by
  induction l with
  | nil => rfl
  | cons c l ih => simp [eopLoop, eopVisit, ih, mark]

theorem eopLoop_dead (log : Logger σ P) (id : UInt32) (s : σ) (nb : Nat) (t : Bool)
    (l : List (CL P)) (h : ∀ c ∈ l, c.state = .free) :
    eopLoop log id s t nb l = .ok (s, nb, l) := by
  cases l with
  | nil => rfl
  | cons c l =>
    have hc := h c (by simp)
    have hm : ∀ d ∈ l, mark id d = d := by
      intro d hd
      have := h d (by simp [hd])
      simp [mark, this]
    have : l.map (mark id) = l := by
      conv => rhs; rw [← List.map_id l]
      exact List.map_congr_left (fun d hd => by rw [hm d hd]; rfl)
    simp [eopLoop, eopVisit, hc, eopLoop_notTop, this]

theorem eopLoop_append_dead (log : Logger σ P) (id : UInt32) (s : σ) (nb : Nat) (t : Bool)
    (l d : List (CL P)) (h : ∀ c ∈ d, c.state = .free) :
    eopLoop log id s t nb (l ++ d) =
      match eopLoop log id s t nb l with
      | .panic => .panic
      | .ok (s', nb', l') => .ok (s', nb', l' ++ d) := by
  induction l generalizing s t nb with
  | nil => simp [eopLoop_dead log id s nb t d h, eopLoop]
  | cons c l ih =>
    simp only [List.cons_append, eopLoop]
    cases hv : eopVisit log id s t nb c with
    | panic => rfl
    | ok r =>
      obtain ⟨s1, t1, n1, c1⟩ := r
      simp only [ih]
      cases eopLoop log id s1 t1 n1 l with
      | panic => rfl
      | ok r => rfl

theorem eopLoop_top (log : Logger σ P) (id : UInt32) (s : σ) (nb : Nat) (l : List (CL P)) :
    eopLoop log id s true nb l =
      match logAll log s ((l.map (mark id)).takeWhile isDone) with
      | .panic => .panic
      | .ok s' => .ok (s', nb + ((l.map (mark id)).takeWhile isDone).length,
          ((l.map (mark id)).takeWhile isDone).map free ++ (l.map (mark id)).dropWhile isDone) := by
  induction l generalizing s nb with
  | nil => rfl
  | cons c l ih =>
    by_cases hd : isDone (mark id c) = true
    · have hd' : (mark id c).state = .doneProcessing := by simpa [isDone] using hd
      simp only [List.map_cons, List.takeWhile_cons_of_pos hd, List.dropWhile_cons_of_pos hd]
      cases log with
      | none =>
        have hv : eopVisit none id s true nb c = .ok (s, true, nb + 1, free (mark id c)) := by
          simp only [eopVisit]
          rw [if_pos ⟨trivial, hd'⟩]; rfl
        simp only [eopLoop, hv, ih, logAll]
        cases logAll (σ := σ) none s ((l.map (mark id)).takeWhile isDone) with
        | panic => rfl
        | ok s1 => simp; omega
      | some f =>
        have hv : eopVisit (some f) id s true nb c =
            match f s { mark id c with state := .beingSerialized } with
            | .panic => .panic
            | .ok s' => .ok (s', true, nb + 1, free (mark id c)) := by
          simp only [eopVisit]
          rw [if_pos ⟨trivial, hd'⟩]; rfl
        simp only [eopLoop, hv, logAll]
        cases f s { mark id c with state := .beingSerialized } with
        | panic => rfl
        | ok s1 =>
          simp only [ih]
          cases logAll (some f) s1 ((l.map (mark id)).takeWhile isDone) with
          | panic => rfl
          | ok s2 => simp; omega
    · have hd' : ¬ (mark id c).state = .doneProcessing := by simpa [isDone] using hd
      simp only [List.map_cons, List.takeWhile_cons_of_neg hd, List.dropWhile_cons_of_neg hd]
      have hv : eopVisit log id s true nb c = .ok (s, false, nb, mark id c) := by
        simp only [eopVisit]
        rw [if_neg (fun h => hd' h.2)]; rfl
      simp [eopLoop, hv, eopLoop_notTop, logAll]

theorem Manager.iterMut_eq {m : Manager P} (h : m.Inv) :
    m.iterMut = .ok (m.live ++ (m.data.drop m.length).reverse) := by
  have h1 : m.insertionIndex ≤ m.data.length := by
    have := h.ins_le; have h2 : m.length ≤ m.data.length := h.len_le; omega
  unfold Manager.iterMut splitAt'
  rw [if_pos h1]
  by_cases hf : m.length = m.cap
  · rw [h.ins_full hf]
    have : m.length = m.data.length := hf
    simp [Manager.live, this]
  · have := h.len_le
    rw [h.ins_lt (by omega)]; rfl

theorem Manager.popN_eq {m : Manager P} (h : m.Inv) (n : Nat) (hn : n ≤ m.length) :
    ∃ m', m.popN n = .ok m' ∧ m'.Inv ∧ m'.data = m.data ∧ m'.length = m.length - n ∧
      m'.currentClId = m.currentClId := by
  induction n generalizing m with
  | zero => exact ⟨m, rfl, h, rfl, rfl, rfl⟩
  | succ n ih =>
    have hp : m.length ≠ 0 := by omega
    obtain ⟨c, hc, _⟩ := live_pop h hp
    have hpop : m.pop = .ok ({ m with insertionIndex := m.length - 1, length := m.length - 1 }, some c) := by
      simp [Manager.pop, hp, h.lastIndex hp, hc]
    obtain ⟨m', h1, h2, h3, h4, h5⟩ := ih (Manager.inv_shrink h hp) (by show n ≤ m.length - 1; omega)
    refine ⟨m', ?_, h2, h3, ?_, h5⟩
    · simp only [Manager.popN, hpop]; exact h1
    · rw [h4]; show m.length - 1 - n = _; omega

/-- `end_of_processing` on a well formed manager: the finished lists on top are logged, newest
first, and dropped. -/
theorem endOfProcessing_eq (log : Logger σ P) (s : σ) {m : Manager P} (h : m.Inv)
    (hd : m.DeadFree) (hl : m.LiveActive) (id : UInt32) :
    (logAll log s ((m.live.map (mark id)).takeWhile isDone) = .panic ∧
      endOfProcessing log s m id = .panic) ∨
    ∃ s' m', logAll log s ((m.live.map (mark id)).takeWhile isDone) = .ok s' ∧
      endOfProcessing log s m id = .ok (s', m') ∧ m'.Inv ∧ m'.DeadFree ∧ m'.LiveActive ∧
      m'.live = (m.live.map (mark id)).dropWhile isDone ∧ m'.cap = m.cap ∧
      m'.currentClId = m.currentClId ∧ m'.data.map CL.msgs = m.data.map CL.msgs := by
  have hle : m.length ≤ m.data.length := h.len_le
  have hdead : ∀ c ∈ (m.data.drop m.length).reverse, c.state = .free := by
    intro c hc; exact hd c (List.mem_reverse.1 hc)
  have hll := Manager.live_length h
  generalize hD : (m.live.map (mark id)).takeWhile isDone = D
  generalize hR : (m.live.map (mark id)).dropWhile isDone = R
  have hDR : D ++ R = m.live.map (mark id) := by
    rw [← hD, ← hR]; exact List.takeWhile_append_dropWhile
  have hlen : D.length + R.length = m.length := by
    have := congrArg List.length hDR
    simpa [hll] using this
  unfold endOfProcessing
  rw [Manager.iterMut_eq h]
  simp only [eopLoop_append_dead log id s 0 true _ _ hdead, eopLoop_top, hD, hR]
  cases hlog : logAll log s D with
  | panic => exact .inl ⟨rfl, rfl⟩
  | ok s' =>
    right
    simp only [Nat.zero_add]
    -- the data after writing back
    have hdata : ((D.map free ++ R ++ (m.data.drop m.length).reverse).take m.insertionIndex).reverse ++
        ((D.map free ++ R ++ (m.data.drop m.length).reverse).drop m.insertionIndex).reverse =
        R.reverse ++ (D.map free).reverse ++ m.data.drop m.length := by
      by_cases hf : m.length = m.cap
      · have hf' : m.length = m.data.length := hf
        rw [h.ins_full hf]; simp [hf']
      · have hcap := h.len_le
        rw [h.ins_lt (by omega), List.take_left' (by simp; omega), List.drop_left' (by simp; omega)]
        simp
    rw [hdata]
    generalize hm1 : ({ m with data := R.reverse ++ (D.map free).reverse ++ m.data.drop m.length } : Manager P) = m1
    have hcap1 : m1.cap = m.cap := by
      subst hm1; simp [Manager.cap]; omega
    have hlen1 : m1.length = m.length := by subst hm1; rfl
    have hinv1 : m1.Inv := by
      refine ⟨by rw [hcap1, hlen1]; exact h.len_le, ?_⟩
      rw [hcap1, hlen1]; subst hm1; exact h.ins
    obtain ⟨m', hp, hinv', hdata', hlen', hid'⟩ := Manager.popN_eq hinv1 D.length (by omega)
    have hl' : m'.length = R.length := by omega
    have hd' : m'.data = R.reverse ++ ((D.map free).reverse ++ m.data.drop m.length) := by
      rw [hdata', ← hm1]; simp
    have hlive' : m'.live = R := by
      unfold Manager.live
      rw [hd', hl', List.take_left' (by simp)]; simp
    refine ⟨s', m', rfl, by simp [hp], hinv', ?_, ?_, hlive', ?_, ?_, ?_⟩
    · intro c hc
      rw [hd', hl', List.drop_left' (by simp)] at hc
      rcases List.mem_append.1 hc with hc | hc
      · obtain ⟨c', _, rfl⟩ := List.mem_map.1 (List.mem_reverse.1 hc); rfl
      · exact hd c hc
    · intro c hc
      rw [hlive'] at hc
      have : c ∈ m.live.map (mark id) := by rw [← hDR]; exact List.mem_append_right _ hc
      obtain ⟨c', hc', rfl⟩ := List.mem_map.1 this
      unfold mark
      split
      · exact .inr rfl
      · exact hl c' hc'
    · rw [← hcap1]; unfold Manager.cap; rw [hdata']
    · rw [hid', ← hm1]
    · have hmk : ∀ c : CL P, (mark id c).msgs = c.msgs := by intro c; unfold mark; split <;> rfl
      have h1 : (D ++ R).map CL.msgs = m.live.map CL.msgs := by
        rw [hDR, List.map_map]; exact List.map_congr_left (fun c _ => hmk c)
      have h2 : (D.map free).map CL.msgs = D.map CL.msgs := by
        rw [List.map_map]; exact List.map_congr_left (fun c _ => rfl)
      have h3 : m.data.map CL.msgs = (m.live.map CL.msgs).reverse ++ (m.data.drop m.length).map CL.msgs := by
        unfold Manager.live
        rw [← List.map_reverse, List.reverse_reverse, ← List.map_append, List.take_append_drop]
      rw [hd', h3, ← h1]
      simp only [List.map_append, List.map_reverse, h2, List.reverse_append, List.append_assoc]

end CopperList
end Verif
