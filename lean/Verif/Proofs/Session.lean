import Verif.Spec.Session
import Verif.Proofs.EndToEnd
/-!
Lemmas about programs that use several applications.
-/
namespace Verif
namespace ULog

/-- The streams after these operations. -/
def streamsAfter : List (Option (EntryType × Nat)) → List LogOp → List (Option (EntryType × Nat))
  | live, [] => live
  | live, .openStream t n :: ops => streamsAfter (live ++ [some (t, n)]) ops
  | live, .log _ _ :: ops => streamsAfter live ops
  | live, .drop i :: ops => streamsAfter (live.set i none) ops

/-- Whether nothing was logged on the last stream of the type, after these operations. -/
def idleAfter (t : EntryType) : Bool → List (Option (EntryType × Nat)) → List LogOp → Bool
  | idle, _, [] => idle
  | idle, live, .openStream t' n :: ops => idleAfter t (idle || t' == t) (live ++ [some (t', n)]) ops
  | idle, live, .log i obj :: ops => idleAfter t (idle && (logged t live [.log i obj]).isEmpty) live ops
  | idle, live, .drop i :: ops => idleAfter t idle (live.set i none) ops

theorem logged_append (t : EntryType) (a b : List LogOp) (live : List (Option (EntryType × Nat))) :
    logged t live (a ++ b) = logged t live a ++ logged t (streamsAfter live a) b := by
  induction a generalizing live with
  | nil => rfl
  | cons op a ih =>
    cases op with
    | openStream t' n => exact ih _
    | log i obj =>
      simp only [List.cons_append, logged, streamsAfter]
      rw [ih, List.append_assoc]
    | drop i => exact ih _

theorem history_append {page slab : Nat} (a b : List LogOp) (live : List (Option (EntryType × Nat))) :
    HistoryOk page slab live (a ++ b) ↔ HistoryOk page slab live a ∧ HistoryOk page slab (streamsAfter live a) b := by
  induction a generalizing live with
  | nil => simp [HistoryOk, streamsAfter]
  | cons op a ih =>
    cases op <;> simp only [List.cons_append, HistoryOk, streamsAfter, ih, and_assoc]

theorem used_append (t : EntryType) (a b : List LogOp) (idle : Bool) (live : List (Option (EntryType × Nat))) :
    UsedFirst t idle live (a ++ b) ↔
      UsedFirst t idle live a ∧ UsedFirst t (idleAfter t idle live a) (streamsAfter live a) b := by
  induction a generalizing live idle with
  | nil => simp [UsedFirst, streamsAfter, idleAfter]
  | cons op a ih =>
    cases op <;> simp only [List.cons_append, UsedFirst, streamsAfter, idleAfter, ih, and_assoc]

theorem streamsAfter_append (a b : List LogOp) (live : List (Option (EntryType × Nat))) :
    streamsAfter live (a ++ b) = streamsAfter (streamsAfter live a) b := by
  induction a generalizing live with
  | nil => rfl
  | cons op a ih => cases op <;> exact ih _

theorem idleAfter_append (t : EntryType) (a b : List LogOp) (idle : Bool) (live : List (Option (EntryType × Nat))) :
    idleAfter t idle live (a ++ b) = idleAfter t (idleAfter t idle live a) (streamsAfter live a) b := by
  induction a generalizing live idle with
  | nil => rfl
  | cons op a ih => cases op <;> exact ih _ _

theorem openedTypes_append (a b : List LogOp) : openedTypes (a ++ b) = openedTypes a ++ openedTypes b := by
  induction a with
  | nil => rfl
  | cons op a ih => cases op <;> simp [openedTypes, ih]

/-- The streams there are were opened. -/
theorem streamsAfter_opened (ops : List LogOp) {live : List (Option (EntryType × Nat))} {ts : List EntryType}
    (hl : ts.length = live.length) (h : ∀ (i : Nat) t n, live[i]? = some (some (t, n)) → ts[i]? = some t) :
    (ts ++ openedTypes ops).length = (streamsAfter live ops).length ∧
    ∀ (i : Nat) t n, (streamsAfter live ops)[i]? = some (some (t, n)) → (ts ++ openedTypes ops)[i]? = some t := by
  induction ops generalizing live ts with
  | nil => simpa [openedTypes, streamsAfter] using ⟨hl, h⟩
  | cons op ops ih =>
    cases op with
    | openStream t n =>
      have := ih (live := live ++ [some (t, n)]) (ts := ts ++ [t]) (by simp [hl]) (by
        intro i u m hi
        rw [List.getElem?_append] at hi ⊢
        rw [hl]
        split at hi
        · rename_i hlt; rw [if_pos hlt]; exact h i u m hi
        · rename_i hlt
          rw [if_neg hlt]
          rw [List.getElem?_singleton] at hi ⊢
          split at hi
          · rename_i e; rw [if_pos e]; simp only [Option.some.injEq, Prod.mk.injEq] at hi; rw [hi.1]
          · cases hi)
      simpa [openedTypes, streamsAfter] using this
    | log i obj => exact ih hl h
    | drop j =>
      exact ih (by simpa using hl) (by
        intro i u m hi
        rw [List.getElem?_set] at hi
        split at hi
        · split at hi <;> simp at hi
        · exact h i u m hi)

end ULog

namespace Runtime
open Bincode CopperList ULog
variable {σ P : Type}

/-- Operations that leave the streams of a type alone. -/
theorem elsewhere_after {ops : List LogOp} {live : List (Option (EntryType × Nat))} {t : EntryType} (idle : Bool)
    (h1 : ∀ n, .openStream t n ∉ ops)
    (h2 : ∀ (i : Nat) n, live[i]? = some (some (t, n)) → (∀ obj, .log i obj ∉ ops) ∧ .drop i ∉ ops) :
    logged t live ops = [] ∧ UsedFirst t idle live ops ∧ idleAfter t idle live ops = idle ∧
      ∀ (i : Nat) n, (streamsAfter live ops)[i]? = some (some (t, n)) ↔ live[i]? = some (some (t, n)) := by
  induction ops generalizing live with
  | nil => exact ⟨rfl, trivial, rfl, fun _ _ => Iff.rfl⟩
  | cons op ops ih =>
    have h1' : ∀ n, .openStream t n ∉ ops := fun n hn => h1 n (List.mem_cons_of_mem _ hn)
    cases op with
    | openStream u m =>
      have hu : u ≠ t := by rintro rfl; exact h1 m (by simp)
      have key : ∀ (i : Nat) n, (live ++ [some (u, m)])[i]? = some (some (t, n)) ↔ live[i]? = some (some (t, n)) := by
        intro i n
        rw [List.getElem?_append]
        split
        · rfl
        · rename_i hlt
          rw [List.getElem?_eq_none (show live.length ≤ i by omega), List.getElem?_singleton]
          split
          · simp [hu]
          · simp
      obtain ⟨a, b, c, d⟩ := ih (live := live ++ [some (u, m)]) h1' (by
        intro i n hi
        have := h2 i n ((key i n).1 hi)
        simpa using this)
      have hb : (u == t) = false := beq_eq_false_iff_ne.2 hu
      refine ⟨a, ⟨fun h => absurd h hu, ?_⟩, ?_, fun i n => (d i n).trans (key i n)⟩
      · rw [hb, Bool.or_false]; exact b
      · show idleAfter t (idle || (u == t)) _ _ = _
        rw [hb, Bool.or_false]; exact c
    | log i obj =>
      obtain ⟨a, b, c, d⟩ := ih (live := live) h1' (by
        intro j n hj
        obtain ⟨x, y⟩ := h2 j n hj
        exact ⟨fun o ho => x o (List.mem_cons_of_mem _ ho), fun ho => y (List.mem_cons_of_mem _ ho)⟩)
      have e : logged t live [.log i obj] = [] := by
        simp only [logged, List.append_nil]
        split
        · rename_i u m hm
          rw [if_neg]
          rintro rfl
          exact (h2 i m hm).1 obj (by simp)
        · rfl
      have e' : logged t live (.log i obj :: ops) = logged t live [.log i obj] ++ logged t live ops :=
        logged_append t [.log i obj] ops live
      refine ⟨by rw [e', e, a]; rfl, ?_, ?_, d⟩
      · show UsedFirst t (idle && (logged t live [.log i obj]).isEmpty) live ops
        rw [e, List.isEmpty_nil, Bool.and_true]; exact b
      · show idleAfter t (idle && (logged t live [.log i obj]).isEmpty) live ops = _
        rw [e, List.isEmpty_nil, Bool.and_true]; exact c
    | drop j =>
      have key : ∀ (i : Nat) n, (live.set j none)[i]? = some (some (t, n)) ↔ live[i]? = some (some (t, n)) := by
        intro i n
        rw [List.getElem?_set]
        split
        · rename_i e
          subst e
          refine ⟨fun h => ?_, fun h => absurd (List.mem_cons_self) (h2 j n h).2⟩
          split at h <;> simp at h
        · rfl
      obtain ⟨a, b, c, d⟩ := ih (live := live.set j none) h1' (by
        intro i n hi
        obtain ⟨x, y⟩ := h2 i n ((key i n).1 hi)
        exact ⟨fun o ho => x o (List.mem_cons_of_mem _ ho), fun ho => y (List.mem_cons_of_mem _ ho)⟩)
      exact ⟨a, b, c, fun i n => (d i n).trans (key i n)⟩

theorem oneEach_after {page slab : Nat} {ops : List LogOp} {live : List (Option (EntryType × Nat))}
    (h : OneEach live) (hops : HistoryOk page slab live ops) : OneEach (streamsAfter live ops) := by
  induction ops generalizing live with
  | nil => exact h
  | cons op ops ih =>
    cases op with
    | openStream t n => exact ih (h.push hops.2.2.1) hops.2.2.2.2
    | log i obj => exact ih h hops.2
    | drop i => exact ih (h.set i) hops

/-- An application at work: the stream stays open, and is not idle once something was logged on it. -/
theorem work_after {page slab k : Nat} {ops : List LogOp} {live : List (Option (EntryType × Nat))} {n : Nat}
    (h1 : OneEach live) (h2 : live[k]? = some (some (.copperList, n))) (h3 : HistoryOk page slab live ops)
    (h4 : .drop k ∉ ops) (idle : Bool) :
    UsedFirst .copperList idle live ops ∧ (streamsAfter live ops)[k]? = some (some (.copperList, n)) ∧
      idleAfter .copperList idle live ops = (idle && (logged .copperList live ops).isEmpty) := by
  induction ops generalizing live idle with
  | nil => exact ⟨trivial, h2, by simp [logged, idleAfter]⟩
  | cons op ops ih =>
    simp only [List.mem_cons, not_or] at h4
    cases op with
    | openStream t m =>
      obtain ⟨_, _, h5, _, h6⟩ := h3
      have ht : t ≠ .copperList := by
        rintro rfl
        exact h5 n (List.mem_of_getElem? h2)
      have hk : (live ++ [some (t, m)])[k]? = some (some (.copperList, n)) := by
        rw [List.getElem?_append_left (List.getElem?_eq_some_iff.1 h2).1]; exact h2
      have hb : (t == EntryType.copperList) = false := beq_eq_false_iff_ne.2 ht
      obtain ⟨a, b, c⟩ := ih (h1.push h5) hk h6 h4.2 idle
      refine ⟨⟨fun h => absurd h ht, ?_⟩, b, ?_⟩
      · rw [hb, Bool.or_false]; exact a
      · show idleAfter _ (idle || (t == EntryType.copperList)) _ _ = _
        rw [hb, Bool.or_false]; exact c
    | log i obj =>
      obtain ⟨a, b, c⟩ := ih h1 h2 h3.2 h4.2 (idle && (logged .copperList live [.log i obj]).isEmpty)
      refine ⟨a, b, c.trans ?_⟩
      have e' : logged .copperList live (.log i obj :: ops) =
          logged .copperList live [.log i obj] ++ logged .copperList live ops := logged_append _ [.log i obj] ops live
      rw [e', Bool.and_assoc]
      congr 1
      rw [Bool.eq_iff_iff]
      simp only [Bool.and_eq_true, List.isEmpty_iff, List.append_eq_nil_iff]
    | drop i =>
      have hi : i ≠ k := by rintro rfl; exact h4.1 rfl
      have hk : (live.set i none)[k]? = some (some (.copperList, n)) := by
        rw [List.getElem?_set_ne hi]; exact h2
      exact ih (h1.set i) hk h3 h4.2 idle

section
variable {hist : σ → List ULog.LogOp} {k : Nat} {pieces : CL (List (Msg P)) → List Bytes}
  {h0 : List ULog.LogOp} {t0 : List (Ev P)} {app : App σ P}

theorem step_uses (hl : LogsTo app.env hist k pieces) {cs : List Call} {rt rt' : Rt σ P}
    (h : InStep hist k pieces h0 t0 rt.w) (hp : uses app cs rt = .ok rt') : InStep hist k pieces h0 t0 rt'.w := by
  induction cs generalizing rt with
  | nil => cases hp; exact h
  | cons c cs ih =>
    unfold uses at hp
    split at hp
    · cases hp
    · rename_i rt1 h1
      refine ih ?_ hp
      cases c with
      | start => cases h1; exact step_startAll hl h
      | stop => cases h1; exact step_stopAll hl h
      | iteration =>
        change (runOneIteration app rt).map' Prod.fst = _ at h1
        cases hx : runOneIteration app rt with
        | panic => rw [hx] at h1; cases h1
        | ok q =>
          rw [hx] at h1
          cases h1
          exact step_iteration hl h hx
      | run n =>
        change (Verif.Runtime.run app n rt).map' Prod.fst = _ at h1
        cases hx : Verif.Runtime.run app n rt with
        | panic => rw [hx] at h1; cases h1
        | ok q =>
          rw [hx] at h1
          cases h1
          exact step_run hl h hx

/-- What a program that uses several applications leaves in its log. -/
theorem session_after {page slab : Nat} {h : List LogOp} {runs : List (List (CL (List (Msg P))))}
    (hs : Session hist pieces h runs) (hpos : ∀ cl, (pieces cl).flatten ≠ []) (hops : HistoryOk page slab [] h) :
    (∀ (i : Nat) m, (streamsAfter [] h)[i]? ≠ some (some (.copperList, m))) ∧
    logged .copperList [] h = ((runs.flatten.map pieces).map List.flatten).flatten ∧
    ((∀ r ∈ runs.dropLast, r ≠ []) → UsedFirst .copperList false [] h) ∧
    ((∀ r ∈ runs, r ≠ []) → idleAfter .copperList false [] h = false) := by
  induction hs with
  | begin_ hn =>
    obtain ⟨a, b, c, d⟩ := elsewhere_after (live := []) (t := .copperList) false hn (by simp)
    exact ⟨fun i m hi => by simpa using (d i m).1 hi, a, fun _ => b, fun _ => c⟩
  | @next h before after runs size app cs rt rt' t hs hb ha hh hl hr ht ih =>
    obtain ⟨ops, t', h1, h2, h3, h4⟩ := step_uses (h0 := hist rt.w.st) (t0 := rt.w.trace) hl
      ⟨[], [], by simp, by simp, by simp, rfl⟩ hr
    have ett : t' = t := by rw [ht] at h2; exact (List.append_cancel_left h2).symm
    subst ett
    have hone : OneEach ([] : List (Option (EntryType × Nat))) := by intro i j t m m' hi; simp at hi
    -- the history, piece by piece
    rw [h1, hh] at hops ⊢
    obtain ⟨hops, hdrop⟩ := (history_append _ _ _).1 hops
    obtain ⟨hops, hwork⟩ := (history_append _ _ _).1 hops
    obtain ⟨hops, hafter⟩ := (history_append _ _ _).1 hops
    obtain ⟨hops, hopen⟩ := (history_append _ _ _).1 hops
    obtain ⟨hops0, hbefore⟩ := (history_append _ _ _).1 hops
    obtain ⟨i1, i2, i3, i4⟩ := ih hops0
    -- the first operations
    obtain ⟨b1, b2, b3, b4⟩ := elsewhere_after (live := streamsAfter [] h) (t := .copperList)
      (idleAfter .copperList false [] h) hb.opens (fun i n hi => absurd hi (i1 i n))
    -- the stream is opened
    obtain ⟨l1, l2⟩ := streamsAfter_opened (h ++ before) (live := []) (ts := []) rfl (by simp)
    obtain ⟨l3, l4⟩ := streamsAfter_opened (h ++ before ++ [.openStream .copperList size]) (live := []) (ts := []) rfl
      (by simp)
    simp only [List.nil_append] at l1 l2 l4
    have hk : (streamsAfter [] (h ++ before ++ [.openStream .copperList size]))[(openedTypes (h ++ before)).length]? =
        some (some (.copperList, size)) := by
      rw [streamsAfter_append, l1]
      exact List.getElem?_concat_length
    have hone' := oneEach_after hone hops
    have hone1 : OneEach (streamsAfter [] (h ++ before ++ [.openStream .copperList size])) :=
      oneEach_after hone ((history_append _ _ _).2 ⟨hops, hopen⟩)
    -- the operations until the application is used
    obtain ⟨a1, a2, a3, a4⟩ := elsewhere_after (live := streamsAfter [] (h ++ before ++ [.openStream .copperList size]))
      (t := .copperList) (idleAfter .copperList false [] (h ++ before ++ [.openStream .copperList size])) ha.opens
      (fun i n hi => by
        have : (openedTypes (h ++ before ++ [.openStream .copperList size] ++ after))[i]? = some .copperList := by
          have hi' := l4 i _ n hi
          rw [openedTypes_append, List.getElem?_append_left (List.getElem?_eq_some_iff.1 hi').1]
          exact hi'
        exact ⟨fun obj ho => ha.logs i obj ho this, fun ho => ha.drops i ho this⟩)
    have hk2 := (a4 _ _).2 hk
    have hone2 : OneEach (streamsAfter [] (h ++ before ++ [.openStream .copperList size] ++ after)) := by
      rw [streamsAfter_append]; exact oneEach_after hone1 hafter
    rw [← streamsAfter_append] at hk2
    -- the application at work
    obtain ⟨w1, w2, w3⟩ := work_after hone2 hk2 hwork h3
      (idleAfter .copperList false [] (h ++ before ++ [.openStream .copperList size] ++ after))
    obtain ⟨w4, _⟩ := logged_after hone2 hk2 hwork h3
    have hone3 : OneEach (streamsAfter [] (h ++ before ++ [.openStream .copperList size] ++ after ++ ops)) := by
      rw [streamsAfter_append]; exact oneEach_after hone2 hwork
    rw [← streamsAfter_append] at w2
    have hlog : logged .copperList [] (h ++ before ++ [.openStream .copperList size] ++ after ++ ops ++
        [.drop (openedTypes (h ++ before)).length]) =
        (((runs ++ [loggedLists t']).flatten.map pieces).map List.flatten).flatten := by
      rw [logged_append, logged_append, logged_append, logged_append, logged_append, i2, b1, a1, w4, h4]
      simp [logged]
    refine ⟨?_, hlog, ?_, ?_⟩
    · intro i m hi
      rw [streamsAfter_append] at hi
      change (List.set _ _ _)[i]? = _ at hi
      rw [List.getElem?_set] at hi
      split at hi
      · split at hi <;> simp at hi
      · rename_i hne
        exact hne (hone3 _ _ _ _ _ w2 hi)
    · intro hr
      rw [List.dropLast_concat] at hr
      have j3 := i3 (fun r hm => hr r (List.dropLast_subset _ hm))
      have j4 := i4 hr
      rw [used_append, used_append, used_append, used_append, used_append]
      refine ⟨⟨⟨⟨⟨j3, b2⟩, ?_⟩, a2⟩, w1⟩, trivial⟩
      refine ⟨fun _ => ?_, trivial⟩
      rw [idleAfter_append, b3]
      exact j4
    · intro hr
      have hne : loggedLists t' ≠ [] := hr _ (by simp)
      rw [idleAfter_append]
      rw [idleAfter_append, w3, w4, h4]
      refine Bool.and_eq_false_iff.2 (.inr ?_)
      cases hx : loggedLists t' with
      | nil => exact absurd hx hne
      | cons cl cls =>
        simp only [List.map_cons, List.flatten_cons]
        have := hpos cl
        cases hy : (pieces cl).flatten with
        | nil => exact absurd hy this
        | cons => rfl

end
end Runtime
end Verif
