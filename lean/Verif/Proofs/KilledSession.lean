import Verif.Proofs.Session
import Verif.Proofs.CrashExport
/-!
The objects a program that uses several applications has logged.
-/
namespace Verif
namespace ULog

theorem objsOf_append (t : EntryType) (a b : List LogOp) (live : List (Option (EntryType × Nat))) :
    objsOf t live (a ++ b) = objsOf t live a ++ objsOf t (streamsAfter live a) b := by
  induction a generalizing live with
  | nil => rfl
  | cons op a ih =>
    cases op with
    | openStream u n => exact ih _
    | log i obj =>
      simp only [List.cons_append, objsOf, streamsAfter, liveStep]
      rw [ih, List.append_assoc]
    | drop i => exact ih _

end ULog

namespace Runtime
open Bincode CopperList ULog
variable {σ P : Type}

/-- Operations that leave the streams of a type alone log nothing on them. -/
theorem elsewhere_objs {ops : List LogOp} {live : List (Option (EntryType × Nat))} {t : EntryType}
    (h1 : ∀ n, .openStream t n ∉ ops)
    (h2 : ∀ (i : Nat) n, live[i]? = some (some (t, n)) → (∀ obj, .log i obj ∉ ops) ∧ .drop i ∉ ops) :
    objsOf t live ops = [] := by
  induction ops generalizing live with
  | nil => rfl
  | cons op ops ih =>
    have h1' : ∀ n, .openStream t n ∉ ops := fun n hn => h1 n (List.mem_cons_of_mem _ hn)
    have h1o : ∀ n, .openStream t n ∉ [op] := fun n hn => h1 n (by simp at hn; simp [← hn])
    have h2o : ∀ (i : Nat) n, live[i]? = some (some (t, n)) → (∀ obj, .log i obj ∉ [op]) ∧ .drop i ∉ [op] :=
      fun i n hi => ⟨fun obj hm => (h2 i n hi).1 obj (by simp at hm; simp [← hm]),
        fun hm => (h2 i n hi).2 (by simp at hm; simp [← hm])⟩
    obtain ⟨_, _, _, hkeep⟩ := elsewhere_after (live := live) false h1o h2o
    have hrest := ih (live := streamsAfter live [op]) h1' (fun i n hi => by
      obtain ⟨x, y⟩ := h2 i n ((hkeep i n).1 hi)
      exact ⟨fun o ho => x o (List.mem_cons_of_mem _ ho), fun ho => y (List.mem_cons_of_mem _ ho)⟩)
    have hone : objsOf t live [op] = [] := by
      cases op with
      | openStream u m => rfl
      | drop j => rfl
      | log i obj =>
        simp only [objsOf, objOf, List.append_nil]
        split
        · rename_i u m hm
          rw [if_neg]
          rintro rfl
          exact (h2 i m hm).1 obj (by simp)
        · rfl
    have := objsOf_append t [op] ops live
    rw [hone, hrest] at this
    exact this

section
variable {hist : σ → List ULog.LogOp} {pieces : CL (List (Msg P)) → List Bytes}

/-- A program that uses several applications logs their lists, one by one. -/
theorem session_objs {page slab : Nat} {h : List LogOp} {runs : List (List (CL (List (Msg P))))}
    (hs : Session hist pieces h runs) (hpos : ∀ cl, (pieces cl).flatten ≠ []) (hops : HistoryOk page slab [] h) :
    objsOf .copperList [] h = (runs.flatten.map pieces).map List.flatten := by
  induction hs with
  | begin_ hn => exact elsewhere_objs hn (by simp)
  | @next h before after runs size app cs rt rt' t hs hb ha hh hl hr ht ih =>
    obtain ⟨ops, t', h1, h2, h3, h4⟩ := step_uses (h0 := hist rt.w.st) (t0 := rt.w.trace) hl
      ⟨[], [], by simp, by simp, by simp, rfl⟩ hr
    have ett : t' = t := by rw [ht] at h2; exact (List.append_cancel_left h2).symm
    subst ett
    have hone : OneEach ([] : List (Option (EntryType × Nat))) := by intro i j t m m' hi; simp at hi
    rw [h1, hh] at hops ⊢
    obtain ⟨hops, hdrop⟩ := (history_append _ _ _).1 hops
    obtain ⟨hops, hwork⟩ := (history_append _ _ _).1 hops
    obtain ⟨hops, hafter⟩ := (history_append _ _ _).1 hops
    obtain ⟨hops, hopen⟩ := (history_append _ _ _).1 hops
    obtain ⟨hops0, hbefore⟩ := (history_append _ _ _).1 hops
    obtain ⟨i1, _⟩ := session_after hs hpos hops0
    have b1 := elsewhere_objs (live := streamsAfter [] h) (t := .copperList) hb.opens
      (fun i n hi => absurd hi (i1 i n))
    obtain ⟨l1, _⟩ := streamsAfter_opened (h ++ before) (live := []) (ts := []) rfl (by simp)
    obtain ⟨_, l4⟩ := streamsAfter_opened (h ++ before ++ [.openStream .copperList size]) (live := []) (ts := []) rfl
      (by simp)
    simp only [List.nil_append] at l1 l4
    have hk : (streamsAfter [] (h ++ before ++ [.openStream .copperList size]))[(openedTypes (h ++ before)).length]? =
        some (some (.copperList, size)) := by
      rw [streamsAfter_append, l1]
      exact List.getElem?_concat_length
    have hone1 : OneEach (streamsAfter [] (h ++ before ++ [.openStream .copperList size])) :=
      oneEach_after hone ((history_append _ _ _).2 ⟨hops, hopen⟩)
    have haf : ∀ (i : Nat) n,
        (streamsAfter [] (h ++ before ++ [.openStream .copperList size]))[i]? = some (some (.copperList, n)) →
        (∀ obj, .log i obj ∉ after) ∧ .drop i ∉ after := fun i n hi => by
      have : (openedTypes (h ++ before ++ [.openStream .copperList size] ++ after))[i]? = some .copperList := by
        have hi' := l4 i _ n hi
        rw [openedTypes_append, List.getElem?_append_left (List.getElem?_eq_some_iff.1 hi').1]
        exact hi'
      exact ⟨fun obj ho => ha.logs i obj ho this, fun ho => ha.drops i ho this⟩
    have a1 := elsewhere_objs (t := .copperList) ha.opens haf
    obtain ⟨_, _, _, a4⟩ := elsewhere_after (t := .copperList) false ha.opens haf
    have hk2 := (a4 _ _).2 hk
    have hone2 : OneEach (streamsAfter [] (h ++ before ++ [.openStream .copperList size] ++ after)) := by
      rw [streamsAfter_append]; exact oneEach_after hone1 hafter
    rw [← streamsAfter_append] at hk2
    have w4 := objs_after hone2 hk2 hwork h3
    rw [objsOf_append, objsOf_append, objsOf_append, objsOf_append, objsOf_append, ih hops0, b1, a1, w4, h4]
    simp [objsOf, objOf]

/-- The lists whose calls were made when the operations `done` were. -/
theorem session_cut {page slab : Nat} {h last done rest : List LogOp} {runs : List (List (CL (List (Msg P))))}
    (hs : Session hist pieces h runs) (hpos : ∀ cl, (pieces cl).flatten ≠ []) (hlast : Elsewhere h last)
    (hops : HistoryOk page slab [] (h ++ last)) (hc : h ++ last = done ++ rest) :
    ∃ made later, runs.flatten = made ++ later ∧ made.length = (objsOf .copperList [] done).length ∧
      objsOf .copperList [] done = (made.map pieces).map List.flatten ∧
      ((∀ r ∈ runs.dropLast, r ≠ []) → UsedFirst .copperList false [] done) := by
  have hops0 := ((history_append _ _ _).1 hops).1
  obtain ⟨i1, _, u, _⟩ := session_after hs hpos hops0
  have e1 := session_objs hs hpos hops0
  have e2 := elsewhere_objs (live := streamsAfter [] h) (t := .copperList) hlast.opens
    (fun i n hi => absurd hi (i1 i n))
  obtain ⟨_, v, _, _⟩ := elsewhere_after (live := streamsAfter [] h) (t := .copperList)
    (idleAfter .copperList false [] h) hlast.opens (fun i n hi => absurd hi (i1 i n))
  have e3 : objsOf .copperList [] done ++ objsOf .copperList (streamsAfter [] done) rest =
      (runs.flatten.map pieces).map List.flatten := by
    rw [← objsOf_append, ← hc, objsOf_append, e1, e2, List.append_nil]
  rw [List.map_map] at e3
  obtain ⟨x, y, h1, h2, _⟩ := List.map_eq_append_iff.1 e3.symm
  refine ⟨x, y, h1, ?_, ?_, fun hr => ?_⟩
  · rw [← h2, List.length_map]
  · rw [← h2, List.map_map]
  · have := (used_append .copperList h last false []).2 ⟨u hr, v⟩
    rw [hc] at this
    exact ((used_append _ _ _ _ _).1 this).1

end
end Runtime
end Verif
