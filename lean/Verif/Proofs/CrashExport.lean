import Verif.Proofs.CrashStreams
import Verif.Proofs.EndToEnd
/-! From the sections that survive a crash to the copper lists exported from them. -/
namespace Verif
namespace ULog
open Bincode

section
variable {page slabSize : Nat} {t : EntryType}

theorem visibleOf_isOf (l : List Issued) : visibleOf t l = (l.filter (isOf t)).map Issued.visible := rfl

theorem upTo_closed {P : List Issued} (hP : ∀ e ∈ P, e.isOpen = false ∧ e.data ≠ []) (tl : List Bytes) :
    upTo (P.map Issued.visible ++ tl) = (P.map Issued.data ++ (upTo tl).1, (upTo tl).2) := by
  induction P with
  | nil => rfl
  | cons e P ih =>
    obtain ⟨h1, h2⟩ := hP e (by simp)
    have hv : e.visible = e.data := by unfold Issued.visible; rw [h1]; rfl
    simp only [List.map_cons, List.cons_append, upTo, hv, if_neg h2, ih (fun e he => hP e (by simp [he]))]

/-- Reading closed sections in order stops at an empty one. -/
theorem upTo_front {P : List Issued} (hP : ∀ e ∈ P, e.isOpen = false) {tl : List Bytes} (htl : (upTo tl).1 = []) :
    ∃ q, (upTo (P.map Issued.visible ++ tl)).1 = (P.take q).map Issued.data := by
  induction P with
  | nil => exact ⟨0, htl⟩
  | cons e P ih =>
    obtain ⟨q, hq⟩ := ih (fun e he => hP e (by simp [he]))
    have hv : e.visible = e.data := by unfold Issued.visible; rw [hP e (by simp)]; rfl
    by_cases h2 : e.data = []
    · exact ⟨0, by simp [upTo, hv, h2]⟩
    · exact ⟨q + 1, by simp only [List.map_cons, List.cons_append, upTo, hv, if_neg h2, hq, List.take_succ_cons]⟩

theorem flatten_objs {P : List Issued} {gs : List (List Bytes)}
    (h : Pointwise (fun (e : Issued) (g : List Bytes) => e.data = g.flatten) P gs) :
    (P.map Issued.data).flatten = gs.flatten.flatten := by
  induction h with
  | nil => rfl
  | cons h _ ih => simp [h, ih]

theorem pointwise_take {α β : Type} {R : α → β → Prop} {a : List α} {b : List β} (h : Pointwise R a b) :
    ∀ n, Pointwise R (a.take n) (b.take n) := by
  induction h with
  | nil => intro n; simp; exact .nil
  | cons h hs ih =>
    intro n
    cases n with
    | zero => exact .nil
    | succ n => exact .cons h (ih n)

/-- The log of a killed process, read as a byte stream. -/
theorem tracks_crash (hz : SizesOk page slabSize) {s : LogSys} {x : SecSys} {objs : List Bytes}
    {lay : List (List Sec)} {live : List (Option (EntryType × Nat))} {out : EntryType → Bytes}
    (hi : StrInv page slabSize s lay live out) (hT : Tracks page slabSize t s x objs)
    (ht : t ≠ .lastEntry) (ht' : t ≠ .empty) :
      (∃ a b, objs = a ++ b ∧ ∀ ns : List Nat, (∀ n ∈ ns, 0 < n) →
        let r := drainLog s.lg.files t ns
        r.1 <+: a.flatten ∧ (r.2 ≠ .more → r.1 = a.flatten) ∧ (a.flatten.length < ns.length → r.2 ≠ .more)) ∧
      ([] ∉ (dataOf t x).dropLast → ∀ (i : Nat) (st : Stream), s.streams[i]? = some (some st) → st.entryType = t →
        st.section_.slab ≤ s.lg.oldestMapped →
        ∃ a b, objs = a ++ b ∧ b.flatten.length = st.section_.used ∧
          15 + b.flatten.length ≤ st.minAlloc ∧
          ∀ ns : List Nat, (∀ n ∈ ns, 0 < n) →
            let r := drainLog s.lg.files t ns
            r.1 <+: a.flatten ∧ (r.2 ≠ .more → r.1 = a.flatten ∧ r.2 = .eof) ∧
              (a.flatten.length < ns.length → r.2 ≠ .more)) := by
  obtain ⟨m, hm, hd⟩ := drain_crash hz hT.reach hT.types ht ht'
  have hsplit : x.issued.filter (isOf t) = (x.issued.take m).filter (isOf t) ++ (x.issued.drop m).filter (isOf t) := by
    rw [← List.filter_append, List.take_append_drop]
  simp only [visibleOf_isOf, hT.lg] at hd
  refine ⟨?_, ?_⟩
  · -- the sections before the cut
    obtain ⟨p, hp⟩ : ∃ p, (x.issued.take m).filter (isOf t) = (x.issued.filter (isOf t)).take p :=
      ⟨((x.issued.take m).filter (isOf t)).length, by rw [hsplit, List.take_left']; rfl⟩
    have key : ∃ a b, objs = a ++ b ∧
        (upTo (((x.issued.take m).filter (isOf t)).map Issued.visible)).1.flatten = a.flatten := by
      rcases hT.ty with ⟨gs, k1, k2, k3, _⟩ | ⟨k, stk, P, dk, gs, g, hk, hkt, hf, hP, hgs, hdk, ho⟩
      · obtain ⟨q, hq⟩ := upTo_front (P := (x.issued.filter (isOf t)).take p)
          (fun e he => k1 e (List.mem_of_mem_take he)) (tl := []) rfl
        rw [List.append_nil] at hq
        refine ⟨(gs.take (min q p)).flatten, (gs.drop (min q p)).flatten, ?_, ?_⟩
        · rw [k3, ← List.flatten_append, List.take_append_drop]
        · rw [hp, hq, List.take_take]
          exact flatten_objs (pointwise_take k2 _)
      · obtain ⟨q, hq⟩ := upTo_front (P := P.take p) (fun e he => hP e (List.mem_of_mem_take he))
          (tl := ((([⟨stk.section_, true, dk⟩] : List Issued)).take (p - P.length)).map Issued.visible) (by
            cases p - P.length with
            | zero => rfl
            | succ n => simp [upTo, Issued.visible])
        refine ⟨(gs.take (min q p)).flatten, (gs.drop (min q p)).flatten ++ g, ?_, ?_⟩
        · rw [ho, ← List.append_assoc, ← List.flatten_append, List.take_append_drop]
        · rw [hp, hf, List.take_append, List.map_append, hq, List.take_take]
          exact flatten_objs (pointwise_take hgs _)
    obtain ⟨a, b, hab, hup⟩ := key
    refine ⟨a, b, hab, fun ns hns => ?_⟩
    obtain ⟨e1, e2, e3, _⟩ := hd ns hns
    rw [hup] at e1 e2 e3
    exact ⟨e1, e2, e3⟩
  · intro htidy i st hst hty hsl
    rcases hT.ty with ⟨_, _, _, _, k3⟩ | ⟨k, stk, P, dk, gs, g, hk, hkt, hf, hP, hgs, hdk, ho⟩
    · exact absurd (by rw [typ_of hst, hty]) (k3 i)
    · have hki : k = i := hi.flat.uniqT k i t (by rw [typ_of hk, hkt]) (by rw [typ_of hst, hty])
      subst hki
      have hsk : stk = st := by simpa using hk.symm.trans hst
      subst hsk
      obtain ⟨layx, hx⟩ := reachable_inv hz.page_min (by
        have := hz.slab; have := align_le (page := page) (by have := hz.page_min; omega) 80; omega) hT.reach
      -- the open section is before the cut
      obtain ⟨j, d, hj⟩ := hT.sec k stk hst
      have hjm := hm j _ hj (by rw [hT.lg]; exact hsl)
      have hme : (⟨stk.section_, true, d⟩ : Issued) ∈ P ++ [⟨stk.section_, true, dk⟩] := by
        rw [← hf]
        exact List.mem_filter.2 ⟨List.mem_of_getElem? hj, by simp [isOf, (hi.stream k stk hst).1, hty]⟩
      have hnP : (⟨stk.section_, true, d⟩ : Issued) ∉ P := fun hc => by simpa using hP _ hc
      have hdd : d = dk := by
        rcases List.mem_append.1 hme with hc | hc
        · exact absurd hc hnP
        · simpa using hc
      subst hdd
      obtain ⟨hu, hreq⟩ := open_used hx hj
      rw [(hi.stream k stk hst).2.1] at hreq
      have htake : (x.issued.take m).filter (isOf t) = P ++ [⟨stk.section_, true, d⟩] := by
        have hj' : (x.issued.take m)[j]? = some ⟨stk.section_, true, d⟩ := by
          rw [List.getElem?_take_of_lt hjm]; exact hj
        have hin : (⟨stk.section_, true, d⟩ : Issued) ∈ (x.issued.take m).filter (isOf t) :=
          List.mem_filter.2 ⟨List.mem_of_getElem? hj', by simp [isOf, (hi.stream k stk hst).1, hty]⟩
        rw [hf] at hsplit
        rcases List.eq_nil_or_concat ((x.issued.drop m).filter (isOf t)) with hb | ⟨b, y, hb⟩
        · rw [hb, List.append_nil] at hsplit; exact hsplit.symm
        · exfalso
          rw [hb, List.concat_eq_append, ← List.append_assoc] at hsplit
          have := List.append_inj_left' hsplit rfl
          exact hnP (by rw [this]; exact List.mem_append_left _ hin)
      have hup : upTo (((x.issued.take m).filter (isOf t)).map Issued.visible) = (P.map Issued.data, true) := by
        rw [htake, List.map_append, upTo_closed (fun e he => ⟨hP e he, fun hc => htidy (by
          rw [dataOf, hf, List.map_append, List.map_cons, List.map_nil, List.dropLast_concat, ← hc]
          exact List.mem_map_of_mem he)⟩)]
        simp [upTo, Issued.visible]
      refine ⟨gs.flatten, g, ho, by rw [← hdk, hu], by rw [← hdk]; exact hreq, fun ns hns => ?_⟩
      obtain ⟨e1, e2, e3, e4, e5⟩ := hd ns hns
      rw [hup] at e1 e2 e3 e4 e5
      simp only [flatten_objs hgs] at e1 e2 e3 e4 e5
      refine ⟨e1, fun hne => ⟨e2 hne, ?_⟩, e3⟩
      cases hr : (drainLog s.lg.files t ns).2 with
      | eof => rfl
      | more => exact absurd hr hne
      | failed => exact absurd (e5 hr) (by simp)

theorem log_crash (hz : SizesOk page slabSize) {ops : List LogOp} (hops : HistoryOk page slabSize [] ops)
    (ht : t ≠ .lastEntry) (ht' : t ≠ .empty) :
    ∃ s, runLog slabSize page ops = .ok s ∧
      (∃ a b, objsOf t [] ops = a ++ b ∧ ∀ ns : List Nat, (∀ n ∈ ns, 0 < n) →
        let r := drainLog s.lg.files t ns
        r.1 <+: a.flatten ∧ (r.2 ≠ .more → r.1 = a.flatten) ∧ (a.flatten.length < ns.length → r.2 ≠ .more)) ∧
      (UsedFirst t false [] ops → ∀ (i : Nat) (st : Stream), s.streams[i]? = some (some st) → st.entryType = t →
        st.section_.slab ≤ s.lg.oldestMapped →
        ∃ a b, objsOf t [] ops = a ++ b ∧ b.flatten.length = st.section_.used ∧
          15 + b.flatten.length ≤ st.minAlloc ∧
          ∀ ns : List Nat, (∀ n ∈ ns, 0 < n) →
            let r := drainLog s.lg.files t ns
            r.1 <+: a.flatten ∧ (r.2 ≠ .more → r.1 = a.flatten ∧ r.2 = .eof) ∧
              (a.flatten.length < ns.length → r.2 ≠ .more)) := by
  obtain ⟨s, x, lay, live, out, h1, hi, hT, hu⟩ := runLog_tracks hz hops
  obtain ⟨c1, c2⟩ := tracks_crash hz hi hT ht ht'
  exact ⟨s, h1, c1, fun h => c2 (hu h)⟩

theorem historyOk_prefix {a b : List LogOp} : ∀ {live : List (Option (EntryType × Nat))},
    HistoryOk page slabSize live (a ++ b) → HistoryOk page slabSize live a := by
  induction a with
  | nil => intro live _; trivial
  | cons op a ih =>
    intro live h
    cases op with
    | openStream u n => obtain ⟨h1, h2, h3, h4, h5⟩ := h; exact ⟨h1, h2, h3, h4, ih h5⟩
    | log i obj => exact ⟨h.1, ih h.2⟩
    | drop i => exact ih h

end

end ULog

namespace Runtime
open CopperList Bincode ULog
variable {σ P : Type}

theorem objs_after {page slab k : Nat} {ops : List ULog.LogOp} :
    ∀ {live : List (Option (ULog.EntryType × Nat))} {n : Nat}, OneEach live →
    live[k]? = some (some (.copperList, n)) → ULog.HistoryOk page slab live ops → .drop k ∉ ops →
    objsOf .copperList live ops = (onStream k ops).map List.flatten := by
  induction ops with
  | nil => intros; rfl
  | cons op ops ih =>
    intro live n h1 h2 h3 h4
    simp only [List.mem_cons, not_or] at h4
    cases op with
    | openStream t m =>
      obtain ⟨_, _, h5, _, h6⟩ := h3
      have hk : (live ++ [some (t, m)])[k]? = some (some (.copperList, n)) := by
        rw [List.getElem?_append_left (List.getElem?_eq_some_iff.1 h2).1]; exact h2
      exact ih (h1.push h5) hk h6 h4.2
    | log i obj =>
      have h5 := ih h1 h2 h3.2 h4.2
      simp only [objsOf, liveStep, h5, objOf]
      by_cases hi : i = k
      · subst hi; simp [h2, onStream]
      · have : ∀ m, live[i]? ≠ some (some (.copperList, m)) := fun m hm => hi (h1 i k _ m n hm h2)
        have h7 : onStream k (.log i obj :: ops) = onStream k ops := by simp [onStream, hi]
        rw [h7]
        split
        · rename_i t' m hm
          have : t' ≠ .copperList := by rintro rfl; exact this m hm
          simp [this]
        · rfl
    | drop i =>
      have hi : i ≠ k := by rintro rfl; exact h4.1 rfl
      have hk : (live.set i none)[k]? = some (some (.copperList, n)) := by
        rw [List.getElem?_set_ne hi]; exact h2
      exact ih (h1.set i) hk h3 h4.2

theorem objs_ready {page slab k : Nat} {ops : List ULog.LogOp} (h4 : .drop k ∉ ops) :
    ∀ {h0 : List ULog.LogOp} {live : List (Option (ULog.EntryType × Nat))}, OneEach live →
    StreamReady k live h0 → ULog.HistoryOk page slab live (h0 ++ ops) →
    objsOf .copperList live (h0 ++ ops) = (onStream k ops).map List.flatten
  | [], live, h1, ⟨n, h2⟩, h3 => objs_after h1 h2 h3 h4
  | .openStream t m :: h0, live, h1, h2, h3 =>
    objs_ready h4 (h0 := h0) (h1.push h3.2.2.1) h2 h3.2.2.2.2
  | .log i obj :: h0, live, h1, h2, h3 => by
    have h5 := objs_ready h4 (h0 := h0) h1 h2.2 h3.2
    simp only [List.cons_append, objsOf, liveStep, h5, objOf]
    split
    · rename_i t' m hm
      have : t' ≠ .copperList := by rintro rfl; exact h2.1 m hm
      simp [this]
    · rfl
  | .drop i :: h0, live, h1, h2, h3 => objs_ready h4 (h0 := h0) (h1.set i) h2.2 h3

/-- Some pieces out of the first ones logged. -/
theorem pieces_split {slots : List (Codec P)} {pieces : CL (List (Msg P)) → List Bytes}
    (hp : ∀ cl, (pieces cl).flatten = (Wire.clCodec slots).enc cl) {cls : List (CL (List (Msg P)))}
    {a b : List Bytes} (h : (cls.map pieces).map List.flatten = a ++ b) :
    ∃ x y, cls = x ++ y ∧ a.flatten = @encAll _ (Wire.clCodec slots) x ∧
      b.flatten = @encAll _ (Wire.clCodec slots) y := by
  rw [List.map_map, List.map_eq_append_iff] at h
  obtain ⟨x, y, h1, h2, h3⟩ := h
  refine ⟨x, y, h1, ?_, ?_⟩
  · rw [← h2, ← List.map_map, flatten_pieces hp]
  · rw [← h3, ← List.map_map, flatten_pieces hp]

theorem onStream_length (k : Nat) (ops : List ULog.LogOp) :
    (onStream k ops).length = logCalls k ops := by
  unfold onStream logCalls
  induction ops with
  | nil => rfl
  | cons op ops ih =>
    cases op with
    | openStream => simpa using ih
    | drop => simpa using ih
    | log i obj =>
      by_cases h : i = k
      · simp [h, ih]
      · simp [h, ih]

section
variable {page slabSize : Nat}

theorem crash_objs {app : App σ P} {hist : σ → List ULog.LogOp} {k : Nat}
    {pieces : CL (List (Msg P)) → List Bytes} (hl : LogsTo app.env hist k pieces)
    {n : Nat} {rt rt' : Rt σ P} {r : RunResult} (h0 : StreamReady k [] (hist rt.w.st))
    (h : run app n rt = .ok (rt', r)) (hops : ULog.HistoryOk page slabSize [] (hist rt'.w.st))
    {done rest : List ULog.LogOp} (hc : hist rt'.w.st = hist rt.w.st ++ done ++ rest) :
    ∃ t later, rt'.w.trace = rt.w.trace ++ t ∧ (loggedLists t).take (logCalls k done) ++ later = loggedLists t ∧
      ((loggedLists t).take (logCalls k done)).length = logCalls k done ∧
      ULog.HistoryOk page slabSize [] (hist rt.w.st ++ done) ∧
      ULog.NeverDropped .copperList [] (hist rt.w.st ++ done) ∧
      ULog.objsOf .copperList [] (hist rt.w.st ++ done) =
        (((loggedLists t).take (logCalls k done)).map pieces).map List.flatten := by
  obtain ⟨ops, t, h1, h2, h3, h4⟩ := step_run (h0 := hist rt.w.st) (t0 := rt.w.trace) hl
    ⟨[], [], by simp, by simp, by simp, rfl⟩ h
  have hdr : ops = done ++ rest := by
    rw [h1, List.append_assoc] at hc; exact List.append_cancel_left hc
  subst hdr
  rw [hc] at hops
  have hok := ULog.historyOk_prefix hops
  have hone : OneEach [] := by intro i j t m m' hi; simp at hi
  have hd : .drop k ∉ done := fun hd => h3 (List.mem_append_left _ hd)
  have hdone : onStream k done = ((loggedLists t).take (logCalls k done)).map pieces := by
    rw [onStream_append] at h4
    rw [List.map_take, ← h4, ← onStream_length, List.take_left']
    rfl
  refine ⟨t, (loggedLists t).drop (logCalls k done), h2, List.take_append_drop _ _, ?_, hok,
    (logged_ready hd hone h0 hok).2, ?_⟩
  · have := congrArg List.length hdone
    rw [List.length_map, onStream_length] at this
    exact this.symm
  · rw [objs_ready hd hone h0 hok, hdone]

end

end Runtime
end Verif
