import Verif.Spec.Launch
import Verif.Proofs.UnifiedLogAdd
namespace Verif
namespace Launch
open Config Spec
variable {C T M : Type}

theorem isReal_eq (sim : Bool) (t : Task) : t.isReal sim = usesComponent sim t := by
  unfold Task.isReal usesComponent
  cases sim <;> cases h : t.sim <;> simp

theorem create_ok {p : Parts C T M} {sim : Bool} {c : CuConfig C} {t : Task} {x : Inst T}
    (h : t.create p sim (paramsOf c t.id) = .ok x) : Made p sim c t x := by
  have key : ∀ r : Except CuError T, r.map Inst.real = .ok x → ∃ y, r = .ok y ∧ x = .real y := by
    intro r hr
    cases r with
    | error e => cases hr
    | ok y => cases hr; exact ⟨y, rfl, rfl⟩
  unfold Task.create at h
  unfold Made
  cases sim with
  | false =>
    simp only [Bool.false_eq_true, if_false] at h
    simpa using key _ h
  | true =>
    simp only [if_true] at h
    cases hs : t.sim with
    | real => rw [hs] at h; simpa using key _ h
    | src m => rw [hs] at h; cases h; rfl
    | sink m => rw [hs] at h; cases h; rfl

theorem create_error {p : Parts C T M} {sim : Bool} {t : Task} {cfg : Option C} {e : CuError}
    (h : t.create p sim cfg = .error e) : usesComponent sim t = true ∧ p.task t.type_ cfg = .error e := by
  have key : ∀ r : Except CuError T, r.map Inst.real = .error e → r = .error e := by
    intro r hr
    cases r with
    | error e' => cases hr; rfl
    | ok y => cases hr
  unfold Task.create at h
  unfold usesComponent
  cases sim with
  | false =>
    simp only [Bool.false_eq_true, if_false] at h
    exact ⟨by simp, key _ h⟩
  | true =>
    simp only [if_true] at h
    cases hs : t.sim with
    | real => rw [hs] at h; exact ⟨rfl, key _ h⟩
    | src m => rw [hs] at h; cases h
    | sink m => rw [hs] at h; cases h

/-- Everything about the creation of the tasks from index `i` on, when their parameters are at their places. -/
theorem createTasks_spec (p : Parts C T M) (sim : Bool) (c : CuConfig C) (cfgs : List (Option C)) (ts : List Task) :
    ∀ i, (∀ (j : Nat) t, ts[j]? = some t → cfgs[i + j]? = some (paramsOf c t.id)) →
      (∃ xs, createTasks p sim cfgs i ts = (wanted sim c ts, .ok (.ok xs)) ∧ Pointwise (Made p sim c) ts xs) ∨
      (∃ pre t post xs e, ts = pre ++ t :: post ∧ Pointwise (Made p sim c) pre xs ∧
        p.task t.type_ (paramsOf c t.id) = .error e ∧ usesComponent sim t = true ∧
        createTasks p sim cfgs i ts =
          (wanted sim c (pre ++ [t]), .ok (.error (e.addCause (createInfo t (i + pre.length)))))) := by
  induction ts with
  | nil => intro i _; exact .inl ⟨[], rfl, .nil⟩
  | cons t ts ih =>
    intro i hc
    have h0 := hc 0 t rfl
    rw [Nat.add_zero] at h0
    cases hcr : t.create p sim (paramsOf c t.id) with
    | error e =>
      obtain ⟨h1, h2⟩ := create_error hcr
      refine .inr ⟨[], t, ts, [], e, rfl, .nil, h2, h1, ?_⟩
      simp [createTasks, h0, hcr, isReal_eq, h1, wanted]
    | ok x =>
      have hm := create_ok hcr
      have hw : ∀ l, (if t.isReal sim then [(t.type_, paramsOf c t.id)] else []) ++ wanted sim c l =
          wanted sim c (t :: l) := by
        intro l
        rw [isReal_eq]
        unfold wanted
        by_cases hu : usesComponent sim t = true
        · simp [hu]
        · simp [hu]
      rcases ih (i + 1) (fun j u hu => by rw [Nat.add_assoc, Nat.add_comm 1 j]; exact hc (j + 1) u hu) with
        ⟨xs, h1, h2⟩ | ⟨pre, u, post, xs, e, h1, h2, h3, h4, h5⟩
      · refine .inl ⟨x :: xs, ?_, .cons hm h2⟩
        simp [createTasks, h0, hcr, h1, hw]
      · refine .inr ⟨t :: pre, u, post, x :: xs, e, by rw [h1]; rfl, .cons hm h2, h3, h4, ?_⟩
        simp only [createTasks, h0, hcr, h5, hw, List.cons_append, List.length_cons]
        rw [show i + 1 + pre.length = i + (pre.length + 1) by omega]

theorem params_at {c : CuConfig C} (hd : (c.nodes.map (·.id)).Nodup) {j : Nat} {id : String}
    (h : (c.nodes.map (·.id))[j]? = some id) : (c.nodes.map (·.config))[j]? = some (paramsOf c id) := by
  unfold paramsOf
  generalize c.nodes = ns at *
  induction ns generalizing j with
  | nil => simp at h
  | cons n ns ih =>
    rw [List.map_cons, List.nodup_cons] at hd
    cases j with
    | zero =>
      simp at h
      simp [h]
    | succ j =>
      simp only [List.map_cons, List.getElem?_cons_succ] at h ⊢
      have hne : (n.id == id) = false := by
        rw [beq_eq_false_iff_ne]
        intro e
        apply hd.1
        rw [e]
        exact List.mem_of_getElem? h
      rw [List.find?_cons, hne]
      exact ih hd.2 h

theorem sameTasks_params {k : Compiled C} {c : CuConfig C} (h : SameTasks k c) (i : Nat) (t : Task)
    (ht : k.tasks[i]? = some t) : (c.nodes.map (·.config))[i]? = some (paramsOf c t.id) := by
  obtain ⟨⟨more, hm⟩, hd⟩ := h
  apply params_at hd
  have hi : i < k.tasks.length := (List.getElem?_eq_some_iff.1 ht).1
  rw [hm, List.getElem?_append_left (by simpa using hi), List.getElem?_map, ht]
  rfl

theorem newSteps_spec (c : CuConfig C) (cfgs : List (Option C)) (ts : List Task) :
    ∀ i, (∀ (j : Nat) t, ts[j]? = some t → cfgs[i + j]? = some (paramsOf c t.id)) →
      newSteps cfgs i ts = .ok (ts.map fun t => (t.id, paramsOf c t.id)) := by
  induction ts with
  | nil => intro i _; rfl
  | cons t ts ih =>
    intro i hc
    have h0 := hc 0 t rfl
    rw [Nat.add_zero] at h0
    have h1 := ih (i + 1) (fun j u hu => by rw [Nat.add_assoc, Nat.add_comm 1 j]; exact hc (j + 1) u hu)
    simp [newSteps, h0, h1]

/-- The outcome of a start, when the log has room for the stream. -/
theorem start_spec (ov : Overflow) (p : Parts C T M) (k : Compiled C) (c : CuConfig C) (lg lg' : ULog.Logger)
    (st : ULog.Stream) (n : Nat) (hs : SameTasks k c) (hn : sectionSize ov k.listSize c = .ok n)
    (hl : ULog.openStream lg .copperList n = .ok (lg', st)) :
    (∃ xs, Pointwise (Made p k.sim c) k.tasks xs ∧
      start ov p k c lg = (wanted k.sim c k.tasks,
        match p.monitor k.monitor c (k.tasks.map (·.id)) with
        | .error _ => .panic
        | .ok m => .ok (.ok (⟨xs, m, if logs c then some st else none,
            if k.sim then k.tasks.map (fun t => (t.id, paramsOf c t.id)) else []⟩, lg')))) ∨
    (∃ pre t post xs e, k.tasks = pre ++ t :: post ∧ Pointwise (Made p k.sim c) pre xs ∧
      p.task t.type_ (paramsOf c t.id) = .error e ∧ usesComponent k.sim t = true ∧
      start ov p k c lg = (wanted k.sim c (pre ++ [t]),
        .ok (.error (.task (e.addCause (createInfo t pre.length)))))) := by
  have hp := sameTasks_params hs
  have hq : ∀ (j : Nat) t, k.tasks[j]? = some t → (c.nodes.map (·.config))[0 + j]? = some (paramsOf c t.id) := by
    intro j t ht; rw [Nat.zero_add]; exact hp j t ht
  have hnew := newSteps_spec c (c.nodes.map (·.config)) k.tasks 0 hq
  unfold start
  rw [hn, Rs.ok_bind, hl]
  rcases createTasks_spec p k.sim c (c.nodes.map (·.config)) k.tasks 0 hq with ⟨xs, h1, h2⟩ | ⟨pre, t, post, xs, e, h1, h2, h3, h4, h5⟩
  · refine .inl ⟨xs, h2, ?_⟩
    simp only [h1, hnew]
    cases p.monitor k.monitor c (k.tasks.map (·.id)) with
    | error e => rfl
    | ok m => cases k.sim <;> rfl
  · refine .inr ⟨pre, t, post, xs, e, h1, h2, h3, h4, ?_⟩
    simp only [h5, Nat.zero_add]

/-! ### The log -/

open ULog in
theorem slab_addSection_some {page : Nat} {s s' : Slab} {file file' : Bytes} {t : EntryType} {req : Nat} {h : Handle}
    (ha : s.addSection page file t req = .ok (s', file', some h)) :
    req ≤ file.length ∧ 15 ≤ req ∧ (ULog.align page req < 2 ^ 32 → ULog.align page req ≤ file.length) := by
  unfold Slab.addSection at ha
  simp only at ha
  split at ha
  · cases ha
  rename_i h1
  split at ha
  · cases ha
  split at ha
  · cases ha
  split at ha
  · cases ha
  rename_i h4
  split at ha
  · cases ha
  rename_i h5
  refine ⟨by omega, by unfold maxHeader at h5; omega, fun hlt => ?_⟩
  have : (UInt32.ofNat (align page req)).toNat = align page req := by
    rw [UInt32.toNat_ofNat']; exact Nat.mod_eq_of_lt hlt
  rw [this] at h1
  omega

open ULog in
theorem addFront_some {lg lg' : Logger} {t : EntryType} {req : Nat} {h : Handle}
    (hf : ∀ file, lg.files[lg.front.suffix]? = some file → file.length = lg.slabSize)
    (ha : lg.addFront t req = .ok (lg', some h)) :
    req ≤ lg.slabSize ∧ 15 ≤ req ∧ (ULog.align lg.pageSize req < 2 ^ 32 → ULog.align lg.pageSize req ≤ lg.slabSize) := by
  unfold Logger.addFront at ha
  cases hfile : lg.files[lg.front.suffix]? with
  | none => rw [hfile] at ha; cases ha
  | some file =>
    rw [hfile] at ha
    simp only at ha
    cases hx : lg.front.addSection lg.pageSize file t req with
    | panic => rw [hx] at ha; cases ha
    | ok r =>
      obtain ⟨s, f, o⟩ := r
      rw [hx] at ha
      simp only [Rs.ok.injEq, Prod.mk.injEq] at ha
      obtain ⟨-, rfl⟩ := ha
      have := slab_addSection_some hx
      rw [hf file hfile] at this
      exact this

open ULog in
/-- A section is only given out if it fits in a slab. -/
theorem addSection_fits {lg lg' : Logger} {lay own} (hi : Inv lg lay own) {t : EntryType} {req : Nat} {h : Handle}
    (ha : lg.addSection t req = .ok (lg', h)) :
    req ≤ lg.slabSize ∧ 15 ≤ req ∧ (ULog.align lg.pageSize req < 2 ^ 32 → ULog.align lg.pageSize req ≤ lg.slabSize) := by
  obtain ⟨files', hgc, hi1, -⟩ := inv_gc hi
  unfold Logger.addSection at ha
  rw [hgc] at ha
  simp only at ha
  have hpg : (lg.collected files').pageSize = lg.pageSize := rfl
  have hss : (lg.collected files').slabSize = lg.slabSize := rfl
  generalize hlg : lg.collected files' = lg1 at *
  have hfront : ∀ file, lg1.files[lg1.front.suffix]? = some file → file.length = lg1.slabSize := by
    intro file hf
    obtain ⟨file', secs, h1, h2⟩ := hi1.front_at
    exact (hi1.live lg1.front (by simp [Logger.live]) file secs hf h2).len
  cases hx : lg1.addFront t req with
  | panic => rw [hx] at ha; cases ha
  | ok r =>
    obtain ⟨lg2, o⟩ := r
    cases o with
    | some h' =>
      have := addFront_some hfront hx
      rw [hpg, hss] at this
      exact this
    | none =>
      rw [hx] at ha
      simp only at ha
      have h2 : lg2.files.length = lg2.front.suffix + 1 ∧ lg2.slabSize = lg.slabSize ∧ lg2.pageSize = lg.pageSize := by
        unfold Logger.addFront at hx
        cases hfile : lg1.files[lg1.front.suffix]? with
        | none => rw [hfile] at hx; cases hx
        | some file =>
          rw [hfile] at hx
          simp only at hx
          cases hy : lg1.front.addSection lg1.pageSize file t req with
          | panic => rw [hy] at hx; cases hx
          | ok r =>
            obtain ⟨s, f, o⟩ := r
            rw [hy] at hx
            simp only [Rs.ok.injEq, Prod.mk.injEq] at hx
            obtain ⟨rfl, rfl⟩ := hx
            have hsuf : s.suffix = lg1.front.suffix := by
              unfold Slab.addSection at hy
              simp only at hy
              split at hy
              · cases hy; rfl
              split at hy
              · cases hy
              split at hy
              · cases hy
              split at hy
              · cases hy
              split at hy
              · cases hy
              · cases hy
            refine ⟨?_, hss, hpg⟩
            simp only [List.length_set, hsuf]
            rw [hi1.files_len, ← hi1.front_suffix]
      split at ha
      · rename_i lg3 h3 hy
        have := addFront_some (lg := lg2.rollover) (fun file hf => by
          simp only [Logger.rollover, newSlab] at hf ⊢
          rw [List.getElem?_append_right (by omega), h2.1] at hf
          simp at hf
          subst hf
          simp) hy
        have e1 : lg2.rollover.slabSize = lg.slabSize := h2.2.1
        have e2 : lg2.rollover.pageSize = lg.pageSize := h2.2.2
        rw [e1, e2] at this
        exact this
      · cases ha

end Launch
end Verif

namespace Verif
namespace Launch
open Config Spec
variable {C T M : Type}

/-! ### What is compiled -/

theorem firstMsg_idxs {c : CuConfig C} {q : Planner.Edge → Bool} {m : String}
    (h : firstMsg c ((graphOf c).edgeIdxs q) = .ok m) :
    ∃ e ∈ c.edges, q ⟨e.src, e.dst, e.cnx.msg⟩ = true ∧ m = e.cnx.msg := by
  cases hl : (graphOf c).edgeIdxs q with
  | nil => rw [hl] at h; cases h
  | cons i l =>
    rw [hl] at h
    have hi : i ∈ (graphOf c).edgeIdxs q := by rw [hl]; exact List.mem_cons_self ..
    unfold Planner.Graph.edgeIdxs at hi
    rw [List.mem_reverse, List.mem_map] at hi
    obtain ⟨⟨e, j⟩, hx, rfl⟩ := hi
    obtain ⟨hz, hq⟩ := List.mem_filter.1 hx
    have hz' := List.mem_zipIdx_iff_getElem?.1 hz
    simp only [graphOf, List.getElem?_map] at hz'
    cases he : c.edges[j]? with
    | none => rw [he] at hz'; cases hz'
    | some e' =>
      rw [he] at hz'
      simp only [Option.map_some, Option.some.injEq] at hz'
      simp only [firstMsg, he, Option.map_some, Rs.ofOption_some, Rs.ok.injEq] at h
      refine ⟨e', List.mem_of_getElem? he, ?_, h.symm⟩
      rw [hz']
      exact hq

theorem findNode_at {ns : List (Node C)} (hd : (ns.map (·.id)).Nodup) {i : Nat} {n : Node C} (h : ns[i]? = some n) :
    findNode ns n.id = some i := by
  unfold findNode
  induction ns generalizing i with
  | nil => simp at h
  | cons a ns ih =>
    rw [List.map_cons, List.nodup_cons] at hd
    cases i with
    | zero => simp at h; simp [h, List.findIdx?_cons]
    | succ i =>
      simp only [List.getElem?_cons_succ] at h
      have hne : (a.id == n.id) = false := by
        rw [beq_eq_false_iff_ne]
        intro e
        exact hd.1 (e ▸ List.mem_map_of_mem (List.mem_of_getElem? h))
      rw [List.findIdx?_cons, hne, ih hd.2 h]
      rfl

theorem incoming_zero (c : CuConfig C) (i : Nat) :
    ((graphOf c).incoming i).length = 0 ↔ ∀ e ∈ c.edges, e.dst ≠ i := by
  simp only [Planner.Graph.incoming, graphOf, List.length_map, List.length_reverse, List.length_eq_zero_iff,
    List.filter_eq_nil_iff, List.mem_map, beq_iff_eq]
  constructor
  · intro h e he; exact h _ ⟨e, he, rfl⟩
  · rintro h x ⟨e, he, rfl⟩; exact h e he

theorem outgoing_zero (c : CuConfig C) (i : Nat) :
    ((graphOf c).outgoing i).length = 0 ↔ ∀ e ∈ c.edges, e.src ≠ i := by
  simp only [Planner.Graph.outgoing, graphOf, List.length_map, List.length_reverse, List.length_eq_zero_iff,
    List.filter_eq_nil_iff, List.mem_map, beq_iff_eq]
  constructor
  · intro h e he; exact h _ ⟨e, he, rfl⟩
  · rintro h x ⟨e, he, rfl⟩; exact h e he

theorem compileTask_spec {c : CuConfig C} (hd : (c.nodes.map (·.id)).Nodup) {i : Nat} {n : Node C} {t : Task}
    (hn : c.nodes[i]? = some n) (h : compileTask c i n = .ok t) :
    t.id = n.id ∧ n.type_ = some t.type_ ∧ Stands c i t.sim := by
  unfold compileTask at h
  obtain ⟨ty, h1, h⟩ := Rs.bind_eq_ok.1 h
  obtain ⟨s, h2, h⟩ := Rs.bind_eq_ok.1 h
  cases h
  have hty : n.type_ = some ty := by
    cases hq : n.type_ with
    | none => rw [hq] at h1; cases h1
    | some x => rw [hq] at h1; cases h1; rfl
  have hf := findNode_at hd hn
  refine ⟨rfl, hty, ?_⟩
  have hi := incoming_zero c i
  have ho := outgoing_zero c i
  unfold simTy Planner.taskType at h2
  by_cases a : ((graphOf c).incoming i).length = 0
  · rw [if_pos a] at h2
    simp only [outputMsg, hf] at h2
    cases hm : firstMsg c ((graphOf c).srcEdges i) with
    | panic => rw [hm] at h2; cases h2
    | ok m =>
      rw [hm] at h2
      cases h2
      obtain ⟨e, he, hq, rfl⟩ := firstMsg_idxs hm
      have hq' : e.src = i := by simpa using hq
      exact ⟨fun _ => ⟨e, he, hq', rfl⟩, fun ⟨e', he', hx⟩ => absurd hx (hi.1 a e' he'),
        fun ⟨e', he', hx⟩ => absurd hx (hi.1 a e' he')⟩
  · rw [if_neg a] at h2
    by_cases b : ((graphOf c).outgoing i).length = 0
    · rw [if_pos b] at h2
      simp only [inputMsg, hf] at h2
      cases hm : firstMsg c ((graphOf c).edgeIdxs (fun e => e.dst == i)) with
      | panic => rw [hm] at h2; cases h2
      | ok m =>
        rw [hm] at h2
        cases h2
        obtain ⟨e, he, hq, rfl⟩ := firstMsg_idxs hm
        have hq' : e.dst = i := by simpa using hq
        exact ⟨fun h => absurd (hi.2 h) a, fun _ _ => ⟨e, he, hq', rfl⟩,
          fun _ ⟨e', he', hx⟩ => absurd hx (ho.1 b e' he')⟩
    · rw [if_neg b] at h2
      cases h2
      exact ⟨fun h => absurd (hi.2 h) a, fun _ h => absurd (ho.2 h) b, fun _ _ => rfl⟩

theorem compileTasks_spec {c : CuConfig C} (hd : (c.nodes.map (·.id)).Nodup) (ns : List (Node C)) :
    ∀ (i : Nat) (ts : List Task), (∀ (j : Nat) n, ns[j]? = some n → c.nodes[i + j]? = some n) →
      compileTasks c i ns = .ok ts →
      ts.length = ns.length ∧ ∀ (j : Nat) n t, ns[j]? = some n → ts[j]? = some t →
        t.id = n.id ∧ n.type_ = some t.type_ ∧ Stands c (i + j) t.sim := by
  induction ns with
  | nil =>
    intro i ts _ h
    cases h
    exact ⟨rfl, fun j n t h => by simp at h⟩
  | cons n ns ih =>
    intro i ts hc h
    simp only [compileTasks] at h
    obtain ⟨t, h1, h⟩ := Rs.bind_eq_ok.1 h
    obtain ⟨ts', h2, h⟩ := Rs.bind_eq_ok.1 h
    cases h
    have h0 := hc 0 n rfl
    rw [Nat.add_zero] at h0
    obtain ⟨e1, e2⟩ := ih (i + 1) ts'
      (fun j u hu => by rw [Nat.add_assoc, Nat.add_comm 1 j]; exact hc (j + 1) u hu) h2
    refine ⟨by simp [e1], ?_⟩
    intro j u v hu hv
    cases j with
    | zero =>
      simp at hu hv
      subst hu; subst hv
      exact compileTask_spec hd h0 h1
    | succ j =>
      simp only [List.getElem?_cons_succ] at hu hv
      have := e2 j u v hu hv
      rw [Nat.add_assoc, Nat.add_comm 1 j] at this
      exact this

/-! ### The basic setup -/
section
open ULog

/-- A section is given exactly if it fits. -/
theorem addSection_iff {lg : Logger} {lay own} (hi : Inv lg lay own) (hne : NonEmpty lay) {t : EntryType} {req i : Nat}
    (hp : 13 < lg.pageSize) (hm : ULog.align lg.pageSize req < 2 ^ 32) (hown : own i = none) :
    (lg.addSection t req ≠ .panic ↔ 15 ≤ req ∧ ULog.align lg.pageSize req ≤ lg.slabSize) := by
  constructor
  · intro h
    cases ha : lg.addSection t req with
    | panic => exact absurd ha h
    | ok r =>
      obtain ⟨lg', hd⟩ := r
      obtain ⟨-, h2, h3⟩ := addSection_fits hi ha
      exact ⟨h2, h3 hm⟩
  · rintro ⟨h1, h2⟩
    obtain ⟨lg', hd, lay', e, -⟩ := inv_addSection hi hne (t := t) (req := req) (i := i) ⟨hp, h1, hm⟩ h2 hown
    rw [e]; simp

theorem align_lt (page x : Nat) (hp : 0 < page) : ULog.align page x < x + page := by
  unfold ULog.align
  have := Nat.div_mul_le_self (x + page - 1) page
  omega

theorem openStream_ne_panic {lg : Logger} {t : EntryType} {n : Nat} :
    ULog.openStream lg t n ≠ .panic ↔ lg.addSection t n ≠ .panic := by
  unfold ULog.openStream
  cases lg.addSection t n <;> simp

/-- The basic setup, and what the log it gives can take. -/
theorem basicSetup_spec (page : Nat) (slab : Option Nat) (hp : 13 < page) (hp' : page ≤ 65535)
    (hs : 10 ≤ slab.getD 10485760) :
    (basicSetup page slab ≠ .panic ↔ ULog.align page 40960 ≤ slab.getD 10485760) ∧
    ∀ lg st, basicSetup page slab = .ok (lg, st) →
      lg.pageSize = page ∧ lg.slabSize = slab.getD 10485760 ∧
      (∀ t n, lg.addSection t n ≠ .panic → n ≤ lg.slabSize) ∧
      ∀ t n, ULog.align page n < 2 ^ 32 →
        (ULog.openStream lg t n ≠ .panic ↔ 15 ≤ n ∧ ULog.align page n ≤ slab.getD 10485760) := by
  obtain ⟨lg0, e0, hi0, hpg, hss⟩ := inv_new (slabSize := slab.getD 10485760) (page := page) (by omega) hs
  have hne : NonEmpty ([[]] : List (List Sec)) := by
    intro k hk hc
    have := (List.getElem?_eq_some_iff.1 hc).1
    simp at this; omega
  have hb : basicSetup page slab = ULog.openStream lg0 .structuredLogLine 40960 := by
    unfold basicSetup
    rw [show 1024 * 1024 * 10 = 10485760 from rfl, e0]
  have hm : ULog.align page 40960 < 2 ^ 32 := by
    have := align_lt page 40960 (by omega); omega
  have h0 := addSection_iff hi0 hne (t := .structuredLogLine) (req := 40960) (i := 0) (by omega)
    (by rw [hpg]; exact hm) rfl
  rw [hpg, hss] at h0
  refine ⟨?_, ?_⟩
  · rw [hb, openStream_ne_panic, h0]; simp
  · intro lg st h
    rw [hb] at h
    unfold ULog.openStream at h
    have hfit : ULog.align page 40960 ≤ slab.getD 10485760 := by
      apply And.right
      apply h0.1
      intro hc; rw [hc] at h; cases h
    obtain ⟨lg', hd, lay', e, hi', hne', -, -, -, -, hpg', hss', -⟩ :=
      inv_addSection hi0 hne (t := .structuredLogLine) (req := 40960) (i := 0)
        ⟨by omega, by omega, by rw [hpg]; exact hm⟩ (by rw [hpg, hss]; exact hfit) rfl
    rw [e] at h
    simp only [Rs.ok.injEq, Prod.mk.injEq] at h
    obtain ⟨rfl, -⟩ := h
    refine ⟨by omega, by omega, ?_, ?_⟩
    · intro t n hn
      cases ha : lg'.addSection t n with
      | panic => exact absurd ha hn
      | ok r => exact (addSection_fits hi' (h := r.2) (lg' := r.1) ha).1
    · intro t n hn
      have := addSection_iff hi' hne' (t := t) (req := n) (i := 1) (by omega)
        (by rw [hpg', hpg]; exact hn) (by simp [upd])
      rw [hpg', hpg, hss', hss] at this
      rw [openStream_ne_panic, this]

end

end Launch
end Verif
