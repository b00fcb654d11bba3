import Verif.Proofs.EndToEnd
import Verif.Props.RuntimePool
import Verif.Props.UnifiedLog
import Verif.Spec.DemoLogged
/-!
C23: from the iterations of a run to the copper lists obtained by exporting its log.  The generated
loop, the encoding of copper lists, the unified log and the export tool, composed.
-/
namespace Verif
namespace Runtime
open Planner CopperList Clock Bincode
variable {σ P : Type}

/-- Any run, whatever the tasks, the monitor and the simulation do, and however it ends: write its
log, read it back as a byte stream of copper lists with any buffer sizes until the reader reports
the end, and dump it.  The lists obtained are those the run logged, in order, complete. -/
theorem C23_dump {page slabSize : Nat} (hz : ULog.SizesOk page slabSize)
    (app : App σ P) (hist : σ → List ULog.LogOp) (k : Nat) (slots : List (Codec P))
    (pieces : CL (List (Msg P)) → List Bytes) (hl : LogsTo app.env hist k pieces)
    (hpieces : ∀ cl, (pieces cl).flatten = (Wire.clCodec slots).enc cl)
    (n : Nat) (rt rt' : Rt σ P) (r : RunResult) (h0 : StreamReady k [] (hist rt.w.st))
    (h : run app n rt = .ok (rt', r))
    (hops : ULog.HistoryOk page slabSize [] (hist rt'.w.st))
    (htyped : ∀ cl ∈ loggedLists rt'.w.trace, Typed slots cl)
    (ns : List Nat) (hn : ∀ b ∈ ns, 0 < b) :
    ∃ t files reader ds, rt'.w.trace = rt.w.trace ++ t ∧
      ULog.writeLog slabSize page (hist rt'.w.st) = .ok files ∧
      ULog.Reader.new files = .ok reader ∧
      (ULog.IOReader.new reader).reads files .copperList ns = .ok ds ∧
      ([] ∈ ds → @dumpObjects _ (Wire.clCodec slots) ds.flatten = loggedLists t) := by
  obtain ⟨ops, t, h1, h2, h3, h4⟩ := step_run (h0 := hist rt.w.st) (t0 := rt.w.trace) hl
    ⟨[], [], by simp, by simp, by simp, rfl⟩ h
  rw [h1] at hops ⊢
  obtain ⟨h5, h6⟩ := logged_ready h3 (live := []) (by intro i j t m m' hi; simp at hi) h0 hops
  obtain ⟨files, reader, ds, h7, h8, h9, _, h10, _⟩ := ULog.C05_history_partial hz hops h6 hn
  refine ⟨t, files, reader, ds, h2, h7, h8, h9, fun he => ?_⟩
  rw [h10 he, h5, h4, flatten_pieces hpieces, dump_lists]
  intro cl hcl
  exact htyped cl (by rw [h2, loggedLists_append]; exact List.mem_append_right _ hcl)

/-- An undisturbed run (nothing aborted, no shutdown) of the application of any task graph that has
all its tasks in its plan, observed after `n` iterations: the dump of its log has one list per
iteration, with consecutive ids, and the list of an iteration holds exactly the messages the tasks
left in it, one per task in plan order. -/
theorem C23_dump_undisturbed {page slabSize : Nat} (hz : ULog.SizesOk page slabSize)
    (g : Graph) (hg : g.WF) (app : App σ P) (hplan : computePlan g = .ok (some app.plan))
    (hist : σ → List ULog.LogOp) (k : Nat) (slots : List (Codec P))
    (pieces : CL (List (Msg P)) → List Bytes) (hl : LogsTo app.env hist k pieces)
    (hpieces : ∀ cl, (pieces cl).flatten = (Wire.clCodec slots).enc cl)
    (n : Nat) (rt rt' : Rt σ P) (hi : Idle app.plan.length rt.mgr)
    (h0 : StreamReady k [] (hist rt.w.st)) (h : run app n rt = .ok (rt', .running))
    (hstops : ∀ ev ∈ rt'.w.trace, ev.stops = false)
    (hops : ULog.HistoryOk page slabSize [] (hist rt'.w.st))
    (htyped : ∀ cl ∈ loggedLists rt'.w.trace, Typed slots cl)
    (ns : List Nat) (hn : ∀ b ∈ ns, 0 < b) :
    ∃ (starts : List (Ev P)) (its : List (List (Ev P))) (files : List Bytes) (reader : ULog.Reader)
      (ds : List Bytes), rt'.w.trace = rt.w.trace ++ starts ++ its.flatten ∧
      its.length = n ∧ (∀ t ∈ its, (lefts t).map Prod.fst = callOrder app.plan) ∧
      ULog.writeLog slabSize page (hist rt'.w.st) = .ok files ∧
      ULog.Reader.new files = .ok reader ∧
      (ULog.IOReader.new reader).reads files .copperList ns = .ok ds ∧
      ([] ∈ ds → @dumpObjects _ (Wire.clCodec slots) ds.flatten = its.zipIdx.map (fun ti =>
        ⟨rt.mgr.currentClId + UInt32.ofNat ti.2, .beingSerialized, (lefts ti.1).map Prod.snd⟩)) := by
  obtain ⟨t, files, reader, ds, h1, h2, h3, h4, h5⟩ :=
    C23_dump hz app hist k slots pieces hl hpieces n rt rt' _ h0 h hops htyped ns hn
  have hlog : app.env.log.isSome = true := by obtain ⟨f, hf, _⟩ := hl.log; rw [hf]; rfl
  obtain ⟨starts, hs1, hs2⟩ := startAll_quiet app rt
  have hm := startAll_mgr app rt
  unfold run at h
  generalize startAll app rt = q at h hm hs1
  obtain ⟨rt1, r1⟩ := q
  simp only at hm hs1
  cases r1 with
  | some e => simp at h
  | none =>
    simp only at h
    split at h
    · cases h
    · rename_i rt2 h6
      simp only [Rs.ok.injEq, Prod.mk.injEq, and_true] at h
      subst h
      obtain ⟨its, h7, h8, h9⟩ := C11_run_logged g hg app hplan hlog n rt1 rt2 (by rw [hm]; exact hi) h6
      have h10 : rt2.w.trace = rt.w.trace ++ starts ++ its.flatten := by rw [h7, hs1]
      obtain ⟨h11, h12⟩ := h9 (fun t ht ev hev => hstops ev (by
        rw [h10]; exact List.mem_append_right _ (List.mem_flatten.2 ⟨t, ht, hev⟩)))
      refine ⟨starts, its, files, reader, ds, h10, h8, h12, h2, h3, h4, fun he => ?_⟩
      have h13 : t = starts ++ its.flatten := by
        rw [h10, List.append_assoc] at h1
        exact (List.append_cancel_left h1).symm
      rw [h5 he, h13, loggedLists_append, hs2, h11, hm]
      rfl
    · split at h <;> simp at h

/-- The demo application with its text log and its copper lists in one log, two iterations. -/
theorem demoLogged_logsTo : LogsTo demoLoggedEnv Prod.snd 1 demoPieces := by
  have h : ∀ l : List ULog.LogOp, Leaves 1 l l := fun l => ⟨[], by simp, by simp, by simp⟩
  have hline : ∀ s, Leaves 1 s.2 (line s).2 := fun s => ⟨[.log 0 [[1, 2], [3]]], rfl, by simp, by simp⟩
  exact ⟨⟨_, rfl, fun s cl s' hs => by cases hs; rfl⟩, fun s => h s.2, fun _ _ s => h s.2,
    fun _ _ s => hline s, fun _ _ _ s => hline s, fun _ _ s => hline s, fun _ _ _ s => hline s,
    fun _ s => h s.2, fun s => h s.2, fun s => h s.2, fun _ hs => by simp [demoLoggedEnv] at hs, fun _ hs => by simp [demoLoggedEnv] at hs⟩

/-- That run after two iterations. -/
def demoLoggedEnd : Rt (Nat × List ULog.LogOp) Nat :=
  match run demoLogged 2 demoLoggedStart with | .ok (rt, _) => rt | .panic => demoLoggedStart

example : ULog.SizesOk 16 256 ∧ demoGraph.WF ∧ computePlan demoGraph = .ok (some demoLogged.plan) ∧
    (∀ cl, (demoPieces cl).flatten = (Wire.clCodec demoSlots).enc cl) ∧
    Idle demoLogged.plan.length demoLoggedStart.mgr ∧
    StreamReady 1 [] demoLoggedStart.w.st.2 ∧
    run demoLogged 2 demoLoggedStart = .ok (demoLoggedEnd, .running) ∧
    (∀ ev ∈ demoLoggedEnd.w.trace, ev.stops = false) := by
  refine ⟨⟨by decide, by decide, by decide⟩, by decide, by decide +kernel, by simp [demoPieces],
    ⟨rfl, rfl, by decide, by decide, by decide⟩, ⟨64, rfl⟩, by rfl, by decide +kernel⟩

/-- The lists it logs. -/
def demoLists : List (CL (List (Msg Nat))) :=
  let at_ (a b : UInt64) : MsgMeta := ⟨⟨⟨⟨a⟩⟩, ⟨⟨b⟩⟩⟩, .none, ""⟩
  [⟨0, .beingSerialized, [⟨some 6, at_ 5 6⟩, ⟨some 1006, at_ 7 8⟩, ⟨none, at_ 9 10⟩]⟩,
   ⟨1, .beingSerialized, [⟨some 12, at_ 11 12⟩, ⟨some 1012, at_ 13 14⟩, ⟨none, at_ 15 16⟩]⟩]

example : ULog.HistoryOk 16 256 [] demoLoggedEnd.w.st.2 := by
  have h : demoLoggedEnd.w.st.2 =
      [.openStream .structuredLogLine 32, .openStream .copperList 64,
        .log 0 [[1, 2], [3]], .log 0 [[1, 2], [3]], .log 0 [[1, 2], [3]],
        .log 1 [[0, 4, 1, 6, 5, 6, 0, 0, 1, 251, 238, 3, 7, 8, 0, 0, 0, 9, 10, 0, 0]],
        .log 0 [[1, 2], [3]], .log 0 [[1, 2], [3]], .log 0 [[1, 2], [3]],
        .log 1 [[1, 4, 1, 12, 11, 12, 0, 0, 1, 251, 244, 3, 13, 14, 0, 0, 0, 15, 16, 0, 0]]] := by decide +kernel
  rw [h]
  simp only [ULog.HistoryOk]
  refine ⟨by decide, by decide, by simp, ⟨by decide, by decide, by decide⟩, by decide, by decide,
    by simp, ⟨by decide, by decide, by decide⟩, ?_⟩
  refine ⟨by simp, by simp, by simp, by simp, by simp, by simp, by simp, by simp, trivial⟩

example : ∀ cl ∈ loggedLists demoLoggedEnd.w.trace, Typed demoSlots cl := by
  have h : ∀ cl ∈ loggedLists demoLoggedEnd.w.trace, ∃ a b c, cl.msgs = [a, b, c] ∧
      (∀ p ∈ a.payload, p < 18446744073709551616) ∧ (∀ p ∈ b.payload, p < 65536) ∧
      (∀ p ∈ c.payload, p = 0) ∧ ∀ m ∈ cl.msgs, m.md.statusTxt.utf8ByteSize < 18446744073709551616 := by
    have h2 : loggedLists demoLoggedEnd.w.trace = demoLists := by decide +kernel
    rw [h2]
    intro cl hcl
    simp only [demoLists, List.mem_cons, List.not_mem_nil, or_false] at hcl
    rcases hcl with rfl | rfl <;>
    refine ⟨_, _, _, rfl, by decide, by decide, by decide, by decide⟩
  intro cl hcl
  obtain ⟨a, b, c, h1, h2, h3, h4, h5⟩ := h cl hcl
  unfold Typed
  rw [h1] at h5 ⊢
  refine .cons ⟨fun p hp rest => ?_, h5 _ (by simp)⟩ (.cons ⟨fun p hp rest => ?_, h5 _ (by simp)⟩
    (.cons ⟨fun p hp rest => ?_, h5 _ (by simp)⟩ .nil))
  · simp only
    rw [Dec.bind_ok (rt_u64 _ _)]
    simp [Nat.mod_eq_of_lt (h2 p hp)]
  · simp only
    rw [Dec.bind_ok (rt_u16 _ _)]
    simp [Nat.mod_eq_of_lt (h3 p hp)]
  · rw [h4 p hp]; rfl

end Runtime
end Verif
