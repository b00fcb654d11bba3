import Verif.Proofs.Session
import Verif.Props.EndToEnd
/-!
C101: applications one after the other in a program, with one log.
-/
namespace Verif
namespace Runtime
open Planner CopperList Clock Bincode ULog
variable {σ P : Type}

/-- A program that creates, uses and drops applications one after the other, whatever they do and however their runs
end: the log can be written, and its sections have the lists of all of them, in order. -/
theorem C101_sections {page slabSize : Nat} (hz : SizesOk page slabSize) {hist : σ → List LogOp}
    {slots : List (Codec P)} {pieces : CL (List (Msg P)) → List Bytes}
    (hpieces : ∀ cl, (pieces cl).flatten = (Wire.clCodec slots).enc cl)
    {h last : List LogOp} {runs : List (List (CL (List (Msg P))))} (hs : Session hist pieces h runs)
    (hlast : Elsewhere h last) (hops : HistoryOk page slabSize [] (h ++ last))
    (htyped : ∀ r ∈ runs, ∀ cl ∈ r, Typed slots cl) :
    ∃ files sections, writeLog slabSize page (h ++ last) = .ok files ∧
      readLog files .copperList = .ok sections ∧
      @dumpObjects _ (Wire.clCodec slots) sections.flatten = runs.flatten := by
  have hpos : ∀ cl, (pieces cl).flatten ≠ [] := fun cl hc => by
    have := Wire.cl_pos slots cl
    rw [← hpieces, hc] at this
    simp at this
  obtain ⟨a, b, _, _⟩ := session_after hs hpos ((history_append _ _ _).1 hops).1
  obtain ⟨c, _⟩ := elsewhere_after (live := streamsAfter [] h) (t := .copperList) false hlast.opens
    (fun i n hi => absurd hi (a i n))
  obtain ⟨files, h1, h2⟩ := C01_round_trip hz hops
  obtain ⟨sections, h3, h4⟩ := h2 .copperList
  refine ⟨files, sections, h1, h3, ?_⟩
  rw [h4, logged_append, b, c, List.append_nil, flatten_pieces hpieces, dump_lists]
  intro cl hcl
  obtain ⟨r, hr, hm⟩ := List.mem_flatten.1 hcl
  exact htyped r hr cl hm

/-- The export of the log, which reads it as a byte stream with buffers of any sizes until it is told that this is the
end, has them too, if every application but the last has logged a list. -/
theorem C101_export_partial {page slabSize : Nat} (hz : SizesOk page slabSize) {hist : σ → List LogOp}
    {slots : List (Codec P)} {pieces : CL (List (Msg P)) → List Bytes}
    (hpieces : ∀ cl, (pieces cl).flatten = (Wire.clCodec slots).enc cl)
    {h last : List LogOp} {runs : List (List (CL (List (Msg P))))} (hs : Session hist pieces h runs)
    (hlast : Elsewhere h last) (hops : HistoryOk page slabSize [] (h ++ last))
    (htyped : ∀ r ∈ runs, ∀ cl ∈ r, Typed slots cl) (hused : ∀ r ∈ runs.dropLast, r ≠ [])
    {ns : List Nat} (hn : ∀ b ∈ ns, 0 < b) :
    ∃ files reader ds, writeLog slabSize page (h ++ last) = .ok files ∧ Reader.new files = .ok reader ∧
      (IOReader.new reader).reads files .copperList ns = .ok ds ∧
      ([] ∈ ds → @dumpObjects _ (Wire.clCodec slots) ds.flatten = runs.flatten) := by
  have hpos : ∀ cl, (pieces cl).flatten ≠ [] := fun cl hc => by
    have := Wire.cl_pos slots cl
    rw [← hpieces, hc] at this
    simp at this
  obtain ⟨a, b, u, _⟩ := session_after hs hpos ((history_append _ _ _).1 hops).1
  obtain ⟨c, v, _, _⟩ := elsewhere_after (live := streamsAfter [] h) (t := .copperList)
    (idleAfter .copperList false [] h) hlast.opens (fun i n hi => absurd hi (a i n))
  obtain ⟨files, reader, ds, h1, h2, h3, _, h4, _⟩ := C05_reopened_partial hz hops
    (t := .copperList) ((used_append _ _ _ _ _).2 ⟨u hused, v⟩) hn
  refine ⟨files, reader, ds, h1, h2, h3, fun he => ?_⟩
  rw [h4 he, logged_append, b, c, List.append_nil, flatten_pieces hpieces, dump_lists]
  intro cl hcl
  obtain ⟨r, hr, hm⟩ := List.mem_flatten.1 hcl
  exact htyped r hr cl hm

/-! ### Two applications -/

/-- The demo application, with its lists on the stream `k`. -/
def sessionApp (k : Nat) : App (Nat × List LogOp) Nat :=
  ⟨3, demoPlan, { demoLoggedEnv with log := some (fun s cl => .ok (s.1, s.2 ++ [.log k (demoPieces cl)])) }, .checked⟩

/-- The second part of its state is what was done with the log. -/
def sessionHist (s : Nat × List LogOp) : List LogOp := s.2

theorem session_logsTo {k : Nat} (hk : k ≠ 0) : LogsTo (sessionApp k).env sessionHist k demoPieces := by
  have h : ∀ l : List LogOp, Leaves k l l := fun l => ⟨[], by simp, by simp, by simp⟩
  have hline : ∀ s, Leaves k s.2 (line s).2 := fun s => ⟨[.log 0 [[1, 2], [3]]], rfl, by simp, by simp [hk]⟩
  exact ⟨⟨_, rfl, fun s cl s' hs => by cases hs; rfl⟩, fun s => h s.2, fun _ _ s => h s.2,
    fun _ _ s => hline s, fun _ _ _ s => hline s, fun _ _ s => hline s, fun _ _ _ s => hline s,
    fun _ s => h s.2, fun s => h s.2, fun s => h s.2, fun _ hs => by simp [sessionApp, demoLoggedEnv] at hs,
    fun _ hs => by simp [sessionApp, demoLoggedEnv] at hs⟩

/-- An application that was just created. -/
def sessionStart (ops : List LogOp) : Rt (Nat × List LogOp) Nat :=
  ⟨⟨(5, ops), []⟩, Manager.new 2 [Msg.new none, Msg.new none, Msg.new none]⟩

/-- What the program has done with the log when an application is dropped. -/
def sessionLog (k : Nat) (cs : List Call) (ops : List LogOp) : List LogOp :=
  match uses (sessionApp k) cs (sessionStart ops) with
  | .ok rt => rt.w.st.2 ++ [.drop k]
  | .panic => []

/-- The lists it has logged. -/
def sessionLists (k : Nat) (cs : List Call) (ops : List LogOp) : List (CL (List (Msg Nat))) :=
  match uses (sessionApp k) cs (sessionStart ops) with
  | .ok rt => loggedLists rt.w.trace
  | .panic => []

theorem session_next {h before : List LogOp} {runs : List (List (CL (List (Msg Nat))))} {size : Nat}
    {cs : List Call} {rt' : Rt (Nat × List LogOp) Nat} (hs : Session sessionHist demoPieces h runs)
    (hb : Elsewhere h before) (k : Nat) (hk : k = (openedTypes (h ++ before)).length) (hk0 : k ≠ 0)
    (hr : uses (sessionApp k) cs (sessionStart (h ++ before ++ [.openStream .copperList size])) = .ok rt') :
    Session sessionHist demoPieces (sessionLog k cs (h ++ before ++ [.openStream .copperList size]))
      (runs ++ [sessionLists k cs (h ++ before ++ [.openStream .copperList size])]) := by
  have := Session.next (size := size) (app := sessionApp k) (cs := cs)
    (rt := sessionStart (h ++ before ++ [.openStream .copperList size])) (after := []) (t := rt'.w.trace) hs hb
    ⟨by simp, by simp, by simp⟩ (by simp [sessionStart, sessionHist]) (by rw [← hk]; exact session_logsTo hk0) hr rfl
  unfold sessionLog sessionLists
  rw [hr]
  simp only
  rw [hk]
  exact this

/-- The first application: started, one iteration, stopped. -/
def firstCalls : List Call := [.start, .iteration, .stop]
def firstOps : List LogOp := [.openStream .structuredLogLine 32] ++ [] ++ [.openStream .copperList 64]
/-- The second one, after a line of text; it runs. -/
def secondOps : List LogOp := sessionLog 1 firstCalls firstOps ++ [.log 0 [[7]]] ++ [.openStream .copperList 64]

example : Session sessionHist demoPieces (sessionLog 2 [.run 2] secondOps)
    ([] ++ [sessionLists 1 firstCalls firstOps] ++ [sessionLists 2 [.run 2] secondOps]) := by
  have h1 : ∃ rt', uses (sessionApp 1) firstCalls (sessionStart firstOps) = .ok rt' := ⟨_, rfl⟩
  have h2 : ∃ rt', uses (sessionApp 2) [.run 2] (sessionStart secondOps) = .ok rt' := ⟨_, rfl⟩
  obtain ⟨rt1, h1⟩ := h1
  obtain ⟨rt2, h2⟩ := h2
  exact session_next (session_next (.begin_ (by simp)) ⟨by simp, by simp, by simp⟩ 1 rfl (by decide) h1)
    ⟨by simp, by
      intro i obj hm
      simp only [List.mem_singleton, LogOp.log.injEq] at hm
      rw [hm.1]
      decide +kernel, by simp⟩ 2 (by decide +kernel) (by decide) h2

example : (sessionLists 1 firstCalls firstOps).map (fun cl => (cl.id, cl.msgs.map Msg.payload)) =
      [(0, [some 6, some 1006, none])] ∧
    (sessionLists 2 [.run 2] secondOps).map (fun cl => (cl.id, cl.msgs.map Msg.payload)) =
      [(0, [some 6, some 1006, none]), (1, [some 12, some 1012, none])] := by decide +kernel

/-- That log, with the sizes of a page and of a slab. -/
example : HistoryOk 16 256 [] (sessionLog 2 [.run 2] secondOps) := by
  have h : sessionLog 2 [.run 2] secondOps =
      [.openStream .structuredLogLine 32, .openStream .copperList 64, .log 0 [[1, 2], [3]], .log 0 [[1, 2], [3]],
        .log 0 [[1, 2], [3]], .log 1 [[0, 4, 1, 6, 5, 6, 0, 0, 1, 251, 238, 3, 7, 8, 0, 0, 0, 9, 10, 0, 0]], .drop 1,
        .log 0 [[7]], .openStream .copperList 64, .log 0 [[1, 2], [3]], .log 0 [[1, 2], [3]], .log 0 [[1, 2], [3]],
        .log 2 [[0, 4, 1, 6, 5, 6, 0, 0, 1, 251, 238, 3, 7, 8, 0, 0, 0, 9, 10, 0, 0]], .log 0 [[1, 2], [3]],
        .log 0 [[1, 2], [3]], .log 0 [[1, 2], [3]],
        .log 2 [[1, 4, 1, 12, 11, 12, 0, 0, 1, 251, 244, 3, 13, 14, 0, 0, 0, 15, 16, 0, 0]], .drop 2] := by
    decide +kernel
  rw [h]
  simp only [HistoryOk]
  refine ⟨by decide, by decide, by simp, ⟨by decide, by decide, by decide⟩, by decide, by decide,
    by simp, ⟨by decide, by decide, by decide⟩, ?_⟩
  refine ⟨by simp, by simp, by simp, by simp, by simp, by decide, by decide, by simp,
    ⟨by decide, by decide, by decide⟩, ?_⟩
  refine ⟨by simp, by simp, by simp, by simp, by simp, by simp, by simp, by simp, trivial⟩

/-- The second application after one that was started and stopped without an iteration. -/
def hiddenOps : List LogOp := sessionLog 1 [.start, .stop] firstOps ++ [] ++ [.openStream .copperList 64]

/-- Negation: after an application that has logged no list, the lists of the next ones are in the log but not in its
export. -/
theorem C101_hidden_violated :
    Session sessionHist demoPieces (sessionLog 2 [.run 2] hiddenOps)
      [[], sessionLists 2 [.run 2] hiddenOps] ∧
    HistoryOk 16 256 [] (sessionLog 2 [.run 2] hiddenOps) ∧
    (sessionLists 2 [.run 2] hiddenOps).length = 2 ∧
    (match writeLog 256 16 (sessionLog 2 [.run 2] hiddenOps) with
      | .ok files => (match Reader.new files with
        | .ok r => (IOReader.new r).reads files .copperList [64]
        | _ => .err)
      | .panic => .panic) = .ok [[]] := by
  refine ⟨?_, ?_, by decide +kernel, by decide +kernel⟩
  · have h1 : ∃ rt', uses (sessionApp 1) [.start, .stop] (sessionStart firstOps) = .ok rt' := ⟨_, rfl⟩
    have h2 : ∃ rt', uses (sessionApp 2) [.run 2] (sessionStart hiddenOps) = .ok rt' := ⟨_, rfl⟩
    obtain ⟨rt1, h1⟩ := h1
    obtain ⟨rt2, h2⟩ := h2
    have := session_next (session_next (.begin_ (by simp)) ⟨by simp, by simp, by simp⟩ 1 rfl (by decide) h1)
      ⟨by simp, by simp, by simp⟩ 2 (by decide +kernel) (by decide) h2
    have e : sessionLists 1 [.start, .stop] firstOps = [] := by decide +kernel
    have e' := e
    unfold firstOps at e'
    rw [e'] at this
    exact this
  · have h : sessionLog 2 [.run 2] hiddenOps =
        [.openStream .structuredLogLine 32, .openStream .copperList 64, .drop 1,
          .openStream .copperList 64, .log 0 [[1, 2], [3]], .log 0 [[1, 2], [3]], .log 0 [[1, 2], [3]],
          .log 2 [[0, 4, 1, 6, 5, 6, 0, 0, 1, 251, 238, 3, 7, 8, 0, 0, 0, 9, 10, 0, 0]], .log 0 [[1, 2], [3]],
          .log 0 [[1, 2], [3]], .log 0 [[1, 2], [3]],
          .log 2 [[1, 4, 1, 12, 11, 12, 0, 0, 1, 251, 244, 3, 13, 14, 0, 0, 0, 15, 16, 0, 0]], .drop 2] := by
      decide +kernel
    rw [h]
    simp only [HistoryOk]
    refine ⟨by decide, by decide, by simp, ⟨by decide, by decide, by decide⟩, by decide, by decide,
      by simp, ⟨by decide, by decide, by decide⟩, by decide, by decide, by simp,
      ⟨by decide, by decide, by decide⟩, ?_⟩
    refine ⟨by simp, by simp, by simp, by simp, by simp, by simp, by simp, by simp, trivial⟩

end Runtime
end Verif
