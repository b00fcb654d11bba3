import Verif.Proofs.KilledSession
import Verif.Props.Killed
import Verif.Props.Session
/-!
C111: a program that uses applications one after the other, killed at any instant.
-/
namespace Verif
namespace Runtime
open Planner CopperList Clock Bincode ULog
variable {σ P : Type}

/-- A program that creates, uses and drops applications one after the other, whatever they do.  It has made the
operations `done` on its log when its process is killed, at any instant of the next one, `op`: while an application
runs, is created or is dropped, or in between.  Read what is left of the files as a byte stream of copper lists with
any buffer sizes until the reader stops delivering, in whatever way, and dump what it delivered: the lists obtained are
an initial segment of those all the applications have logged, none altered, none invented, none cut. -/
theorem C111_safe {page slabSize : Nat} (hz : SizesOk page slabSize) (hp : 256 ∣ page) {hist : σ → List LogOp}
    {slots : List (Codec P)} {pieces : CL (List (Msg P)) → List Bytes}
    (hpieces : ∀ cl, (pieces cl).flatten = (Wire.clCodec slots).enc cl) (hslots : ∀ c ∈ slots, Dec.Sequential c.dec)
    {h last : List LogOp} {runs : List (List (CL (List (Msg P))))} (hs : Session hist pieces h runs)
    (hlast : Elsewhere h last) (hops : HistoryOk page slabSize [] (h ++ last))
    (htyped : ∀ r ∈ runs, ∀ cl ∈ r, Typed slots cl)
    {done rest : List LogOp} {op : LogOp} (hc : h ++ last = done ++ op :: rest) :
    ∃ s, runLog slabSize page done = .ok s ∧
      ∀ files', KilledDuring s.lg.files (s.effects op) files' →
        ∃ kept lost later, runs.flatten = kept ++ lost ++ later ∧
          (kept ++ lost).length = (objsOf .copperList [] done).length ∧
          ∀ ns : List Nat, (∀ b ∈ ns, 0 < b) →
            let read := drainLog files' .copperList ns
            (read.2 ≠ .more → @dumpObjects _ (Wire.clCodec slots) read.1 = kept) ∧
              ((@encAll _ (Wire.clCodec slots) (kept ++ lost)).length < ns.length → read.2 ≠ .more) := by
  have hpos : ∀ cl, (pieces cl).flatten ≠ [] := fun cl hc => by
    have := Wire.cl_pos slots cl
    rw [← hpieces, hc] at this
    simp at this
  obtain ⟨made, later, h1, h2, h3, _⟩ := session_cut hs hpos hlast hops hc
  have hops' : HistoryOk page slabSize [] (done ++ [op]) := by
    rw [hc] at hops
    exact historyOk_prefix (b := rest) (by simpa using hops)
  obtain ⟨s, h7, h8⟩ := log_kill (t := .copperList) hz hp (by decide) (by decide) hops'
  refine ⟨s, h7, fun files' hk => ?_⟩
  obtain ⟨o, ho, hd, _⟩ := h8 files' hk
  rw [h3, flatten_pieces hpieces] at ho
  have hty : ∀ cl ∈ made, Typed slots cl := by
    intro cl hcl
    obtain ⟨r, hr, hm⟩ := List.mem_flatten.1 (show cl ∈ runs.flatten by rw [h1]; simp [hcl])
    exact htyped r hr cl hm
  obtain ⟨kept, lost, e1, e2, _⟩ := @dump_part _ (Wire.clCodec slots) (Dec.Sequential.cl hslots) _
    (fun a ha => Wire.rt_cl (hty a ha)) (fun a _ => Wire.cl_pos slots a) _ (Wire.cl_end slots) _ ho
  refine ⟨kept, lost, later, by rw [← e1, h1], by rw [← e1, h2], fun ns hns => ?_⟩
  obtain ⟨d1, d2, d3⟩ := hd ns hns
  refine ⟨fun hne => by rw [d2 hne, e2], fun hlen => d3 ?_⟩
  have := ho.length_le
  rw [← e1] at hlen
  omega

/-- The same, when every application but the last has logged a list, and the section of the application that is there
is in the oldest slab still in use: the lists lost are in the section that was being filled, so that every list of the
applications that had ended is among those obtained. -/
theorem C111_lost_partial {page slabSize : Nat} (hz : SizesOk page slabSize) (hp : 256 ∣ page) {hist : σ → List LogOp}
    {slots : List (Codec P)} {pieces : CL (List (Msg P)) → List Bytes}
    (hpieces : ∀ cl, (pieces cl).flatten = (Wire.clCodec slots).enc cl) (hslots : ∀ c ∈ slots, Dec.Sequential c.dec)
    {h last : List LogOp} {runs : List (List (CL (List (Msg P))))} (hs : Session hist pieces h runs)
    (hlast : Elsewhere h last) (hops : HistoryOk page slabSize [] (h ++ last))
    (htyped : ∀ r ∈ runs, ∀ cl ∈ r, Typed slots cl) (hused : ∀ r ∈ runs.dropLast, r ≠ [])
    {done rest : List LogOp} {op : LogOp} (hc : h ++ last = done ++ op :: rest) :
    ∃ s, runLog slabSize page done = .ok s ∧
      ∀ files', KilledDuring s.lg.files (s.effects op) files' →
      ∀ (i : Nat) (st : Stream), s.streams[i]? = some (some st) → st.entryType = .copperList →
        st.section_.slab ≤ s.lg.oldestMapped →
        ∃ before held later, runs.flatten = before ++ held ++ later ∧
          (before ++ held).length = (objsOf .copperList [] done).length ∧
          (@encAll _ (Wire.clCodec slots) held).length = st.section_.used ∧
          (@encAll _ (Wire.clCodec slots) held).length + 15 ≤ st.minAlloc ∧
          ∃ kept, before <+: kept ∧ kept <+: before ++ held ∧
            ∀ ns : List Nat, (∀ b ∈ ns, 0 < b) →
              let read := drainLog files' .copperList ns
              (read.2 ≠ .more → @dumpObjects _ (Wire.clCodec slots) read.1 = kept) ∧
                ((@encAll _ (Wire.clCodec slots) (before ++ held)).length < ns.length → read.2 ≠ .more) := by
  have hpos : ∀ cl, (pieces cl).flatten ≠ [] := fun cl hc => by
    have := Wire.cl_pos slots cl
    rw [← hpieces, hc] at this
    simp at this
  obtain ⟨made, later, h1, h2, h3, hu⟩ := session_cut hs hpos hlast hops hc
  have hops' : HistoryOk page slabSize [] (done ++ [op]) := by
    rw [hc] at hops
    exact historyOk_prefix (b := rest) (by simpa using hops)
  obtain ⟨s, h7, h8⟩ := log_kill (t := .copperList) hz hp (by decide) (by decide) hops'
  refine ⟨s, h7, fun files' hk i st hst hst2 hsl => ?_⟩
  obtain ⟨o, ho, hd, hcov⟩ := h8 files' hk
  obtain ⟨a, b, h9, hus, hfit, hao⟩ := hcov (hu hused) i st hst hst2 hsl
  rw [h3] at h9
  obtain ⟨x, y, h10, h11, h12⟩ := pieces_split hpieces h9
  rw [h12] at hus hfit
  rw [h11] at hao
  rw [h3, flatten_pieces hpieces] at ho
  have hty : ∀ cl ∈ made, Typed slots cl := by
    intro cl hcl
    obtain ⟨r, hr, hm⟩ := List.mem_flatten.1 (show cl ∈ runs.flatten by rw [h1]; simp [hcl])
    exact htyped r hr cl hm
  obtain ⟨kept, lost, e1, e2, e3⟩ := @dump_part _ (Wire.clCodec slots) (Dec.Sequential.cl hslots) _
    (fun a ha => Wire.rt_cl (hty a ha)) (fun a _ => Wire.cl_pos slots a) _ (Wire.cl_end slots) _ ho
  refine ⟨x, y, later, by rw [← h10, h1], by rw [← h10, h2], hus, by omega, kept, e3 x y h10 hao,
    ⟨lost, by rw [← e1, h10]⟩, fun ns hns => ?_⟩
  obtain ⟨d1, d2, d3⟩ := hd ns hns
  refine ⟨fun hne => by rw [d2 hne, e2], fun hlen => d3 ?_⟩
  have := ho.length_le
  rw [← h10] at hlen
  omega

/-! ### The second application is killed -/

/-- Two applications, as for C101, in a log with pages of 256 bytes; what was done with it before the second
application logs its second list, in the middle of which it is killed. -/
def killedSession : List LogOp := (sessionLog 2 [.run 2] secondOps).take 16

def killedSessionOp : LogOp := .log 2 [[1, 4, 1, 12, 11, 12, 0, 0, 1, 251, 244, 3, 13, 14, 0, 0, 0, 15, 16, 0, 0]]

example : sessionLog 2 [.run 2] secondOps ++ [] = killedSession ++ killedSessionOp :: [.drop 2] ∧
    (objsOf .copperList [] killedSession).length = 2 ∧
    Elsewhere (sessionLog 2 [.run 2] secondOps) [] ∧ SizesOk 256 2048 ∧
    ∀ r ∈ [sessionLists 1 firstCalls firstOps, sessionLists 2 [.run 2] secondOps].dropLast, r ≠ [] :=
  ⟨by decide +kernel, by decide +kernel, ⟨by simp, by simp, by simp⟩, ⟨by decide, by decide, by decide⟩,
    by decide +kernel⟩

example : HistoryOk 256 2048 [] (sessionLog 2 [.run 2] secondOps ++ []) := by
  have h : sessionLog 2 [.run 2] secondOps ++ [] =
      [.openStream .structuredLogLine 32, .openStream .copperList 64, .log 0 [[1, 2], [3]], .log 0 [[1, 2], [3]],
        .log 0 [[1, 2], [3]], .log 1 [[0, 4, 1, 6, 5, 6, 0, 0, 1, 251, 238, 3, 7, 8, 0, 0, 0, 9, 10, 0, 0]], .drop 1,
        .log 0 [[7]], .openStream .copperList 64, .log 0 [[1, 2], [3]], .log 0 [[1, 2], [3]], .log 0 [[1, 2], [3]],
        .log 2 [[0, 4, 1, 6, 5, 6, 0, 0, 1, 251, 238, 3, 7, 8, 0, 0, 0, 9, 10, 0, 0]], .log 0 [[1, 2], [3]],
        .log 0 [[1, 2], [3]], .log 0 [[1, 2], [3]],
        .log 2 [[1, 4, 1, 12, 11, 12, 0, 0, 1, 251, 244, 3, 13, 14, 0, 0, 0, 15, 16, 0, 0]], .drop 2] := by
    decide +kernel
  rw [h]
  simp only [HistoryOk]
  refine ⟨by decide, by decide, by simp, ⟨by decide, by decide, by decide⟩, by decide, by decide,
    by simp, ⟨by decide, by decide, by decide⟩, ?_⟩
  refine ⟨by simp, by simp, by simp, by simp, by simp, by decide, by decide, by simp,
    ⟨by decide, by decide, by decide⟩, ?_⟩
  refine ⟨by simp, by simp, by simp, by simp, by simp, by simp, by simp, by simp, trivial⟩

/-- The section of the second application is in the only slab; the list of the first one is what the export has. -/
example : (match runLog 2048 256 killedSession with
    | .ok s => (s.streams[2]?.any (fun o => o.any (fun st => st.entryType = .copperList ∧
          st.section_.used = 21 ∧ st.section_.slab ≤ s.lg.oldestMapped)),
        drainLog (cutAt s.lg.files (s.effects killedSessionOp) 0 7) .copperList [30, 30, 30])
    | .panic => (false, ([], .failed))) =
    (true, ((sessionLists 1 firstCalls firstOps).map (Wire.clCodec demoSlots).enc |>.flatten, .eof)) := by
  decide +kernel

/-- Negation of the second theorem without its condition: after an application that has logged no list, the lists the
next ones have logged are not found after a kill, whatever section they are in. -/
theorem C111_hidden_violated :
    Session sessionHist demoPieces (sessionLog 2 [.run 4] hiddenOps) [[], sessionLists 2 [.run 4] hiddenOps] ∧
    (match runLog 2048 256 (sessionLog 2 [.run 4] hiddenOps).dropLast with
      | .ok s => (s.streams[2]?.any (fun o => o.any (fun st => st.entryType = .copperList ∧
            st.section_.used = 42 ∧ st.section_.slab ≤ s.lg.oldestMapped)),
          drainLog (cutAt s.lg.files (s.effects (.drop 2)) 0 0) .copperList [30, 30, 30])
      | .panic => (false, ([], .failed))) = (true, ([], .eof)) ∧
    (sessionLists 2 [.run 4] hiddenOps).length = 4 := by
  refine ⟨?_, by decide +kernel, by decide +kernel⟩
  have h1 : ∃ rt', uses (sessionApp 1) [.start, .stop] (sessionStart firstOps) = .ok rt' := ⟨_, rfl⟩
  have h2 : ∃ rt', uses (sessionApp 2) [.run 4] (sessionStart hiddenOps) = .ok rt' := ⟨_, rfl⟩
  obtain ⟨rt1, h1⟩ := h1
  obtain ⟨rt2, h2⟩ := h2
  have := session_next (session_next (.begin_ (by simp)) ⟨by simp, by simp, by simp⟩ 1 rfl (by decide) h1)
    ⟨by simp, by simp, by simp⟩ 2 (by decide +kernel) (by decide) h2
  have e : sessionLists 1 [.start, .stop] firstOps = [] := by decide +kernel
  unfold firstOps at e
  rw [e] at this
  exact this

end Runtime
end Verif
