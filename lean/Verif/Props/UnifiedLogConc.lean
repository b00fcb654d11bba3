import Verif.Proofs.ConcCrash
import Verif.Props.UnifiedLog
/-!
C60: a unified log used by several threads.
-/
namespace Verif
namespace ULog
open Bincode

/-- Several threads, each with its streams, use one log.  Whatever the interleaving of their actions,
in particular between the moment a call of `log` finds its section full and the moment it gets the
lock, nothing panics, and when all calls are over and the log is closed, reading a type delivers
exactly the bytes of the objects logged to its streams, in the order of the calls. -/
theorem C60_round_trip {page slabSize : Nat} (hz : SizesOk page slabSize) {ops : List ConcOp}
    (hin : Interleaved [] ops) (hover : busyAfter [] ops = [])
    (hops : HistoryOk page slabSize [] (calls ops)) :
    ∃ files, writeConc slabSize page ops = .ok files ∧
      ∀ t, ∃ sections, readLog files t = .ok sections ∧ sections.flatten = logged t [] (calls ops) := by
  obtain ⟨files, h1, h2⟩ := writeConc_spec hz hin hover hops
  refine ⟨files, h1, fun t => ?_⟩
  obtain ⟨secs, h3, h4, _⟩ := h2 t
  exact ⟨secs, h3, h4⟩

/-- The same through the byte stream reader, if something was logged on every stream of the type before the
next one was opened (see `C05_violated` for the reason). -/
theorem C60_stream {page slabSize : Nat} (hz : SizesOk page slabSize) {ops : List ConcOp}
    (hin : Interleaved [] ops) (hover : busyAfter [] ops = [])
    (hops : HistoryOk page slabSize [] (calls ops)) {t : EntryType} (hu : UsedFirst t false [] (calls ops))
    {ns : List Nat} (hn : ∀ n ∈ ns, 0 < n) :
    ∃ files r ds, writeConc slabSize page ops = .ok files ∧ Reader.new files = .ok r ∧
      (IOReader.new r).reads files t ns = .ok ds ∧ ds.flatten <+: logged t [] (calls ops) ∧
      ([] ∈ ds → ds.flatten = logged t [] (calls ops)) ∧
      ((logged t [] (calls ops)).length < ns.length → ds.flatten = logged t [] (calls ops)) := by
  obtain ⟨files, h1, h2⟩ := writeConc_spec hz hin hover hops
  obtain ⟨secs, h3, h4, h5⟩ := h2 t
  cases hr : Reader.new files with
  | ok r =>
    obtain ⟨ds, h6, h7, _, h8, h9⟩ := C05_stream_partial hr h3 (h5 hu) hn
    rw [h4] at h7 h8 h9
    exact ⟨files, r, ds, h1, hr, h6, h7, h8, h9⟩
  | err => simp [readLog, hr] at h3
  | panic => simp [readLog, hr] at h3
  | diverges => simp [readLog, hr] at h3

/-- The process is killed after any number of these actions, calls of `log` under way or not.  Its
threads share one log, in the state `c`, which is what its files contain.  Read them as a byte stream
of a type, with any buffer sizes, until the reader ends, in whatever way: what it delivered is the concatenation of the first of the objects logged to that type, whole, in
the order of the calls, up to some object. -/
theorem C60_crash_safe {page slabSize : Nat} (hz : SizesOk page slabSize) {ops : List ConcOp}
    (hin : Interleaved [] ops) (hops : HistoryOk page slabSize [] (calls ops)) {t : EntryType}
    (ht : t ≠ .lastEntry) (ht' : t ≠ .empty) :
    ∃ c kept lost, runConc slabSize page ops = .ok c ∧ objsOf t [] (calls ops) = kept ++ lost ∧
      ∀ ns : List Nat, (∀ n ∈ ns, 0 < n) →
        let r := drainLog c.sys.lg.files t ns
        r.1 <+: kept.flatten ∧ (r.2 ≠ .more → r.1 = kept.flatten) ∧
          (kept.flatten.length < ns.length → r.2 ≠ .more) := by
  obtain ⟨c, x, lay, live, out, pend, objs, po, h1, hi, hT, ho, _⟩ := runConc_tracks hz hin hops
  obtain ⟨⟨a, b, h2, h3⟩, _⟩ := tracks_crash hz hi.str hT.tracks ht ht'
  exact ⟨c, a, b ++ po, h1, by rw [← ho, h2, List.append_assoc], h3⟩

/-- The same, when the section of the stream of this type is in the oldest slab still in use, and something was
logged on every stream of this type before the next one was opened: what is
lost is what is in that section, and the object of the call under way if it waits for the lock.
Missing: a later slab (see `C59_violated`).  For a kill in the middle of an action see `C96_stream`. -/
theorem C60_crash_partial {page slabSize : Nat} (hz : SizesOk page slabSize) {ops : List ConcOp}
    (hin : Interleaved [] ops) (hops : HistoryOk page slabSize [] (calls ops)) {t : EntryType}
    (hu : UsedFirst t false [] (calls ops)) (ht : t ≠ .lastEntry) (ht' : t ≠ .empty) :
    ∃ c, runConc slabSize page ops = .ok c ∧
      ∀ (i : Nat) (st : Stream), c.sys.streams[i]? = some (some st) → st.entryType = t →
        st.section_.slab ≤ c.sys.lg.oldestMapped →
        ∃ kept lost, objsOf t [] (calls ops) = kept ++ lost ++ ((c.waiting i).map List.flatten).toList ∧
          lost.flatten.length = st.section_.used ∧ 15 + lost.flatten.length ≤ st.minAlloc ∧
          ∀ ns : List Nat, (∀ n ∈ ns, 0 < n) →
            let r := drainLog c.sys.lg.files t ns
            r.1 <+: kept.flatten ∧ (r.2 ≠ .more → r.1 = kept.flatten ∧ r.2 = .eof) ∧
              (kept.flatten.length < ns.length → r.2 ≠ .more) := by
  obtain ⟨c, x, lay, live, out, pend, objs, po, h1, hi, hT, ho, htd, _⟩ := runConc_tracks hz hin hops
  refine ⟨c, h1, fun i st hst hty hsl => ?_⟩
  obtain ⟨_, h2⟩ := tracks_crash hz hi.str hT.tracks ht ht'
  obtain ⟨a, b, h3, h4, h5, h6⟩ := h2 (htd hu) i st hst hty hsl
  have hpo : po = ((c.waiting i).map List.flatten).toList := by
    cases hw : c.waiting i with
    | some o => rw [(hT.wait i o st hw hst).2.2 hty]; rfl
    | none =>
      refine hT.idle fun j stj hj hwj htj => ?_
      have : j = i := uniq_stream hi.str hj hst (by rw [htj, hty])
      subst this
      exact hwj hw
  exact ⟨a, b, by rw [← ho, h3, hpo], h4, h5, h6⟩

/-- Two threads.  The second call on stream 0 finds its section full; before it gets the lock the
other thread logs, fills its own section, waits too, and gets the lock first. -/
def demoInterleaving : List ConcOp :=
  [.openStream .copperList 32, .openStream .structuredLogLine 32,
    .begin_ 0 [[1, 2, 3], [4, 5, 6, 7, 8, 9]], .begin_ 1 [[21, 22, 23, 24, 25, 26, 27, 28, 29, 30]],
    .finish 0, .begin_ 0 [[10, 11, 12, 13], [14, 15, 16, 17, 18]], .finish 1,
    .begin_ 1 [[31, 32, 33, 34, 35, 36, 37, 38, 39]], .finish 1, .begin_ 1 [[40]], .finish 0,
    .finish 1, .begin_ 0 [[19]], .finish 0]

example : SizesOk 16 96 ∧ Interleaved [] demoInterleaving ∧ busyAfter [] demoInterleaving = [] ∧
    HistoryOk 16 96 [] (calls demoInterleaving) ∧
    UsedFirst .copperList false [] (calls demoInterleaving) := by
  refine ⟨⟨by decide, by decide, by decide⟩, by simp [demoInterleaving, Interleaved], by decide, ?_, ?_⟩
  · simp only [demoInterleaving, calls, HistoryOk]
    exact ⟨by decide, by decide, by simp, by decide, by decide, by decide, by simp, by decide, by simp, by simp,
      by simp, by simp, by simp, by simp, trivial⟩
  · simp [demoInterleaving, calls, UsedFirst]

/-- Both streams wait for the lock at the same time; the sections are in the only slab. -/
example : (match runConc 96 16 (demoInterleaving.take 8) with
    | .ok c => ((c.waiting 0).isSome, (c.waiting 1).isSome,
        c.sys.streams.all (fun o => o.any (·.section_.slab ≤ c.sys.lg.oldestMapped)))
    | .panic => (false, false, false)) = (true, true, true) := by decide +kernel

/-- One of them gets it and the process is killed. -/
example : (match runConc 256 16 (demoInterleaving.take 9) with
    | .ok c => (drainLog c.sys.lg.files .copperList [64, 64], drainLog c.sys.lg.files .structuredLogLine [64, 64])
    | .panic => (([], .failed), ([], .failed))) =
    (([], .eof), ([21, 22, 23, 24, 25, 26, 27, 28, 29, 30], .eof)) := by decide +kernel

example : (match writeConc 96 16 demoInterleaving with
    | .ok files => (readLog files .copperList, readLog files .structuredLogLine)
    | .panic => (.panic, .panic)) =
    (.ok [[1, 2, 3, 4, 5, 6, 7, 8, 9], [10, 11, 12, 13, 14, 15, 16, 17, 18, 19]],
     .ok [[21, 22, 23, 24, 25, 26, 27, 28, 29, 30], [31, 32, 33, 34, 35, 36, 37, 38, 39, 40]]) := by
  decide +kernel

end ULog
end Verif
