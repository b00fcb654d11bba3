import Verif.Proofs.SharedLog
import Verif.Props.UnifiedLog
import Verif.Spec.CrashExport
/-!
C81: several streams of one type at the same time.
-/
namespace Verif
namespace ULog

/-- Any number of streams of a type, open at the same time or one after the other: nothing panics, and every section a
reader gets holds whole objects of one stream; the sections of a stream, put together, are all the objects logged on
it, in order. -/
theorem C81_streams {page slabSize : Nat} (hz : SizesOk page slabSize) {ops : List LogOp}
    (hops : SharedOk page slabSize [] ops) :
    ∃ files portions, writeLog slabSize page ops = .ok files ∧
      (∀ t, readLog files t = .ok (sectionsOf (openedTypes ops) t portions)) ∧
      (∀ i, portionsOf i portions = loggedOn i [] ops) ∧
      ∀ p ∈ portions, p.stream < (openedTypes ops).length := by
  obtain ⟨files, portions, h1, h2, h3, h4⟩ := writeConc_shared (slabSize := slabSize) hz (interleaved_asConc ops)
    (busy_asConc ops) (by rw [calls_asConc]; exact hops)
  rw [calls_asConc] at h2 h3 h4
  exact ⟨files, portions, by rw [writeLog_asConc]; exact h1, h2, h3, h4⟩

/-- The same when the streams belong to several threads, in every interleaving of their calls. -/
theorem C81_threads {page slabSize : Nat} (hz : SizesOk page slabSize) {ops : List ConcOp}
    (hin : Interleaved [] ops) (hover : busyAfter [] ops = []) (hops : SharedOk page slabSize [] (calls ops)) :
    ∃ files portions, writeConc slabSize page ops = .ok files ∧
      (∀ t, readLog files t = .ok (sectionsOf (openedTypes (calls ops)) t portions)) ∧
      (∀ i, portionsOf i portions = loggedOn i [] (calls ops)) ∧
      ∀ p ∈ portions, p.stream < (openedTypes (calls ops)).length :=
  writeConc_shared hz hin hover hops

/-- Three streams of one type, one of another. -/
def sharedHistory : List LogOp :=
  [.openStream .copperList 32, .openStream .copperList 20, .log 0 [[1, 2], [3]], .log 1 [[4]], .log 0 [[5, 6, 7]],
    .openStream .structuredLogLine 40, .log 1 [[8, 9, 10, 11]], .log 2 [[12]], .log 1 [[13, 14]], .drop 0,
    .openStream .copperList 24, .log 3 [[15], [16]], .log 1 [[17]]]

example : SharedOk 16 96 [] sharedHistory := by
  simp only [sharedHistory, SharedOk]
  refine ⟨by decide, by decide, by decide, by decide, by decide, by decide, by simp, by simp, by simp, by decide,
    by decide, by decide, by simp, by simp, by simp, by decide, by decide, by decide, by simp, by simp, trivial⟩

example : loggedOn 0 [] sharedHistory = [[1, 2, 3], [5, 6, 7]] ∧
    loggedOn 1 [] sharedHistory = [[4], [8, 9, 10, 11], [13, 14], [17]] ∧
    loggedOn 3 [] sharedHistory = [[15, 16]] := by decide

example : (match writeLog 96 16 sharedHistory with | .ok files => readLog files .copperList | .panic => .panic) =
    .ok [[1, 2, 3, 5, 6, 7], [4, 8, 9, 10, 11], [13, 14, 17], [15, 16]] := by decide +kernel

/-- Negation: objects of different streams are not read in the order in which they were logged. -/
theorem C81_order_violated :
    SharedOk 16 256 [] [.openStream .copperList 32, .openStream .copperList 32, .log 0 [[1]], .log 1 [[2]],
      .log 0 [[3]]] ∧
    (match writeLog 256 16 [.openStream .copperList 32, .openStream .copperList 32, .log 0 [[1]], .log 1 [[2]],
        .log 0 [[3]]] with
      | .ok files => readLog files .copperList
      | .panic => .panic) = .ok [[1, 3], [2]] := by
  refine ⟨?_, by decide +kernel⟩
  simp only [SharedOk]
  exact ⟨by decide, by decide, by decide, by decide, by decide, by decide, by simp, by simp, by simp, trivial⟩

/-- Negation: a stream that has logged nothing hides, from the byte stream reader, everything the streams opened
after it logged. -/
theorem C81_hidden_violated :
    SharedOk 16 256 [] [.openStream .copperList 32, .openStream .copperList 32, .log 1 [[2]]] ∧
    (match writeLog 256 16 [.openStream .copperList 32, .openStream .copperList 32, .log 1 [[2]]] with
      | .ok files => (readLog files .copperList, drainLog files .copperList [64, 64])
      | .panic => (.panic, ([], .failed))) = (.ok [[], [2]], ([], .eof)) := by
  refine ⟨?_, by decide +kernel⟩
  simp only [SharedOk]
  exact ⟨by decide, by decide, by decide, by decide, by decide, by decide, by simp, trivial⟩

/-- Two threads with streams of one type, both waiting for the lock. -/
def sharedInterleaving : List ConcOp :=
  [.openStream .copperList 32, .openStream .copperList 32, .begin_ 0 [[1, 2, 3, 4, 5, 6, 7, 8, 9]], .finish 0,
    .begin_ 1 [[21, 22, 23, 24, 25, 26, 27, 28, 29, 30]], .finish 1,
    .begin_ 0 [[10, 11, 12, 13, 14, 15, 16, 17, 18]], .begin_ 1 [[31, 32, 33, 34, 35, 36, 37, 38, 39]], .finish 1,
    .finish 0, .begin_ 1 [[40]], .finish 1]

example : SizesOk 16 96 ∧ Interleaved [] sharedInterleaving ∧ busyAfter [] sharedInterleaving = [] ∧
    SharedOk 16 96 [] (calls sharedInterleaving) := by
  refine ⟨⟨by decide, by decide, by decide⟩, by simp [sharedInterleaving, Interleaved], by decide, ?_⟩
  simp only [sharedInterleaving, calls, SharedOk]
  exact ⟨by decide, by decide, by decide, by decide, by decide, by decide, by simp, by simp, by simp, by simp, by simp,
    trivial⟩

example : (match writeConc 96 16 sharedInterleaving with | .ok files => readLog files .copperList | .panic => .panic) =
    .ok [[1, 2, 3, 4, 5, 6, 7, 8, 9], [21, 22, 23, 24, 25, 26, 27, 28, 29, 30],
      [31, 32, 33, 34, 35, 36, 37, 38, 39, 40], [10, 11, 12, 13, 14, 15, 16, 17, 18]] := by decide +kernel

end ULog
end Verif
