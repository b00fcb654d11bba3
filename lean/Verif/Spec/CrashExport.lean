import Verif.Spec.UnifiedLog
import Verif.Spec.EndToEnd
/-!
Vocabulary of C59: the log of a process that is killed, and how a tool that reads it ends.
-/
namespace Verif
namespace ULog

/-- The log after some operations of its users, the process still running: nothing is closed.  Its
files are what a crash of the process leaves. -/
def runLog (slabSize page : Nat) (ops : List LogOp) : Rs LogSys :=
  match Logger.new slabSize page with
  | .panic => .panic
  | .ok lg => LogSys.steps ⟨lg, []⟩ ops

/-- How a sequence of reads ends. -/
inductive Ended where
  /-- a read delivered nothing: the end of the data for the caller -/
  | eof
  /-- the caller stopped -/
  | more
  /-- an error or a panic of the reader, or a read that never returns -/
  | failed
  deriving DecidableEq, Repr

/-- Reading a log as a byte stream with buffers of the given sizes, until the end of the data or a
failure: the bytes delivered, and how it ended. -/
def IOReader.drain (files : List Bytes) (t : EntryType) : IOReader → List Nat → Bytes × Ended
  | _, [] => ([], .more)
  | io, n :: ns =>
    match io.read files t n with
    | .ok ([], _) => ([], .eof)
    | .ok (d, io) => (d ++ (IOReader.drain files t io ns).1, (IOReader.drain files t io ns).2)
    | _ => ([], .failed)

/-- The same from the beginning of the log in these files. -/
def drainLog (files : List Bytes) (t : EntryType) (ns : List Nat) : Bytes × Ended :=
  match Reader.new files with
  | .ok r => (IOReader.new r).drain files t ns
  | _ => ([], .failed)

/-- The objects logged by one operation on streams of type `t`. -/
def objOf (t : EntryType) (live : List (Option (EntryType × Nat))) : LogOp → List Bytes
  | .log i obj =>
    match live[i]? with
    | some (some (t', _)) => if t' = t then [obj.flatten] else []
    | _ => []
  | _ => []

/-- The streams after one operation. -/
def liveStep (live : List (Option (EntryType × Nat))) : LogOp → List (Option (EntryType × Nat))
  | .openStream t n => live ++ [some (t, n)]
  | .log _ _ => live
  | .drop i => live.set i none

/-- The objects logged on streams of type `t`, in order. -/
def objsOf (t : EntryType) : List (Option (EntryType × Nat)) → List LogOp → List Bytes
  | _, [] => []
  | live, op :: ops => objOf t live op ++ objsOf t (liveStep live op) ops

end ULog

namespace Runtime

/-- How many objects have been logged on the stream `k`. -/
def logCalls (k : Nat) (ops : List ULog.LogOp) : Nat :=
  ops.countP (fun | .log i _ => i == k | _ => false)

end Runtime
end Verif
