import Verif.Model.LogEntry
/-!
Model of the front of the structured log (core/cu29_log_runtime/src/lib.rs): one writer for the whole
process behind a mutex, with the clock it was first set up with.

A call of `log` is two actions of its thread: it reads the clock, and then, under the lock, hands the
entry to the writer.  The actions of the threads interleave.
-/
namespace Verif
namespace LogRt

/-- What a destination (`WriteStream::log`) does with an entry: record it, return an error, or panic,
as the stream of a unified log does for an entry larger than a section
(core/cu29_unifiedlog/src/lib.rs:111-115). -/
inductive Answer where
  | recorded
  | error
  | panic
  deriving DecidableEq, Repr

/-- What became of an entry. -/
inductive Fate where
  /-- recorded by a destination -/
  | file (dest : Nat)
  /-- printed by the dummy writer: "Pending logs got cut" (lib.rs:20-28) -/
  | cut
  /-- the destination returned an error, which is printed (lib.rs:114-116) -/
  | failed
  /-- the call panicked, in the destination or on the poisoned lock -/
  | panicked
  deriving DecidableEq, Repr

/-- The state of the process.  `out` is what became of the entries, in the order in which they were
handed over, with the thread that logged them (the thread is not recorded, it is here to speak
about it). -/
structure Sys where
  /-- `WRITER` (lib.rs:30-32): the clock and the current destination, `none` for the dummy one -/
  writer : Option (Nat × Option Nat)
  /-- the lock of the writer is poisoned: a thread panicked while it held it -/
  poisoned : Bool
  out : List (Fate × Nat × LogEntry)
  /-- the entry of the call under way of a thread that waits for the lock -/
  pending : Nat → Option LogEntry

def Sys.new : Sys := ⟨none, false, [], fun _ => none⟩

/-- What a destination recorded. -/
def Sys.file (s : Sys) (w : Nat) : List LogEntry :=
  s.out.filterMap (fun o => if o.1 = .file w then some o.2.2 else none)

inductive Act where
  /-- `LoggerRuntime::init` with a clock and a destination -/
  | init (clock dest : Nat)
  /-- a `LoggerRuntime` is dropped -/
  | drop
  /-- `log`, up to the lock; `now` is what the clocks show -/
  | stamp (th : Nat) (e : LogEntry) (now : Nat → UInt64)
  /-- the rest of the call -/
  | write (th : Nat)

inductive Res where
  | done
  | error
  | panicked
  deriving DecidableEq, Repr

def Sys.setPending (s : Sys) (th : Nat) (o : Option LogEntry) : Nat → Option LogEntry :=
  fun j => if j = th then o else s.pending j

/-- One action.
* `LoggerRuntime::init` (lib.rs:49-75), in one step: two threads that both find no writer are not
  modelled (one of them panics on `set(..).unwrap()`).  If there is a writer its destination is
  replaced, and the clock is not.
* `Drop for LoggerRuntime` (lib.rs:92-102): the dummy writer replaces the current one, unless the
  lock is poisoned.  The flush has no effect on what the destination recorded.
* `log` (lib.rs:107-125). -/
def Sys.step (answer : Nat → List LogEntry → LogEntry → Answer) (s : Sys) : Act → Sys × Res
  | .init c w =>
    match s.writer with
    | some (c0, _) => if s.poisoned then (s, .panicked) else ({ s with writer := some (c0, some w) }, .done)
    | none => ({ s with writer := some (c, some w) }, .done)
  | .drop =>
    match s.writer with
    | some (c0, _) => if s.poisoned then (s, .done) else ({ s with writer := some (c0, none) }, .done)
    | none => (s, .done)
  | .stamp th e now =>
    match s.writer with
    | none => (s, .error)
    | some (c, _) => ({ s with pending := s.setPending th (some { e with time := now c }) }, .done)
  | .write th =>
    match s.pending th, s.writer with
    | some e, some (_, d) =>
      let s' := { s with pending := s.setPending th none }
      if s.poisoned then ({ s' with out := s.out ++ [(.panicked, th, e)] }, .panicked)
      else
        match d with
        | none => ({ s' with out := s.out ++ [(.cut, th, e)] }, .done)
        | some w =>
          match answer w (s.file w) e with
          | .recorded => ({ s' with out := s.out ++ [(.file w, th, e)] }, .done)
          | .error => ({ s' with out := s.out ++ [(.failed, th, e)] }, .done)
          | .panic => ({ s' with poisoned := true, out := s.out ++ [(.panicked, th, e)] }, .panicked)
    | _, _ => (s, .done)

/-- Any number of actions: the state and what each returned. -/
def Sys.steps (answer : Nat → List LogEntry → LogEntry → Answer) : Sys → List Act → Sys × List Res
  | s, [] => (s, [])
  | s, a :: as =>
    let q := s.step answer a
    let r := q.1.steps answer as
    (r.1, q.2 :: r.2)

end LogRt
end Verif
