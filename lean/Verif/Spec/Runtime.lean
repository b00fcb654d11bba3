import Verif.Model.Runtime
/-!
Specification vocabulary for C18-C21: what may be read off the trace of an iteration.
-/
namespace Verif
namespace Runtime
open Planner
variable {σ P : Type}

/-- A step reached by the runtime.  In normal mode: the task's method is called.  In simulation:
the callback is asked. -/
def Ev.visit (sim : Bool) : Ev P → Option (Phase × Nat)
  | .called ph tid _ _ => if sim then none else some (ph, tid)
  | .asked ph tid _ _ => if sim then some (ph, tid) else none
  | _ => none

/-- The steps reached, in order. -/
def visits (sim : Bool) (t : List (Ev P)) : List (Phase × Nat) := t.filterMap (Ev.visit sim)

/-- A lifecycle step of every task, in declaration order. -/
def everyTask (ph : Phase) (tasks : Nat) : List (Phase × Nat) := (List.range tasks).map (ph, ·)

/-- The steps of an undisturbed iteration: every `preprocess`, the `process` calls in plan order,
every `postprocess`. -/
def schedule (tasks : Nat) (plan : List Step) : List (Phase × Nat) :=
  everyTask .preprocess tasks ++ plan.map (fun s => (.process, s.nodeId)) ++
    everyTask .postprocess tasks

/-- Events that end the current function early: a decision to abort or to shut down, or an error
of the monitor itself. -/
def Ev.stops : Ev P → Bool
  | .decided _ _ _ .abort => true
  | .decided _ _ _ .shutdown => true
  | .monitored _ (some _) => true
  | .monStarted (some _) => true
  | .monStopped (some _) => true
  | _ => false

/-- Failures: a task's method or the simulation callback reports an error, or the monitor itself
does. -/
def Ev.failed : Ev P → Bool
  | .called _ _ _ (some _) => true
  | .asked _ _ _ (.errored _) => true
  | .monitored _ (some _) => true
  | .monStarted (some _) => true
  | .monStopped (some _) => true
  | _ => false

/-- Events of tasks: a callback question, a call, a decision about an error, a message left. -/
def Ev.ofTask : Ev P → Bool
  | .asked .. => true
  | .called .. => true
  | .decided .. => true
  | .left .. => true
  | _ => false

end Runtime
end Verif

namespace Verif
namespace Runtime
variable {P : Type}

/-- What must follow the monitor's decision, when the iteration returns `r`.
* `Ignore` of a failed process step: the step ends normally, leaving a message without payload.
* `Abort`: no task is involved any more; the function returns without error (unless the monitor
  itself then fails on the copper list).
* `Shutdown`: nothing happens any more and the function returns the error. -/
def decisionOk (r : Option Err) : Ev P → List (Ev P) → Prop
  | .decided ph tid _ .ignore, rest =>
    ph = .process → ∃ out rest', rest = .left tid out :: rest' ∧ out.payload = none
  | .decided _ _ _ .abort, rest =>
    (∀ ev ∈ rest, ev.ofTask = false) ∧
      (r = none ∨ ∃ md e, r = some e ∧ Ev.monitored md (some e) ∈ rest)
  | .decided _ _ e .shutdown, rest => rest = [] ∧ r = some e
  | _, _ => True

/-- A failure, of the task itself or emulated by the simulation, is submitted to the monitor at
once. -/
def failureReported : Ev P → List (Ev P) → Prop
  | .called ph tid _ (some e), rest => ∃ d rest', rest = .decided ph tid e d :: rest'
  | .asked ph tid _ (.errored e), rest => ∃ d rest', rest = .decided ph tid e d :: rest'
  | _, _ => True

/-- `p` holds of every event of the trace and what follows it. -/
def Throughout (p : Ev P → List (Ev P) → Prop) (t : List (Ev P)) : Prop :=
  ∀ ev rest, ev :: rest <:+ t → p ev rest

/-- The calls of the tasks' own code. -/
def realCalls (t : List (Ev P)) : List (Phase × Nat × List (Msg P)) :=
  t.filterMap (fun | .called ph tid ins _ => some (ph, tid, ins) | _ => none)

/-- The steps for which the simulation answered `ExecuteByRuntime`. -/
def delegated (t : List (Ev P)) : List (Phase × Nat × List (Msg P)) :=
  t.filterMap (fun | .asked ph tid ins .executeByRuntime => some (ph, tid, ins) | _ => none)

end Runtime
end Verif

namespace Verif
namespace Runtime
variable {P : Type}

/-- A process step looking at its inputs: the task, and the input messages it was handed. -/
def Ev.reads : Ev P → Option (Nat × List (Msg P))
  | .called .process tid ins _ => some (tid, ins)
  | .asked .process tid ins _ => some (tid, ins)
  | _ => none

/-- The messages left by the process steps, in order, with the tasks that left them. -/
def lefts (t : List (Ev P)) : List (Nat × Msg P) :=
  t.filterMap (fun | .left tid m => some (tid, m) | _ => none)

end Runtime
end Verif

namespace Verif
namespace Runtime
open CopperList
variable {σ P : Type}

/-- The calls of the tasks' `process`: task, inputs and result. -/
def processCalls (t : List (Ev P)) : List (Nat × List (Msg P) × Option Err) :=
  t.filterMap (fun | .called .process tid ins r => some (tid, ins, r) | _ => none)

/-- Tasks that set or clear their whole output (payload, time of validity, status) and leave its
process time alone: what a task does and leaves does not depend on what its output held before.
(The runtime sets the start time before the call and the stop time after it.) -/
structure SetsOutput (env : Env σ P) : Prop where
  source : ∀ tid out out' s, out.md.processTime.start = out'.md.processTime.start →
    (env.source tid out s).1 = (env.source tid out' s).1 ∧
    (env.source tid out s).2.2 = (env.source tid out' s).2.2 ∧
    ∀ t, (env.source tid out s).2.1.setStop t = (env.source tid out' s).2.1.setStop t
  regular : ∀ tid ins out out' s, out.md.processTime.start = out'.md.processTime.start →
    (env.regular tid ins out s).1 = (env.regular tid ins out' s).1 ∧
    (env.regular tid ins out s).2.2 = (env.regular tid ins out' s).2.2 ∧
    ∀ t, (env.regular tid ins out s).2.1.setStop t = (env.regular tid ins out' s).2.1.setStop t

/-- Two pools of copper lists that differ only in the content of the messages. -/
structure SameButMessages (m m' : Manager (List (Msg P))) : Prop where
  length : m.length = m'.length
  insertion : m.insertionIndex = m'.insertionIndex
  nextId : m.currentClId = m'.currentClId
  data : Pointwise (fun a b => a.id = b.id ∧ a.state = b.state ∧ a.msgs.length = b.msgs.length)
    m.data m'.data

end Runtime
end Verif

namespace Verif
namespace Runtime
open Clock CopperList
variable {σ P : Type}

/-- The clock of the environment is monotone: `T` reads it off the state, `now` returns it (a time
that is not the reserved value) and nothing makes it go back. -/
structure MonotoneClock (env : Env σ P) (T : σ → Nat) : Prop where
  now : ∀ s, T s ≤ (env.now s).2.ns.toNat ∧ (env.now s).2.ns.toNat ≤ T (env.now s).1 ∧
    (env.now s).2.ns ≠ NONE_VALUE
  life : ∀ ph tid s, T s ≤ T (env.life ph tid s).1
  source : ∀ tid out s, T s ≤ T (env.source tid out s).1
  regular : ∀ tid ins out s, T s ≤ T (env.regular tid ins out s).1
  sink : ∀ tid ins s, T s ≤ T (env.sink tid ins s).1
  onError : ∀ ph tid e s, T s ≤ T (env.onError ph tid e s).1
  monCL : ∀ md s, T s ≤ T (env.monCL md s).1
  monStart : ∀ s, T s ≤ T (env.monStart s).1
  monStop : ∀ s, T s ≤ T (env.monStop s).1
  log : ∀ f, env.log = some f → ∀ s cl s', f s cl = .ok s' → T s ≤ T s'
  simLife : ∀ sim, env.sim = some sim → ∀ ph tid s, T s ≤ T (sim.life ph tid s).1
  simProcess : ∀ sim, env.sim = some sim → ∀ tid ins out s, T s ≤ T (sim.process tid ins out s).1

/-- Tasks leave the start time written by the runtime in their output alone. -/
structure KeepsStart (env : Env σ P) : Prop where
  source : ∀ tid out s,
    (env.source tid out s).2.1.md.processTime.start = out.md.processTime.start
  regular : ∀ tid ins out s,
    (env.regular tid ins out s).2.1.md.processTime.start = out.md.processTime.start

/-- The messages carry their processing times; each interval is well formed and they follow each
other without overlap, all between `lo` and `hi`. -/
def InOrder (lo : Nat) : List (Msg P) → Nat → Prop
  | [], hi => lo ≤ hi
  | m :: ms, hi => ∃ s e : CuTime, m.md.processTime.start.toOption = some s ∧
      m.md.processTime.stop.toOption = some e ∧ lo ≤ s.ns.toNat ∧ s.ns.toNat ≤ e.ns.toNat ∧
      InOrder e.ns.toNat ms hi

end Runtime
end Verif

namespace Verif
namespace Runtime
open CopperList
variable {σ P : Type}

/-- The copper lists written to the log, in order. -/
def loggedLists (t : List (Ev P)) : List (CL (List (Msg P))) :=
  t.filterMap (fun | .logged cl => some cl | _ => none)

/-- The ids of the copper lists taken, in order. -/
def createdIds (t : List (Ev P)) : List UInt32 :=
  t.filterMap (fun | .created id => some id | _ => none)

/-- The metadata shown to the monitor, in order. -/
def shownMetadata (t : List (Ev P)) : List (List MsgMeta) :=
  t.filterMap (fun | .monitored md _ => some md | _ => none)

/-- No copper list is in use; `k` messages per list. -/
structure Idle (k : Nat) (m : Manager (List (Msg P))) : Prop where
  /-- the ring is consistent -/
  ring : m.insertionIndex = 0
  none_used : m.length = 0
  cap_pos : 0 < m.cap
  all_free : ∀ c ∈ m.data, c.state = .free
  shape : ∀ c ∈ m.data, c.msgs.length = k

/-- A log stream that accepts every copper list. -/
def LogAccepts (log : Logger σ (List (Msg P))) : Prop :=
  ∀ f, log = some f → ∀ s cl, ∃ s', f s cl = .ok s'

/-- The subtraction of the end to end latency cannot underflow visibly: it wraps (release build), or
the first task called is not declared after the last one called. -/
def LatencyOk (app : App σ P) : Prop :=
  app.overflow = .wrapping ∨
    ∀ f l, (callOrder app.plan).head? = some f → (callOrder app.plan).getLast? = some l → f ≤ l

end Runtime
end Verif
