import Verif.Model.ExampleApps
import Verif.Model.UnifiedLog
/-!
The project template (templates/cu_full) and the examples that make one iteration (examples/cu_monitoring,
examples/cu_logging_size), on the generated runtime.
-/
namespace Verif
namespace Examples
open Clock CopperList Planner Verif.Runtime

/-! ### The project template -/
namespace Template

/-- The tasks (templates/cu_full/src/tasks.rs:11-13, 38-40, 72-74), with what they were sent so far: `debug!` of what
is received (l.64, 88). -/
inductive Task where
  | source
  | task (received : List Int32)
  | sink (received : List Int32)
  | panicked
  deriving DecidableEq, Repr

/-- The configuration (templates/cu_full/copperconfig.ron): src, t-0, sink. -/
def graph : Graph := ⟨3, [⟨0, 1, "crate::tasks::MyPayload"⟩, ⟨1, 2, "crate::tasks::MyPayload"⟩]⟩

/-- `new` of the tasks (tasks.rs:20-25, 49-55, 80-85). -/
def init : Nat → Task
  | 0 => .source
  | 1 => .task []
  | _ => .sink []

/-- `process` of the tasks (tasks.rs:29-33, 59-68, 87-90).  A missing payload is a panic in `unwrap`. -/
def next : Nat → Task → List (Option Int32) → Task × Option Int32
  | 0, .source, _ => (.source, some 42)
  | 1, .task l, [some v] => (.task (l ++ [v]), some 43)
  | 2, .sink l, [some v] => (.sink (l ++ [v]), none)
  | _, _, _ => (.panicked, none)

/-- The application (templates/cu_full/src/main.rs:11-12).  It has no monitor: `NoMonitor`. -/
def app (inp : Inputs) (o : Overflow) : App (State Task) Int32 :=
  ⟨3, planOf graph, env { inp with quit := fun _ => false } (fun _ => .ignore) (fun _ => none) next, o⟩

/-- The runtime as it is created: ten zeroed lists; an `i32` has no unused values. -/
def fresh : Rt (State Task) Int32 := ⟨⟨⟨0, 0, init⟩, []⟩, zeroLists 10 (List.replicate 3 .tagged)⟩

/-- `main` (src/main.rs:14-31): `run`, observed after `n` iterations. -/
def main (inp : Inputs) (o : Overflow) (n : Nat) : Rs (Rt (State Task) Int32 × RunResult) :=
  run (app inp o) n fresh

end Template

/-! ### One iteration -/
namespace Once

/-- The tasks (examples/cu_monitoring/src/main.rs:8-71, examples/cu_logging_size/src/main.rs:8-71: the same). -/
inductive Task where
  | source
  | task
  | sink
  | panicked
  deriving DecidableEq, Repr

/-- The configuration (copperconfig.ron of both): task0, task1, task2. -/
def graph : Graph := ⟨3, [⟨0, 1, "i32"⟩, ⟨1, 2, "i32"⟩]⟩

/-- `new` of the tasks (cu_monitoring/src/main.rs:15-20, 36-41, 61-66). -/
def init : Nat → Task
  | 0 => .source
  | 1 => .task
  | _ => .sink

/-- `process` of the tasks (cu_monitoring/src/main.rs:22-25, 43-51, 68-70).  `+ 1` on an `i32` panics when the build
checks for overflow, as `unwrap` of a missing payload does. -/
def next (o : Overflow) : Nat → Task → List (Option Int32) → Task × Option Int32
  | 0, .source, _ => (.source, some 42)
  | 1, .task, [some v] => match Multi.increment o v with
    | none => (.panicked, none)
    | some v => (.task, some v)
  | 2, .sink, [_] => (.sink, none)
  | _, _, _ => (.panicked, none)

/-- The applications (cu_monitoring/src/main.rs:78-79, cu_logging_size/src/main.rs:74-75).  `ExampleMonitor` ignores
errors (cu_monitoring/src/main.rs:101-107) and is content with every list (l.92-99), as `NoMonitor` does. -/
def app (inp : Inputs) (o : Overflow) : App (State Task) Int32 :=
  ⟨3, planOf graph, env { inp with quit := fun _ => false } (fun _ => .ignore) (fun _ => none) (next o), o⟩

/-- The runtime as it is created. -/
def fresh : Rt (State Task) Int32 := ⟨⟨⟨0, 0, init⟩, []⟩, zeroLists 10 (List.replicate 3 .tagged)⟩

/-- `main` (cu_monitoring/src/main.rs:115-139, cu_logging_size/src/main.rs:78-100): the tasks are started, there is one
iteration, they are stopped; `expect` panics if one of these fails. -/
def main (inp : Inputs) (o : Overflow) : Rs (Rt (State Task) Int32) :=
  match startAll (app inp o) fresh with
  | (_, some _) => .panic
  | (rt, none) =>
    match runOneIteration (app inp o) rt with
    | .panic => .panic
    | .ok (_, some _) => .panic
    | .ok (rt, none) =>
      match stopAll (app inp o) rt with
      | (_, some _) => .panic
      | (rt, none) => .ok rt

end Once
end Examples

namespace ULog

/-- `stats` (core/cu29_unifiedlog/src/lib.rs:543-549): what is given out of the slab in use, the sections in it not
yet flushed, the number of earlier slabs that are kept. -/
def Logger.stats (lg : Logger) : Nat × List Nat × Nat := (lg.front.cgp, lg.front.inFlight, lg.back.length)

end ULog
end Verif
