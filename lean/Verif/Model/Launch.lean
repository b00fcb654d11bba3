import Verif.Model.Config
import Verif.Model.Planner
import Verif.Model.UnifiedLog
/-!
Model of how an application comes to life: what is compiled from the configuration
(core/cu29_derive/src/lib.rs:254-412, 1299-1330), the builder (lib.rs:1085-1196), `new` (lib.rs:1028-1075),
`CuRuntime::new` (core/cu29_runtime/src/curuntime.rs:57-94), and the basic setup of the log
(core/cu29_helpers/src/lib.rs:26-74).

Components are functions: the constructor of a type from the parameters it is given, or an error.  What they do
when they are called is not modelled, only that they are called, in which order and with what.  The answers of the
simulation to `New` are ignored by the code.
-/
namespace Verif
namespace Launch
open Config

/-- `CuError` (core/cu29_traits/src/lib.rs:7-11). -/
structure CuError where
  message : String
  cause : Option String
  deriving DecidableEq, Repr

/-- `add_cause` (cu29_traits/src/lib.rs:50-53). -/
def CuError.addCause (e : CuError) (context : String) : CuError := { e with cause := some context }

/-- `Display` (cu29_traits/src/lib.rs:13-22). -/
def CuError.display (e : CuError) : String :=
  e.message ++ "\n   context:" ++ (match e.cause with | some c => c | none => "None")

variable {C : Type}

/-- The graph the planner works on. -/
def graphOf (c : CuConfig C) : Planner.Graph :=
  ⟨c.nodes.length, c.edges.map fun e => ⟨e.src, e.dst, e.cnx.msg⟩⟩

/-- The message type of the first of these connections (config.rs:446-453, 467-474): a panic if there is none. -/
def firstMsg (c : CuConfig C) : List Nat → Rs String
  | [] => .panic
  | i :: _ => Rs.ofOption (c.edges[i]?.map (·.cnx.msg))

/-- `get_node_output_msg_type` (config.rs:437-456), unwrapped by the macro. -/
def outputMsg (c : CuConfig C) (id : String) : Rs String :=
  match findNode c.nodes id with
  | none => .panic
  | some i => firstMsg c ((graphOf c).srcEdges i)

/-- `get_node_input_msg_type` (config.rs:458-477), with `get_dst_edges` (config.rs:487-493). -/
def inputMsg (c : CuConfig C) (id : String) : Rs String :=
  match findNode c.nodes id with
  | none => .panic
  | some i => firstMsg c ((graphOf c).edgeIdxs (fun e => e.dst == i))

/-- The type that takes the place of a task in a simulation (lib.rs:305-329). -/
inductive SimTy where
  | real
  | src (msg : String)
  | sink (msg : String)
  deriving DecidableEq, Repr

/-- What the generated code knows of a task. -/
structure Task where
  id : String
  type_ : String
  sim : SimTy
  deriving DecidableEq, Repr

/-- What stands for a task in a simulation (lib.rs:305-329). -/
def simTy (c : CuConfig C) (i : Nat) (id : String) : Rs SimTy :=
  match Planner.taskType (graphOf c) i with
  | .source => (outputMsg c id).map' SimTy.src
  | .regular => .ok SimTy.real
  | .sink => (inputMsg c id).map' SimTy.sink

/-- One task (lib.rs:1299-1330, 305-329): `get_type` panics without a type. -/
def compileTask (c : CuConfig C) (i : Nat) (n : Node C) : Rs Task := do
  let t ← Rs.ofOption n.type_
  let s ← simTy c i n.id
  return ⟨n.id, t, s⟩

/-- The tasks from index `i` on. -/
def compileTasks (c : CuConfig C) : Nat → List (Node C) → Rs (List Task)
  | _, [] => .ok []
  | i, n :: ns => do
    let t ← compileTask c i n
    let ts ← compileTasks c (i + 1) ns
    return t :: ts

/-- What is compiled into the application: its tasks, its monitor (lib.rs:343-349; `none` is `NoMonitor`), the text
of the configuration (lib.rs:285-288), whether it is a simulation, and the size of a copper list in memory. -/
structure Compiled (C : Type) where
  original : Tree C
  tasks : List Task
  monitor : Option String
  sim : Bool
  listSize : Nat

/-- The macro, as far as it is about starting (lib.rs:280-412); the errors of the compilation are panics. -/
def compile (t : Tree C) (sim : Bool) (listSize : Nat) : Rs (Compiled C) := do
  match ← readConfigurationStr t with
  | none => .panic
  | some c =>
    let tasks ← compileTasks c 0 c.nodes
    return ⟨t, tasks, c.monitor.map (·.type_), sim, listSize⟩

/-- The components: constructors of tasks by their type, the constructor of the monitor. -/
structure Parts (C T M : Type) where
  task : String → Option C → Except CuError T
  monitor : Option String → CuConfig C → List String → Except CuError M

/-- A task of the application: a component, or the placeholder of a source or a sink
(core/cu29_runtime/src/simulation.rs:159-206). -/
inductive Inst (T : Type) where
  | real (t : T)
  | src (msg : String)
  | sink (msg : String)
  deriving DecidableEq, Repr

/-- The constructor called for a task: of the component, or of the placeholder, which never fails
(simulation.rs:170-175, 197-202). -/
def Task.create {T M : Type} (p : Parts C T M) (sim : Bool) (t : Task) (cfg : Option C) : Except CuError (Inst T) :=
  if sim then
    match t.sim with
    | .real => (p.task t.type_ cfg).map .real
    | .src m => .ok (.src m)
    | .sink m => .ok (.sink m)
  else (p.task t.type_ cfg).map .real

/-- Whether that is the constructor of the component. -/
def Task.isReal (sim : Bool) (t : Task) : Bool := !sim || t.sim == .real

/-- The text added to the error of a constructor (lib.rs:406-409). -/
def createInfo (t : Task) (i : Nat) : String :=
  "Failed to get create instance for " ++ t.type_ ++ ", instance index " ++ toString i ++ "."

/-- `tasks_instanciator` (lib.rs:1251-1257, 382-391, 410-413): the calls of constructors of components, and the
tasks or the first error. -/
def createTasks {T M : Type} (p : Parts C T M) (sim : Bool) (cfgs : List (Option C)) :
    Nat → List Task → List (String × Option C) × Rs (Except CuError (List (Inst T)))
  | _, [] => ([], .ok (.ok []))
  | i, t :: ts =>
    match cfgs[i]? with
    | none => ([], .panic)
    | some cfg =>
      let call := if t.isReal sim then [(t.type_, cfg)] else []
      match t.create p sim cfg with
      | .error e => (call, .ok (.error (e.addCause (createInfo t i))))
      | .ok x =>
        let r := createTasks p sim cfgs (i + 1) ts
        (call ++ r.1,
          match r.2 with
          | .ok (.ok xs) => .ok (.ok (x :: xs))
          | .ok (.error e) => .ok (.error e)
          | .panic => .panic)

/-- The application. -/
structure App (C T M : Type) where
  tasks : List (Inst T)
  monitor : M
  logger : Option ULog.Stream       -- the stream of copper lists
  asked : List (String × Option C)  -- the `New` steps the simulation saw

/-- Why there is no application: the logging settings of the text, a missing part of the builder, a component. -/
inductive Failure where
  | config
  | missing (what : String)
  | task (e : CuError)
  deriving DecidableEq, Repr

/-- The size of the sections for copper lists (lib.rs:1048-1053). -/
def sectionSize (ov : Overflow) (listSize : Nat) (c : CuConfig C) : Rs Nat :=
  match c.logging.bind (·.sectionSizeMib) with
  | none => .ok (listSize * 64)
  | some mib =>
    if mib.toNat * 1048576 < 2 ^ 64 then .ok (mib.toNat * 1048576)
    else match ov with
      | .checked => .panic
      | .wrapping => .ok (mib.toNat * 1048576 % 2 ^ 64)

/-- Whether copper lists are logged (curuntime.rs:75-84). -/
def logs (c : CuConfig C) : Bool :=
  match c.logging with
  | some l => l.enableTaskLogging
  | none => true

/-- The `New` steps (lib.rs:938-957). -/
def newSteps (cfgs : List (Option C)) : Nat → List Task → Rs (List (String × Option C))
  | _, [] => .ok []
  | i, t :: ts => do
    let cfg ← Rs.ofOption cfgs[i]?
    let r ← newSteps cfgs (i + 1) ts
    return (t.id, cfg) :: r

/-- `new` with the configuration in effect (lib.rs:1046-1075, curuntime.rs:57-94): the calls of constructors, and the
outcome with the state of the log. -/
def start {T M : Type} (ov : Overflow) (p : Parts C T M) (k : Compiled C) (c : CuConfig C) (lg : ULog.Logger) :
    List (String × Option C) × Rs (Except Failure (App C T M × ULog.Logger)) :=
  match (do let n ← sectionSize ov k.listSize c; ULog.openStream lg .copperList n) with
  | .panic => ([], .panic)
  | .ok (lg, st) =>
    let cfgs := c.nodes.map (·.config)
    let r := createTasks p k.sim cfgs 0 k.tasks
    (r.1,
      match r.2 with
      | .panic => .panic
      | .ok (.error e) => .ok (.error (.task e))
      | .ok (.ok ts) =>
        match p.monitor k.monitor c (k.tasks.map (·.id)) with
        | .error _ => .panic
        | .ok m => do
          let asked ← if k.sim then newSteps cfgs 0 k.tasks else .ok []
          return .ok (⟨ts, m, if logs c then some st else none, asked⟩, lg))

/-- `new` (lib.rs:1031-1075): `file` is the text of the configuration file, if there is one. -/
def new {T M : Type} (ov : Overflow) (p : Parts C T M) (k : Compiled C) (override : Option (CuConfig C))
    (file : Option (Tree C)) (lg : ULog.Logger) :
    List (String × Option C) × Rs (Except Failure (App C T M × ULog.Logger)) :=
  match startConfig override file k.original with
  | .panic => ([], .panic)
  | .ok none => ([], .ok (.error .config))
  | .ok (some c) => start ov p k c lg

/-- The builder (lib.rs:1085-1170); the clock and the callback are only there or not. -/
structure Builder (C : Type) where
  clock : Bool
  logger : Option ULog.Logger
  override : Option (CuConfig C)
  callback : Bool

/-- `build` (lib.rs:1185-1195). -/
def Builder.build {T M : Type} (ov : Overflow) (p : Parts C T M) (k : Compiled C) (file : Option (Tree C))
    (b : Builder C) : List (String × Option C) × Rs (Except Failure (App C T M × ULog.Logger)) :=
  if b.clock = false then ([], .ok (.error (.missing "Clock missing from builder")))
  else match b.logger with
    | none => ([], .ok (.error (.missing "Unified logger missing from builder")))
    | some lg =>
      if k.sim && !b.callback then ([], .ok (.error (.missing "Sim callback missing from builder")))
      else new ov p k b.override file lg

/-- `basic_copper_setup` (core/cu29_helpers/src/lib.rs:26-74): the log with its stream of text lines. -/
def basicSetup (page : Nat) (slabSize : Option Nat) : Rs (ULog.Logger × ULog.Stream) :=
  match ULog.Logger.new (slabSize.getD (1024 * 1024 * 10)) page with
  | .panic => .panic
  | .ok lg => ULog.openStream lg .structuredLogLine (4096 * 10)

end Launch
end Verif
