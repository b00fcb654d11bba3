import Verif.Model.Runtime
import Verif.Model.Monitoring
/-!
The console monitor: components/monitors/cu_consolemon/src/lib.rs and debug_pane.rs.  What is drawn is
the contents of the widgets, not their position on the screen.  The state shared with the thread of the
user interface is behind mutexes: the monitor takes the lock of the statistics, then that of the
statuses, then that of the pools, and then reads the flag of the user's request to quit.  As they are
about disjoint data, each call of the monitor is one atomic step of a history here.
-/
namespace Verif
namespace ConsoleMon
open Clock Planner Verif.Runtime Monitoring

/-! ### Latencies -/

/-- `TaskStats` (lib.rs:56-59). -/
structure TaskStats where
  stats : List DurStats
  end2end : DurStats
  deriving DecidableEq, Repr

/-- `TaskStats::new` (lib.rs:62-68). -/
def TaskStats.new (n max : Nat) : Rs TaskStats := do
  let s ← DurStats.new max
  let e ← DurStats.new max
  pure ⟨List.replicate n s, e⟩

/-- The time a task took (lib.rs:72-76): the times must be present, the subtraction may overflow. -/
def duration (o : Overflow) (m : MsgMeta) : Rs Nat := do
  let before ← Rs.ofOption m.processTime.start.unwrap
  let after ← Rs.ofOption m.processTime.stop.unwrap
  let d ← Rs.ofOption (after.sub o before)
  pure d.ns.toNat

/-- The loop over the messages (lib.rs:71-77): `self.stats[i]` must exist. -/
def updateRows (o : Overflow) : List DurStats → List MsgMeta → Rs (List DurStats)
  | rows, [] => .ok rows
  | [], _ :: _ => .panic
  | s :: rows, m :: ms => do
    let d ← duration o m
    let s ← s.record d
    let rows ← updateRows o rows ms
    pure (s :: rows)

/-- `TaskStats::update` (lib.rs:70-79), with `compute_end_to_end_latency` (lib.rs:135-138), the same
computation as `Runtime.endToEnd`. -/
def TaskStats.update (o : Overflow) (t : TaskStats) (msgs : List MsgMeta) : Rs TaskStats := do
  let rows ← updateRows o t.stats msgs
  let l ← endToEnd o msgs
  let e ← t.end2end.record l.ns.toNat
  pure ⟨rows, e⟩

/-- `TaskStats::reset` (lib.rs:81-86). -/
def TaskStats.reset (t : TaskStats) : TaskStats := ⟨t.stats.map DurStats.reset, t.end2end.reset⟩

/-! ### Statuses -/

/-- `TaskStatus` (lib.rs:181-186). -/
structure TaskStatus where
  isError : Bool
  statusTxt : String
  error : String
  deriving DecidableEq, Repr

/-- The text kept of a status (lib.rs:846-850): `as_bytes()[0]` is out of range when it is empty. -/
def keptText (t : String) : Rs String :=
  match t.toList with
  | [] => .panic
  | c :: _ => .ok (if c = '\x00' then "" else t)

/-- The loop over the statuses (lib.rs:843-852). -/
def updateTexts : List TaskStatus → List MsgMeta → Rs (List TaskStatus)
  | ss, [] => .ok ss
  | [], _ :: _ => .panic
  | s :: ss, m :: ms => do
    let t ← keptText m.statusTxt
    let ss ← updateTexts ss ms
    pure ({ s with statusTxt := t } :: ss)

/-! ### The monitor -/

/-- `CuConsoleMon` (lib.rs:330-337), without the pools. -/
structure Mon where
  stats : TaskStats
  statuses : List TaskStatus
  quitting : Bool
  deriving DecidableEq, Repr

/-- Five seconds (lib.rs:743). -/
def maxLatency : Nat := 5000000000

/-- `CuConsoleMon::new` (lib.rs:737-754) for `n` tasks. -/
def Mon.new (n : Nat) : Rs Mon := do
  let t ← TaskStats.new n maxLatency
  pure ⟨t, List.replicate n ⟨false, "", ""⟩, false⟩

/-- `process_copperlist` (lib.rs:838-874). -/
def Mon.processCopperlist (o : Overflow) (m : Mon) (msgs : List MsgMeta) : Rs (Mon × Option Err) := do
  let t ← m.stats.update o msgs
  let ss ← updateTexts m.statuses msgs
  pure (⟨t, ss, m.quitting⟩, if m.quitting then some "Exiting..." else none)

/-- The decision of `process_error` (lib.rs:882-888). -/
def decide' : Phase → Decision
  | .start => .shutdown
  | .preprocess => .abort
  | .process => .ignore
  | .postprocess => .ignore
  | .stop => .shutdown

/-- `process_error` (lib.rs:876-889). -/
def Mon.processError (m : Mon) (task : Nat) (step : Phase) (e : Err) : Rs (Mon × Decision) :=
  match m.statuses[task]? with
  | none => .panic
  | some s => .ok ({ m with statuses := m.statuses.set task { s with isError := true, error := e } }, decide' step)

/-- The line of a status (lib.rs:293-297): whether it is the line of an error, and its text. -/
def TaskStatus.line (s : TaskStatus) : Bool × String := if s.isError then (true, s.error) else (false, s.statusTxt)

/-- Drawing the graph (lib.rs:288-314), of as many nodes as there are tasks: errors are shown once. -/
def Mon.draw (m : Mon) : Mon × List (Bool × String) :=
  ({ m with statuses := m.statuses.map (fun s => { s with isError := false }) }, m.statuses.map TaskStatus.line)

/-- `stop` (lib.rs:891-901). -/
def Mon.stop (m : Mon) : Mon := { m with stats := { m.stats with stats := m.stats.stats.map DurStats.reset } }

/-- What may happen to the monitor. -/
inductive Event where
  /-- the end of an iteration -/
  | iteration (msgs : List MsgMeta)
  /-- an error of a task -/
  | failure (task : Nat) (step : Phase) (e : Err)
  /-- the graph is drawn -/
  | draw
  /-- key `q`: the thread of the interface ends (lib.rs:716-718, 830) -/
  | quit
  /-- key `r` on the table of latencies (lib.rs:675-679) -/
  | reset
  /-- the application stops -/
  | stop
  deriving DecidableEq, Repr

/-- What the monitor answers. -/
inductive Reply where
  | result (r : Option Err)
  | decision (d : Decision)
  | lines (l : List (Bool × String))
  | nothing
  deriving DecidableEq, Repr

/-- One event. -/
def Mon.step (o : Overflow) (m : Mon) : Event → Rs (Mon × Reply)
  | .iteration msgs => do
    let r ← m.processCopperlist o msgs
    pure (r.1, .result r.2)
  | .failure task step e => do
    let r ← m.processError task step e
    pure (r.1, .decision r.2)
  | .draw => .ok (m.draw.1, .lines m.draw.2)
  | .quit => .ok ({ m with quitting := true }, .nothing)
  | .reset => .ok ({ m with stats := m.stats.reset }, .nothing)
  | .stop => .ok (m.stop, .nothing)

/-- Any history. -/
def Mon.run (o : Overflow) : Mon → List Event → Rs (Mon × List Reply)
  | m, [] => .ok (m, [])
  | m, e :: es => do
    let r ← m.step o e
    let s ← Mon.run o r.1 es
    pure (s.1, r.2 :: s.2)

/-! ### Nodes -/

/-- `NodeType` (lib.rs:142-147). -/
inductive NodeType where
  | unknown | source | sink | task
  deriving DecidableEq, Repr

/-- `add_incoming` (lib.rs:161-168). -/
def NodeType.addIncoming : NodeType → NodeType
  | .unknown => .sink
  | .source => .task
  | .sink => .sink
  | .task => .task

/-- `add_outgoing` (lib.rs:170-177). -/
def NodeType.addOutgoing : NodeType → NodeType
  | .unknown => .source
  | .source => .source
  | .sink => .task
  | .task => .task

/-- What an edge does to the types (lib.rs:217-218). -/
def addEdge (types : List NodeType) (e : Edge) : List NodeType :=
  (types.modify e.dst NodeType.addIncoming).modify e.src NodeType.addOutgoing

/-- `NodesScrollableWidgetState::new` (lib.rs:196-231): every node, then its incoming edges. -/
def nodeTypes (g : Graph) : List NodeType :=
  ((List.range g.nodes).flatMap (fun v => (g.edges.filter (fun e => e.dst == v)).reverse)).foldl addEdge
    (List.replicate g.nodes .unknown)

/-- `&s[n..]`: the text from byte `n` on, a panic within a character. -/
def dropBytes : Nat → List Char → Rs (List Char)
  | 0, l => .ok l
  | _ + 1, [] => .panic
  | n + 1, c :: l => if c.utf8Size ≤ n + 1 then dropBytes (n + 1 - c.utf8Size) l else .panic

/-- The number of bytes of a text. -/
def byteLen (l : List Char) : Nat := (l.map Char.utf8Size).sum

/-- The type of a task as drawn in a node (lib.rs:251-252, 299-302): its last 25 bytes. -/
def shownType (s : List Char) : Rs (List Char) := dropBytes (byteLen s - 25) s

/-! ### Pools -/

/-- `PoolStats` (lib.rs:88-97); the buffer size does not change, times are in nanoseconds. -/
structure PoolStats where
  id : String
  spaceLeft : Nat
  totalSize : Nat
  bufferSize : Nat
  handlesInUse : Nat
  handlesPerSecond : Nat
  lastUpdate : Nat
  prevHandlesInUse : Nat
  deriving DecidableEq, Repr

/-- `total_size - space_left`: the implementations of pools never have more left than their size. -/
def inUse (space total : Nat) : Nat := total - space

/-- `PoolStats::new` (lib.rs:100-116). -/
def PoolStats.new (now : Nat) (id : String) (space total buffer : Nat) : PoolStats :=
  ⟨id, space, total, buffer, inUse space total, 0, now, 0⟩

/-- `PoolStats::update` (lib.rs:118-133); the rate is the exact quotient rounded down, where the code
computes in `f32`. -/
def PoolStats.update (now : Nat) (p : PoolStats) (space total : Nat) : PoolStats :=
  let h := inUse space total
  let elapsed := now - p.lastUpdate
  let p := if 1000000000 ≤ elapsed then
      { p with handlesPerSecond := absDiff h p.handlesInUse * 1000000000 / elapsed,
               prevHandlesInUse := p.handlesInUse, lastUpdate := now }
    else p
  { p with handlesInUse := h, spaceLeft := space, totalSize := total }

/-- The figures of one pool: its id, the buffers left, their number, their size. -/
abbrev PoolFigures := String × Nat × Nat × Nat

/-- One pool of `process_copperlist` (lib.rs:860-867). -/
def updatePool (now : Nat) (ps : List PoolStats) (f : PoolFigures) : List PoolStats :=
  match ps.findIdx? (fun p => p.id == f.1) with
  | some i => ps.modify i (fun p => p.update now f.2.1 f.2.2.1)
  | none => ps ++ [PoolStats.new now f.1 f.2.1 f.2.2.1 f.2.2.2]

/-- The part of `process_copperlist` about pools (lib.rs:854-868). -/
def updatePools (now : Nat) (ps : List PoolStats) (fs : List PoolFigures) : List PoolStats :=
  fs.foldl (updatePool now) ps

/-! ### The debug pane -/

/-- `DebugLog` (debug_pane.rs:17-22); the channel is given to `updateLogs`. -/
structure DebugLog where
  log : List String
  maxRows : Nat
  deriving DecidableEq, Repr

/-- `push_logs` (debug_pane.rs:38-48). -/
def DebugLog.push (d : DebugLog) (s : String) : DebugLog :=
  if s = "" then d
  else
    let l := d.log ++ [s]
    { d with log := l.drop (l.length - d.maxRows) }

/-- One line of `update_logs` (debug_pane.rs:53-62). -/
def DebugLog.receive (d : DebugLog) (s : String) : DebugLog :=
  if s = "" then d
  else
    let l := d.log ++ [s]
    { d with log := if l.length > d.maxRows then l.drop 1 else l }

/-- What happens to the pane. -/
inductive PaneEvent where
  /-- what was written on the standard error, at each round (debug_pane.rs:119-126) -/
  | stderr (s : String)
  /-- a line of the logger -/
  | line (s : String)
  /-- the terminal has another size (lib.rs:722-727) -/
  | resize (rows : Nat)
  deriving DecidableEq, Repr

/-- One event. -/
def DebugLog.step (d : DebugLog) : PaneEvent → DebugLog
  | .stderr s => d.push s
  | .line s => d.receive s
  | .resize n => { d with maxRows := n }

/-- Any history from `DebugLog::new` (debug_pane.rs:26-36). -/
def DebugLog.run (rows : Nat) (es : List PaneEvent) : DebugLog := es.foldl DebugLog.step ⟨[], rows⟩

end ConsoleMon
end Verif
