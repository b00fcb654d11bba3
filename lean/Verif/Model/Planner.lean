import Verif.Model.Basic
/-!
Model of the execution planner, core/cu29_runtime/src/curuntime.rs:126-482, over the task graph
of config.rs.

`petgraph::StableDiGraph` is external.  The configuration only ever adds nodes and edges
(config.rs:405-414, 495-560), so a graph is a number of nodes (indices `0..nodes`) and the list
of its edges in insertion order (edge index = position).  `neighbors_directed`, `edges_directed`
and `edges_connecting` iterate the most recently added edge first.
The contents of the nodes (names, types, configuration) are not read by the planner.
-/
namespace Verif
namespace Planner

/-- A connection `Cnx` (config.rs:265-277) between two node indices. -/
structure Edge where
  src : Nat
  dst : Nat
  msg : String
  deriving DecidableEq, Repr

/-- The task graph `CuConfig::graph` (config.rs:288-293). -/
structure Graph where
  nodes : Nat
  edges : List Edge
  deriving DecidableEq, Repr

/-- `graph.neighbors_directed(v, Incoming)`. -/
def Graph.incoming (g : Graph) (v : Nat) : List Nat :=
  (g.edges.filter (fun e => e.dst == v)).reverse.map Edge.src

/-- `graph.neighbors_directed(v, Outgoing)` and `graph.neighbors(v)`. -/
def Graph.outgoing (g : Graph) (v : Nat) : List Nat :=
  (g.edges.filter (fun e => e.src == v)).reverse.map Edge.dst

/-- Indices of the edges satisfying `p`, most recently added first. -/
def Graph.edgeIdxs (g : Graph) (p : Edge → Bool) : List Nat :=
  ((g.edges.zipIdx.filter (fun x => p x.1)).map Prod.snd).reverse

/-- `CuConfig::get_src_edges` (config.rs:480-486): `edges_directed(v, Outgoing)`. -/
def Graph.srcEdges (g : Graph) (v : Nat) : List Nat := g.edgeIdxs (fun e => e.src == v)

/-- `graph.edges_connecting(a, b)`. -/
def Graph.edgesConnecting (g : Graph) (a b : Nat) : List Nat :=
  g.edgeIdxs (fun e => e.src == a && e.dst == b)

/-- `CuTaskType` (curuntime.rs:131-136). -/
inductive TaskType where
  | source | regular | sink
  deriving DecidableEq, Repr

/-- `find_task_type_for_id` (curuntime.rs:229-240). -/
def taskType (g : Graph) (v : Nat) : TaskType :=
  if (g.incoming v).length = 0 then .source
  else if (g.outgoing v).length = 0 then .sink
  else .regular

/-- `CuExecutionStep` (curuntime.rs:139-152), without the copy of the node.  The planner only
builds `CuExecutionUnit::Step`, never a nested loop. -/
structure Step where
  nodeId : Nat
  taskType : TaskType
  inputs : List (Nat × String)
  output : Option (Nat × String)
  deriving DecidableEq, Repr

/-- `find_output_index_type_from_nodeid` (curuntime.rs:208-227). -/
def findOutput (v : Nat) (plan : List Step) : Option (Nat × String) :=
  match plan.find? (fun s => s.nodeId == v) with
  | some s => s.output
  | none => none

/-- `find_edge_with_plan_input_id` (curuntime.rs:244-265). -/
def edgeKey (g : Graph) (plan : List Step) (v : Nat) (planId : Nat) : Rs Nat :=
  match plan[planId]? with
  | none => .panic
  | some st =>
    match g.edgesConnecting st.nodeId v with
    | [] => .panic
    | i :: _ => .ok i

/-- Calls a fallible function on every element. -/
def mapRs {α β : Type} (f : α → Rs β) : List α → Rs (List β)
  | [] => .ok []
  | a :: l =>
    match f a, mapRs f l with
    | .ok b, .ok bs => .ok (b :: bs)
    | _, _ => .panic

/-- Insertion before the first element whose key is not smaller. -/
def insertByKey {α : Type} (x : Nat × α) : List (Nat × α) → List (Nat × α)
  | [] => [x]
  | y :: l => if x.1 ≤ y.1 then x :: y :: l else y :: insertByKey x l

/-- Stable sort by a numeric key (`slice::sort_by` is documented to be stable, so its result is
that of any stable sort; insertion sort here). -/
def sortByKey {α : Type} (l : List (Nat × α)) : List α :=
  (l.foldr insertByKey []).map Prod.snd

/-- `sort_inputs_by_cnx_id` (curuntime.rs:268-279).  With fewer than two elements the comparison
function is never called; otherwise it is called at least once on each of them. -/
def sortInputs (g : Graph) (plan : List Step) (v : Nat) (inputs : List (Nat × String)) :
    Rs (List (Nat × String)) :=
  if inputs.length < 2 then .ok inputs
  else
    match mapRs (fun i => edgeKey g plan v i.1) inputs with
    | .panic => .panic
    | .ok keys => .ok (sortByKey (keys.zip inputs))

/-- `config.graph.edge_weight(EdgeIndex::new(config.get_src_edges(id)[0])).unwrap().msg`
(curuntime.rs:310-316 and 361-368): panics when the task has no outgoing connection. -/
def srcMsgType (g : Graph) (v : Nat) : Rs String :=
  match g.srcEdges v with
  | [] => .panic
  | i :: _ =>
    match g.edges[i]? with
    | some e => .ok e.msg
    | none => .panic

/-- The loop over the parents (curuntime.rs:328-341, 349-362); `none` when one is not planned. -/
def gatherInputs (plan : List Step) : List Nat → Option (List (Nat × String))
  | [] => some []
  | p :: ps =>
    match findOutput p plan with
    | none => none
    | some x => (gatherInputs plan ps).map (x :: ·)

/-- The end of the loop body (curuntime.rs:376-401): sort the inputs, then move an existing step
to the end or append a new one. -/
def insertStep (g : Graph) (plan : List Step) (v : Nat) (tt : TaskType)
    (inputs : List (Nat × String)) (out : Nat × String) : Rs (List Step) :=
  match sortInputs g plan v inputs with
  | .panic => .panic
  | .ok ins =>
    match plan.find? (fun s => s.nodeId == v) with
    | some st =>
      .ok (plan.eraseIdx (plan.findIdx (fun s => s.nodeId == v)) ++ [{ st with inputs := ins }])
    | none => .ok (plan ++ [⟨v, tt, ins, some out⟩])

/-- The loop body of `plan_tasks_tree_branch` (curuntime.rs:292-404); `none` is the early return
"not ready". -/
def visit (g : Graph) (next : Nat) (plan : List Step) (v : Nat) : Rs (Option (List Step)) :=
  match taskType g v with
  | .source =>
    match srcMsgType g v with
    | .panic => .panic
    | .ok ty =>
      match insertStep g plan v .source [] (next, ty) with
      | .panic => .panic
      | .ok p => .ok (some p)
  | .sink =>
    match gatherInputs plan (g.incoming v) with
    | none => .ok none
    | some ins =>
      match insertStep g plan v .sink ins (next, "()") with
      | .panic => .panic
      | .ok p => .ok (some p)
  | .regular =>
    match gatherInputs plan (g.incoming v) with
    | none => .ok none
    | some ins =>
      match srcMsgType g v with
      | .panic => .panic
      | .ok ty =>
        match insertStep g plan v .regular ins (next, ty) with
        | .panic => .panic
        | .ok p => .ok (some p)

/-- petgraph's `Bfs` visitor. -/
structure Bfs where
  discovered : List Nat
  queue : List Nat
  deriving DecidableEq, Repr

/-- The inner loop of `Bfs::next`: discover the successors. -/
def discover : List Nat → Bfs → Bfs
  | [], b => b
  | s :: ss, b =>
    if s ∈ b.discovered then discover ss b
    else discover ss ⟨s :: b.discovered, b.queue ++ [s]⟩

/-- petgraph `Bfs::next`. -/
def Bfs.next (g : Graph) (b : Bfs) : Option (Nat × Bfs) :=
  match b.queue with
  | [] => none
  | v :: q => some (v, discover (g.outgoing v) ⟨b.discovered, q⟩)

/-- The sequence of nodes yielded by at most `fuel` calls of `Bfs::next`. -/
def bfsRun (g : Graph) : Nat → Bfs → List Nat
  | 0, _ => []
  | k + 1, b =>
    match b.next g with
    | none => []
    | some (v, b') => v :: bfsRun g k b'

/-- The nodes visited by `Bfs::new(&graph, start)`, in order.  The fuel is the number of nodes,
which is enough (`Proofs/Planner.lean`, `bfsOrder_reach`). -/
def bfsOrder (g : Graph) (start : Nat) : List Nat :=
  bfsRun g g.nodes ⟨[start], [start]⟩

/-- `plan_tasks_tree_branch` (curuntime.rs:281-408) on the remaining nodes of the visitor.
Returns the next output index, `handled` and the plan. -/
def branch (g : Graph) : List Nat → Nat → List Step → Bool → Rs (Nat × Bool × List Step)
  | [], next, plan, handled => .ok (next, handled, plan)
  | v :: vs, next, plan, handled =>
    match visit g next plan v with
    | .panic => .panic
    | .ok none => .ok (next, handled, plan)
    | .ok (some plan') => branch g vs (next + 1) plan' true

/-- The local variables of `compute_runtime_plan`. -/
structure State where
  plan : List Step
  next : Nat
  queue : List Nat
  deriving DecidableEq, Repr

/-- The inner loop of `compute_runtime_plan` (curuntime.rs:444-476) on the remaining nodes.
`visited` is never updated by the code, so the test on it always fails. -/
def inner (g : Graph) : List Nat → State → Rs State
  | [], st => .ok st
  | v :: vs, st =>
    if st.plan.any (fun s => s.nodeId == v) then inner g vs st
    else
      match branch g (bfsOrder g v) st.next st.plan false with
      | .panic => .panic
      | .ok (next, handled, plan) =>
        if handled then inner g vs ⟨plan, next, st.queue ++ g.outgoing v⟩
        else inner g vs ⟨plan, next, st.queue⟩

/-- The outer loop (curuntime.rs:433-477); `none` when the fuel is exhausted before the queue. -/
def outer (g : Graph) : Nat → State → Rs (Option (List Step))
  | 0, _ => .ok none
  | k + 1, st =>
    match st.queue with
    | [] => .ok (some st.plan)
    | s :: q =>
      match inner g (bfsOrder g s) { st with queue := q } with
      | .panic => .panic
      | .ok st' => outer g k st'

/-- The initial queue: the sources in index order (curuntime.rs:420-427). -/
def sources (g : Graph) : List Nat :=
  (List.range g.nodes).filter (fun v => taskType g v == .source)

/-- `compute_runtime_plan` (curuntime.rs:412-482): `ok none` stands for non-termination (more
than `nodes + edges` rounds of the outer loop). -/
def computePlan (g : Graph) : Rs (Option (List Step)) :=
  outer g (g.nodes + g.edges.length + 1) ⟨[], 0, sources g⟩

end Planner
end Verif
