import Verif.Model.ConsoleMon
/-! What the console monitor should show. -/
namespace Verif
namespace ConsoleMon
open Clock Planner Verif.Runtime

/-- How long a task took, in nanoseconds. -/
def took (m : MsgMeta) : Nat := m.processTime.stop.inner.ns.toNat - m.processTime.start.inner.ns.toNat

/-- How long the iteration took: from the start of the first task to the end of the last one. -/
def tookAll (md : List MsgMeta) : Option Nat :=
  match md.head?, md.getLast? with
  | some f, some l => some (l.processTime.stop.inner.ns.toNat - f.processTime.start.inner.ns.toNat)
  | _, _ => none

/-- An iteration whose tasks were all timed. -/
structure Timed (md : List MsgMeta) : Prop where
  some : md ≠ []
  set : ∀ m ∈ md, m.processTime.start.isNone = false ∧ m.processTime.stop.isNone = false
  task : ∀ m ∈ md, m.processTime.start.inner.ns ≤ m.processTime.stop.inner.ns
  whole : ∀ f ∈ md.head?, ∀ l ∈ md.getLast?, f.processTime.start.inner.ns ≤ l.processTime.stop.inner.ns

/-- The times taken by the task of row `i` since the figures were last reset. -/
def latencies (i : Nat) : List Event → List Nat → List Nat
  | [], acc => acc
  | .iteration md :: es, acc => latencies i es (acc ++ (md[i]?.map took).toList)
  | .reset :: es, _ => latencies i es []
  | .stop :: es, _ => latencies i es []
  | _ :: es, acc => latencies i es acc

/-- The times taken by the iterations since the figures were last reset. -/
def wholeLatencies : List Event → List Nat → List Nat
  | [], acc => acc
  | .iteration md :: es, acc => wholeLatencies es (acc ++ (tookAll md).toList)
  | .reset :: es, _ => wholeLatencies es []
  | .stop :: es, _ => wholeLatencies es []
  | _ :: es, acc => wholeLatencies es acc

/-- The error of task `i` not shown yet, from the most recent event on. -/
def pendingError (i : Nat) : List Event → Option Err
  | [] => none
  | .draw :: _ => none
  | .failure t _ e :: es => if t = i then some e else pendingError i es
  | _ :: es => pendingError i es

/-- The last status of task `i`, from the most recent event on.  A text starting with a NUL is the one of
a message which was never written. -/
def lastStatus (i : Nat) : List Event → String
  | [] => ""
  | .iteration md :: es =>
    match md[i]? with
    | some m => if m.statusTxt.toList.head? = some '\x00' then "" else m.statusTxt
    | none => lastStatus i es
  | _ :: es => lastStatus i es

/-- What a node should show after a history: the error not shown yet, or the last status. -/
def shouldShow (es : List Event) (i : Nat) : Bool × String :=
  match pendingError i es.reverse with
  | some e => (true, e)
  | none => (false, lastStatus i es.reverse)

/-- The symbol of a node, from its connections. -/
def symbol (incoming outgoing : Bool) : NodeType :=
  match incoming, outgoing with
  | false, false => .unknown
  | false, true => .source
  | true, false => .sink
  | true, true => .task

/-- The messages of the pane. -/
def messages (es : List PaneEvent) : List String :=
  (es.filterMap (fun | .stderr s => some s | .line s => some s | .resize _ => none)).filter (· ≠ "")

/-- The entry shown for a pool. -/
def look (id : String) (ps : List PoolStats) : Option PoolStats := ps.find? (fun p => p.id == id)

/-- What is shown of a pool, besides the rate. -/
def PoolStats.figures (p : PoolStats) : Nat × Nat × Nat := (p.spaceLeft, p.totalSize, p.handlesInUse)

/-- The figures of a pool in the last reports, from the most recent one on. -/
def lastFigures (id : String) : List (Nat × List PoolFigures) → Option PoolFigures
  | [] => none
  | (_, fs) :: rs =>
    match fs.reverse.find? (fun f => f.1 == id) with
    | some f => some f
    | none => lastFigures id rs

end ConsoleMon
end Verif
