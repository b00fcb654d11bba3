import Verif.Model.ConsoleMon
/-!
The interface of the console: components/monitors/cu_consolemon/src/lib.rs:46-54, 611-730, 756-836.  It runs in a
thread of its own, next to the application that calls the monitor.  Scrolling of the graph (keys `h`, `j`, `k`, `l`)
and the size of the terminal are not modelled.
-/
namespace Verif
namespace ConsoleMon
open Clock Verif.Runtime

/-- `Screen` (lib.rs:46-54). -/
inductive Screen where
  | sysInfo | dag | latency | debugOutput | pools
  deriving DecidableEq, Repr

/-- The monitor and the screen of its interface, if its thread still runs; `pane` is the feature `debug_pane`. -/
structure Console where
  mon : Mon
  screen : Option Screen
  pane : Bool
  deriving DecidableEq, Repr

/-- `new`, `start` and `UI::new` (lib.rs:737-754, 756-836, 354-376, 380-398). -/
def Console.new (n : Nat) (pane : Bool) : Rs Console := do
  let m ← Mon.new n
  pure ⟨m, some .sysInfo, pane⟩

/-- What happens: calls of the application, and the turns of the loop of the interface, whose parts are `draw` and an
event of the terminal.  `fails`: an operation on the terminal fails, which is a panic of the thread
(lib.rs:655-665, 811, 825). -/
inductive Act where
  | iteration (msgs : List MsgMeta)
  | failure (task : Nat) (step : Phase) (e : Err)
  | stop
  | draw
  | key (c : Char) (ctrl : Bool)
  | fails
  deriving DecidableEq, Repr

/-- What comes of it. -/
inductive Shown where
  | reply (r : Reply)
  | graph (lines : List (Bool × String))
  | table (t : TaskStats)
  | other (s : Screen)
  | nothing
  deriving DecidableEq, Repr

/-- The answer to a key (lib.rs:668-718, 830); the loop is left and the flag set in one step. -/
def Console.key (k : Console) (s : Screen) (c : Char) : Console :=
  if c = '1' then { k with screen := some .sysInfo }
  else if c = '2' then { k with screen := some .dag }
  else if c = '3' then { k with screen := some .latency }
  else if c = '4' then { k with screen := some .pools }
  else if c = '5' ∧ k.pane = true then { k with screen := some .debugOutput }
  else if c = 'r' then
    if s = .latency then { k with mon := { k.mon with stats := k.mon.stats.reset } } else k
  else if c = 'q' then { k with mon := { k.mon with quitting := true }, screen := none }
  else k

/-- `draw` (lib.rs:611-653). -/
def Console.draw (k : Console) (s : Screen) : Console × Shown :=
  match s with
  | .dag => ({ k with mon := k.mon.draw.1 }, .graph k.mon.draw.2)
  | .latency => (k, .table k.mon.stats)
  | s => (k, .other s)

/-- One of them. -/
def Console.step (o : Overflow) (k : Console) : Act → Rs (Console × Shown)
  | .iteration msgs => do
    let r ← k.mon.step o (.iteration msgs)
    pure ({ k with mon := r.1 }, .reply r.2)
  | .failure t p e => do
    let r ← k.mon.step o (.failure t p e)
    pure ({ k with mon := r.1 }, .reply r.2)
  | .stop => do
    let r ← k.mon.step o .stop
    pure ({ k with mon := r.1 }, .reply r.2)
  | .draw =>
    match k.screen with
    | none => .ok (k, .nothing)
    | some s => .ok (k.draw s)
  | .key c _ =>
    match k.screen with
    | none => .ok (k, .nothing)
    | some s => .ok (k.key s c, .nothing)
  | .fails => .ok ({ k with screen := none }, .nothing)

/-- Any history. -/
def Console.run (o : Overflow) : Console → List Act → Rs (Console × List Shown)
  | k, [] => .ok (k, [])
  | k, a :: as => do
    let r ← k.step o a
    let s ← Console.run o r.1 as
    pure (s.1, r.2 :: s.2)

end ConsoleMon
end Verif
