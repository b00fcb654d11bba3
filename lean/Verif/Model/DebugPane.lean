import Verif.Model.ConsoleMon
/-!
The way of text lines to the debug pane: components/monitors/cu_consolemon/src/debug_pane.rs and
lib.rs:655-727 and 778-803 (feature `debug_pane`).  Any number of threads log lines; each goes through
a bounded channel to the thread of the user interface.  A move is one send, one receive or one change
of the state of the user interface; any interleaving of them is a history.
-/
namespace Verif
namespace ConsoleMon

/-- `log::Level` (external). -/
inductive Level
  | error | warn | info | debug | trace
  deriving DecidableEq, Repr

/-- Its `Display` (external). -/
def Level.name : Level → String
  | .error => "ERROR" | .warn => "WARN" | .info => "INFO" | .debug => "DEBUG" | .trace => "TRACE"

/-- A record given to the logger, with the time of day when it is. -/
structure LogRecord where
  time : String
  level : Level
  text : String
  deriving DecidableEq, Repr

/-- `Log::enabled` of `LogSubscriber` (debug_pane.rs:93-95). -/
def Level.enabled : Level → Bool
  | .trace => false
  | _ => true

/-- The message made of a record (debug_pane.rs:97-105), if its level is enabled. -/
def LogRecord.message (r : LogRecord) : Option String :=
  if r.level.enabled then some (r.time ++ " [" ++ r.level.name ++ "] - " ++ r.text ++ "\n") else none

/-- The lines of the pane at the start (lib.rs:793): a subtraction of `u16`, compiled with
`debug_assertions` only, hence checked. -/
def startRows (height : Nat) : Rs Nat := if 5 ≤ height then .ok (height - 5) else .panic

/-- What is seen of the pane (debug_pane.rs:129-146 with lib.rs:613-624): three rows of the terminal are
the menu and two the border; what does not fit below is not drawn.  Every message is taken to be one
row. -/
def DebugLog.visible (d : DebugLog) (height : Nat) : List String := d.log.take (height - 5)

/-- The thread of the user interface: between two rounds, in `update_logs`, or ended. -/
inductive Ui
  | idle | draining | gone
  deriving DecidableEq, Repr

/-- The capacity of the channel (debug_pane.rs:27). -/
def channelSize : Nat := 1000

/-- The threads with what they have yet to log, the channel, the pane with the height of the terminal,
what it received, what was written on the standard error instead, and what was in the channel when the
user interface ended. -/
structure Pane where
  todo : List (List LogRecord)
  queue : List (Nat × String)
  ui : Ui
  height : Nat
  log : DebugLog
  received : List (Nat × String)
  printed : List (Nat × String)
  lost : List (Nat × String)
  deriving DecidableEq, Repr

/-- `DebugLog::new` in `start` (lib.rs:793-794). -/
def Pane.start (height rows : Nat) (todo : List (List LogRecord)) : Pane :=
  ⟨todo, [], .idle, height, ⟨[], rows⟩, [], [], []⟩

inductive PaneMove
  /-- thread `t` logs its next record -/
  | send (t : Nat)
  /-- what was on the standard error is taken to the pane -/
  | stderr (s : String)
  /-- `update_logs` starts, receives a message, finds the channel empty -/
  | begin
  | receive
  | finish
  /-- the terminal has another size -/
  | resize (rows : Nat)
  /-- the user quits -/
  | quit
  deriving DecidableEq, Repr

/-- `push_logs` of the subscriber (debug_pane.rs:84-89): waits while the channel is full; when there is
no receiver any more, the message is written on the standard error. -/
def Pane.push (s : Pane) (m : Nat × String) : Option Pane :=
  match s.ui with
  | .gone => some { s with printed := s.printed ++ [m] }
  | _ => if s.queue.length < channelSize then some { s with queue := s.queue ++ [m] } else none

/-- `Log::log` of the subscriber (debug_pane.rs:97-107), called by thread `t`. -/
def Pane.send (s : Pane) (t : Nat) : Option Pane :=
  match s.todo[t]? with
  | some (r :: rs) =>
    let s' := { s with todo := s.todo.set t rs }
    match r.message with
    | none => some s'
    | some m => s'.push (t, m)
  | _ => none

/-- One move, if it is possible: `update_debug_output` and `draw_debug_output` (debug_pane.rs:119-127 and
130-136), `update_logs` (debug_pane.rs:50-63), resizing and quitting (lib.rs:707-715; the receiver and
what is in the channel go with the user interface, lib.rs:803). -/
def Pane.step (s : Pane) : PaneMove → Option Pane
  | .send t => s.send t
  | .stderr e => if s.ui = .idle then some { s with log := s.log.push e } else none
  | .begin => if s.ui = .idle then some { s with ui := .draining } else none
  | .receive =>
    match s.ui, s.queue with
    | .draining, m :: q =>
      some { s with queue := q, log := s.log.receive m.2, received := s.received ++ [m] }
    | _, _ => none
  | .finish => if s.ui = .draining ∧ s.queue = [] then some { s with ui := .idle } else none
  | .resize n => if s.ui = .idle then some { s with height := n, log := { s.log with maxRows := n } } else none
  | .quit => if s.ui = .idle then some { s with ui := .gone, lost := s.queue, queue := [] } else none

/-- Any moves, one after the other. -/
def Pane.run (s : Pane) : List PaneMove → Option Pane
  | [] => some s
  | m :: ms =>
    match s.step m with
    | none => none
    | some s' => s'.run ms

end ConsoleMon
end Verif
