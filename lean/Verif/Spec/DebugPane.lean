import Verif.Model.DebugPane
import Verif.Spec.ConsoleMon
/-! What becomes of the lines of a thread. -/
namespace Verif
namespace ConsoleMon

/-- The messages of thread `t` in a list, in order. -/
def ofThread (t : Nat) (l : List (Nat × String)) : List String :=
  l.filterMap (fun m => if m.1 = t then some m.2 else none)

/-- The text a record is shown as, unless it is a trace. -/
def shownAs (r : LogRecord) : Option String :=
  match r.level with
  | .trace => none
  | .debug => some (r.time ++ " [DEBUG] - " ++ r.text ++ "\n")
  | .info => some (r.time ++ " [INFO] - " ++ r.text ++ "\n")
  | .warn => some (r.time ++ " [WARN] - " ++ r.text ++ "\n")
  | .error => some (r.time ++ " [ERROR] - " ++ r.text ++ "\n")

/-- A message of the logger that the pane received. -/
def lineOf : PaneEvent → Option String
  | .line x => some x
  | _ => none

/-- What the pane got from the standard error. -/
def stderrOf : PaneEvent → Option String
  | .stderr x => some x
  | _ => none

/-- What was on the standard error at a move. -/
def stderrAt : PaneMove → Option String
  | .stderr x => some x
  | _ => none

/-- The last `n` of a list. -/
def lastN (n : Nat) (l : List α) : List α := l.drop (l.length - n)

end ConsoleMon
end Verif
