import Verif.Model.ConsoleKeys
/-! What the keys of the console should do. -/
namespace Verif
namespace ConsoleMon

/-- The screen the menu gives for a key. -/
def menu (pane : Bool) (c : Char) : Option Screen :=
  match c with
  | '1' => some .sysInfo
  | '2' => some .dag
  | '3' => some .latency
  | '4' => some .pools
  | '5' => if pane then some .debugOutput else none
  | _ => none

/-- The screens asked for, in order. -/
def asked (pane : Bool) (as : List Act) : List Screen :=
  as.filterMap (fun | .key c _ => menu pane c | _ => none)

/-- The screen that is shown after a history: the last one asked for, the information on the system at first. -/
def onScreen (pane : Bool) (as : List Act) : Screen := (asked pane as).getLast?.getD .sysInfo

/-- The user has not quit, and the terminal did not fail. -/
def Up (as : List Act) : Prop := ∀ a ∈ as, a ≠ .fails ∧ ∀ ctrl, a ≠ .key 'q' ctrl

/-- What an action means for the figures and the marks of errors, if it comes after `before`: the graph is seen if it is
on the screen, and `r` resets the figures if they are. -/
def meaning (pane : Bool) (before : List Act) : Act → Option Event
  | .iteration msgs => some (.iteration msgs)
  | .failure t p e => some (.failure t p e)
  | .stop => some .stop
  | .draw => if onScreen pane before = .dag then some .draw else none
  | .key c _ => if c = 'r' ∧ onScreen pane before = .latency then some .reset else none
  | .fails => none

/-- The history of the figures and marks. -/
def story (pane : Bool) (as : List Act) : List Event :=
  ((List.range as.length).zip as).filterMap (fun x => meaning pane (as.take x.1) x.2)

end ConsoleMon
end Verif
