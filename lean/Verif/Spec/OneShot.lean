import Verif.Model.OneShot
import Verif.Spec.ExampleApps
/-!
What the examples that make one iteration do.
-/
namespace Verif
namespace Examples
open Clock CopperList Verif.Runtime

/-- The metadata of the task at place `t`: the clock is read twice for each task.  The status is what a zeroed
`CompactString` says, 24 characters of code zero. -/
def readings (inp : Inputs) (t : Nat) : MsgMeta :=
  ⟨⟨⟨inp.clock (2 * t)⟩, ⟨inp.clock (2 * t + 1)⟩⟩, .none, String.ofList (List.replicate 24 (Char.ofNat 0))⟩

/-- All that happens in one iteration: everything is started, in the order of the configuration and the monitor last;
42 goes from the source to the task, 43 from the task to the sink; the monitor sees the three readings, then the list
is logged; everything is stopped, the monitor last. -/
def once (inp : Inputs) : List (Ev Int32) :=
  [.called .start 0 [] none, .called .start 1 [] none, .called .start 2 [] none, .monStarted none,
   .called .preprocess 0 [] none, .called .preprocess 1 [] none, .called .preprocess 2 [] none, .created 0,
   .called .process 0 [] none, .left 0 ⟨some 42, readings inp 0⟩,
   .called .process 1 [⟨some 42, readings inp 0⟩] none, .left 1 ⟨some 43, readings inp 1⟩,
   .called .process 2 [⟨some 43, readings inp 1⟩] none, .left 2 ⟨none, readings inp 2⟩,
   .monitored [readings inp 0, readings inp 1, readings inp 2] none,
   .logged ⟨0, .beingSerialized, [⟨some 42, readings inp 0⟩, ⟨some 43, readings inp 1⟩, ⟨none, readings inp 2⟩]⟩,
   .called .postprocess 0 [] none, .called .postprocess 1 [] none, .called .postprocess 2 [] none,
   .called .stop 0 [] none, .called .stop 1 [] none, .called .stop 2 [] none, .monStopped none]

end Examples
end Verif
