import Verif.Model.ExampleApps
/-!
What the example applications are to do.
-/
namespace Verif
namespace Examples
open Clock

/-- A clock that does not go back, and runs for less than 292 years. -/
structure Clocked (inp : Inputs) : Prop where
  mono : ∀ i j, i ≤ j → (inp.clock i).ns.toNat ≤ (inp.clock j).ns.toNat
  bound : ∀ i, (inp.clock i).ns.toNat < 2 ^ 63

/-- What each of the two sinks is to print in `n` turns: the integers from 43 and the floats from 25. -/
def lines (n : Nat) : List (Int32 × Fp.Num) :=
  (List.range n).map (fun k => (Int32.ofNat (43 + k), .fin ((25 + k : Nat) : Int)))

end Examples
end Verif
