import Verif.Spec.Params
import Verif.Model.FpBits
import Verif.Model.ComponentNew
/-!
What a configuration gives a component: nothing for a parameter, or a value of the kind the component asks for.
-/
namespace Verif
namespace ComponentNew
open Params Fp

/-- An integer of the type, or nothing. -/
def IntAt (c : ComponentConfig) (t : IntTy) (key : String) : Option Nat → Prop
  | none => c.lookup key = none
  | some n => ∃ v, c.lookup key = some v ∧ v.integer? = some (n : Int) ∧ t.Has n

/-- A text, or nothing. -/
def TextAt (c : ComponentConfig) (key : String) : Option String → Prop
  | none => c.lookup key = none
  | some s => c.lookup key = some (.str s)

/-- `true`, `false`, or nothing. -/
def BoolAt (c : ComponentConfig) (key : String) : Option Bool → Prop
  | none => c.lookup key = none
  | some b => c.lookup key = some (.bool b)

/-- A number, or nothing: an integer, rounded to double precision, or a number in double precision. -/
def NumAt (c : ComponentConfig) (key : String) : Option Num → Prop
  | none => c.lookup key = none
  | some x => (∃ v i, c.lookup key = some v ∧ v.integer? = some i ∧ x = round f64 i) ∨
      ∃ b, c.lookup key = some (.number (.f64 b)) ∧ x = num64 b

/-- Two configurations that give the same for these parameters. -/
def Agree (keys : List String) (c c' : ComponentConfig) : Prop := ∀ k ∈ keys, c.lookup k = c'.lookup k

end ComponentNew
end Verif
