import Verif.Spec.Render
import Verif.Spec.Params
import Verif.Spec.ShowValue
/-!
What the drawing of a configuration has to show of its parameters.
-/
namespace Verif
namespace Params
open Config Bincode Render

/-- The text says what the value is: an integer is read back from it, a text is itself. -/
def Says (fl : Floats) : RonValue → List Char → Prop
  | .bool b, t => t = (if b then "true" else "false").toList
  | .str s, t => t = s.toList
  | .other s, t => t = s.toList
  | .number (.f32 b), t => t = fl.f32 ⟨b⟩
  | .number (.f64 b), t => t = fl.f64 ⟨b⟩
  | v, t => (readInt t).isSome ∧ readInt t = v.integer?

/-- One line says one parameter. -/
def SaysParam (fl : Floats) (e : String × RonValue) (s : String × String) : Prop := s.1 = e.1 ∧ Says fl e.2 s.2.toList

/-- The lines of a task say its parameters. -/
def SaysParams (fl : Floats) : Option ComponentConfig → Option (List (String × String)) → Prop
  | none, none => True
  | some c, some l => Pointwise (SaysParam fl) c l
  | _, _ => False

/-- The box of a task: it has its number, its name, its type and its parameters. -/
def ShowsTask (fl : Floats) (i : Nat) (n : Node ComponentConfig) : Item → Prop
  | .box j _ shown => j = i ∧ ∃ t lines, n.type_ = some t ∧ SaysParams fl n.config lines ∧ shown = taskText n.id t lines
  | .arrow _ _ _ => False

/-- A value that is written without the characters of labels. -/
def PlainValue : RonValue → Prop
  | .str s => Plain s
  | .other s => Plain s
  | _ => True

/-- Tasks whose names, types, keys and texts are plain. -/
def PlainTask (n : Node ComponentConfig) : Prop :=
  Plain n.id ∧ (∀ t, n.type_ = some t → Plain t) ∧ ∀ c, n.config = some c → ∀ e ∈ c, Plain e.1 ∧ PlainValue e.2

/-- Numbers are written without these characters, which is so of the standard library. -/
def PlainFloats (fl : Floats) : Prop :=
  (∀ x, ∀ ch ∈ fl.f32 x, ch ≠ '<' ∧ ch ≠ '>' ∧ ch ≠ '&') ∧ ∀ x, ∀ ch ∈ fl.f64 x, ch ≠ '<' ∧ ch ≠ '>' ∧ ch ≠ '&'

end Params
end Verif
