import Verif.Model.Fp
/-!
What is expected of a conversion.
-/
namespace Verif
namespace ReadingsFp
open Fp

/-- The number is `q` up to a millionth. -/
def IsAbout (x : Num) (q : Rat) : Prop := ∃ v : Rat, x = .fin v ∧ |v - q| ≤ |q| / 1000000

/-- Greater readings are converted to greater numbers: none are confused. -/
def Ordered {α : Type} (value : α → Int) (f : α → Num) : Prop :=
  ∀ a b, value a < value b → (f a).lt (f b) = true

end ReadingsFp
end Verif
