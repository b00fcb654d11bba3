/-! Task names in the usual style: words joined by underscores. -/
namespace Verif
namespace Ident

/-- A word of lower case letters. -/
def LetterWord (w : List Char) : Prop := w ≠ [] ∧ ∀ c ∈ w, c.isLower = true
/-- A number. -/
def DigitWord (w : List Char) : Prop := w ≠ [] ∧ ∀ c ∈ w, c.isDigit = true

/-- Lower case words and numbers, no number directly after a number. -/
inductive Plain : List (List Char) → Prop
  | nil : Plain []
  | letters {w : List Char} {ws : List (List Char)} : LetterWord w → Plain ws → Plain (w :: ws)
  | digits {w : List Char} {ws : List (List Char)} : DigitWord w → Plain ws →
      (∀ v ∈ ws.head?, LetterWord v) → Plain (w :: ws)

/-- The name made of these words: `front_camera_2`. -/
def name (ws : List (List Char)) : List Char := List.intercalate ['_'] ws

end Ident
end Verif
