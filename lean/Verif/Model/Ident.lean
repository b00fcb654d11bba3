import Verif.Model.Basic
/-!
Identifiers generated from task names: core/cu29_derive/src/utils.rs.  The conversion of case is that of
the crate `convert_case` 0.8 (trusted).  Names are sequences of ASCII characters; `digits` tells whether
a change between letters and digits separates words, so that what is proved holds in both cases.
-/
namespace Verif
namespace Ident

/-- `convert_case`: delimiters, that are removed (`Boundary::{Underscore, Hyphen, Space}`). -/
def isDelim (c : Char) : Bool := c == '_' || c == '-' || c == ' '

/-- `convert_case`: words also end between `p` and `c`, followed by `next`
(`Boundary::{LowerUpper, Acronym}` and the boundaries between letters and digits). -/
def cut (digits : Bool) (p c : Char) (next : Option Char) : Bool :=
  (p.isLower && c.isUpper) || (p.isUpper && c.isUpper && next.any Char.isLower) ||
    (digits && ((p.isAlpha && c.isDigit) || (p.isDigit && c.isAlpha)))

/-- The end of a word (kept in reverse); empty words are dropped. -/
def flush : List Char → List (List Char)
  | [] => []
  | w => [w.reverse]

/-- `convert_case`: the words of a name; `w` is the current word in reverse. -/
def wordsFrom (digits : Bool) (w : List Char) : List Char → List (List Char)
  | [] => flush w
  | c :: cs =>
    if isDelim c then flush w ++ wordsFrom digits [] cs
    else
      match w with
      | [] => wordsFrom digits [c] cs
      | p :: _ => if cut digits p c cs.head? then flush w ++ wordsFrom digits [c] cs
        else wordsFrom digits (c :: w) cs

/-- `convert_case`: `Case::Snake`. -/
def toSnake (digits : Bool) (s : List Char) : List Char :=
  List.intercalate ['_'] ((wordsFrom digits [] s).map (·.map Char.toLower))

/-- First letter upper case, the others lower case. -/
def capital : List Char → List Char
  | [] => []
  | c :: cs => c.toUpper :: cs.map Char.toLower

/-- `convert_case`: `Case::Pascal`. -/
def toPascal (digits : Bool) (s : List Char) : List Char :=
  ((wordsFrom digits [] s).map capital).flatten

/-- Other characters than letters and digits become underscores (utils.rs:7-10, 23-26). -/
def clean (id : List Char) : List Char := id.map fun c => if c.isAlphanum then c else '_'

/-- A leading digit gets an underscore (utils.rs:14-16, 30-32). -/
def guardDigit (s : List Char) : List Char := if s.head?.any Char.isDigit then '_' :: s else s

/-- `config_id_to_enum` (utils.rs:6-19). -/
def configIdToEnum (digits : Bool) (id : List Char) : List Char := guardDigit (toPascal digits (clean id))

/-- `config_id_to_struct_member` (utils.rs:22-35). -/
def configIdToStructMember (digits : Bool) (id : List Char) : List Char :=
  guardDigit (toSnake digits (clean id))

end Ident
end Verif
