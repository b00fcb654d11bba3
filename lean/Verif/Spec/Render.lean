import Verif.Model.Config
import Verif.Model.Basic
/-!
A reader of the dot files copper draws, and the drawing a configuration should have.  Labels are
"HTML strings" of the dot language: they go from a `<` to the matching `>`; what is shown is their text
without the tags, with the character references replaced.
-/
namespace Verif
namespace Render
open Config

/-- The text from after an opening `<` to the matching `>`, at nesting depth `d`, and what follows. -/
def htmlEnd : Nat → List Char → Option (List Char × List Char)
  | _, [] => none
  | d, c :: cs =>
    if c = '<' then (htmlEnd (d + 1) cs).map fun r => (c :: r.1, r.2)
    else if c = '>' then
      match d with
      | 0 => some ([], cs)
      | d + 1 => (htmlEnd d cs).map fun r => (c :: r.1, r.2)
    else (htmlEnd d cs).map fun r => (c :: r.1, r.2)

/-- The text outside the tags (`true`: inside a tag). -/
def outside : Bool → List Char → List Char
  | _, [] => []
  | false, c :: cs => if c = '<' then outside true cs else c :: outside false cs
  | true, c :: cs => if c = '>' then outside false cs else outside true cs

/-- The character references replaced. -/
def unescape : List Char → List Char
  | '&' :: 'a' :: 'm' :: 'p' :: ';' :: cs => '&' :: unescape cs
  | '&' :: 'l' :: 't' :: ';' :: cs => '<' :: unescape cs
  | '&' :: 'g' :: 't' :: ';' :: cs => '>' :: unescape cs
  | c :: cs => c :: unescape cs
  | [] => []

/-- A label: what is shown, and what follows. -/
def label : List Char → Option (List Char × List Char)
  | '<' :: cs => (htmlEnd 0 cs).map fun r => (unescape (outside false r.1), r.2)
  | _ => none

/-- A literal. -/
def lit : List Char → List Char → Option (List Char)
  | [], s => some s
  | _ :: _, [] => none
  | c :: cs, d :: ds => if c = d then lit cs ds else none

/-- A decimal number. -/
def number (s : List Char) : Nat × List Char :=
  (Nat.ofDigitChars 10 (s.takeWhile Char.isDigit) 0, s.dropWhile Char.isDigit)

/-- What is drawn. -/
inductive Item where
  | box (n : Nat) (colour shown : List Char)
  | arrow (src dst : Nat) (shown : List Char)
  deriving DecidableEq, Repr

/-- A box. -/
def readBox (n : Nat) (s : List Char) : Option (Item × List Char) := do
  let s ← lit " [\nshape=box,\nstyle=\"rounded, filled\",\nfontname=\"Noto Sans\"\nfillcolor=".toList s
  let colour := s.takeWhile (· != ',')
  let s ← lit ",\ncolor=grey,\nlabeljust=l,\nlabel=".toList (s.dropWhile (· != ','))
  let (t, s) ← label s
  let s ← lit "\n];\n".toList s
  some (.box n colour t, s)

/-- An arrow. -/
def readArrow (n : Nat) (s : List Char) : Option (Item × List Char) := do
  let s ← lit " -> ".toList s
  let (m, s) := number s
  let s ← lit " [label=".toList s
  let (t, s) ← label s
  let s ← lit "];\n".toList s
  some (.arrow n m t, s)

/-- At most `k` items, up to the closing brace. -/
def readItems : Nat → List Char → Option (List Item)
  | k, s =>
    if s = "}\n".toList then some []
    else
      match k with
      | 0 => none
      | k + 1 =>
        match (readBox (number s).1 (number s).2).or (readArrow (number s).1 (number s).2) with
        | none => none
        | some (i, s) => (readItems k s).map (i :: ·)

/-- A dot file. -/
def readDot (s : List Char) : Option (List Item) := do
  let s ← lit "digraph G {\n".toList s
  readItems s.length s

/-- The parameters as shown: one per line. -/
def paramLines : List (String × String) → List Char
  | [] => []
  | [e] => e.1.toList ++ " = ".toList ++ e.2.toList
  | e :: f :: es => e.1.toList ++ " = ".toList ++ e.2.toList ++ "\n".toList ++ paramLines (f :: es)

/-- The parameters of a task, under a line. -/
def paramText : Option (List (String × String)) → List Char
  | none => []
  | some c => "____________".toList ++ paramLines c

/-- The text of a task: its name, its type in brackets, its parameters. -/
def taskText (id type : String) (config : Option (List (String × String))) : List Char :=
  " ".toList ++ id.toList ++ " [".toList ++ type.toList ++ "]".toList ++
    paramText config ++ " ".toList

/-- Sources (no input) are green, sinks (no output) blue, the others grey. -/
def IsColour (c : CuConfig (List (String × String))) (i : Nat) (colour : List Char) : Prop :=
  ((∀ e ∈ c.edges, e.dst ≠ i) ∧ colour = "lightgreen".toList) ∨
  ((∃ e ∈ c.edges, e.dst = i) ∧ (∀ e ∈ c.edges, e.src ≠ i) ∧ colour = "lightblue".toList) ∨
  ((∃ e ∈ c.edges, e.dst = i) ∧ (∃ e ∈ c.edges, e.src = i) ∧ colour = "lightgrey".toList)

/-- The item of a task. -/
def IsBox (c : CuConfig (List (String × String))) (i : Nat) (n : Node (List (String × String))) : Item → Prop
  | .box j colour shown => j = i ∧ IsColour c i colour ∧ ∃ t, n.type_ = some t ∧ shown = taskText n.id t n.config
  | .arrow _ _ _ => False

/-- The item of a connection. -/
def IsArrow (e : Edge) : Item → Prop
  | .arrow s d shown => s = e.src ∧ d = e.dst ∧ shown = " ".toList ++ e.cnx.msg.toList ++ " ".toList
  | .box _ _ _ => False

/-- The drawing of a configuration: a box for each task, in order, with its number, then an arrow for each
connection. -/
def Draws (c : CuConfig (List (String × String))) (items : List Item) : Prop :=
  ∃ boxes arrows, items = boxes ++ arrows ∧
    Pointwise (fun n b => IsBox c n.2 n.1 b) c.nodes.zipIdx boxes ∧ Pointwise IsArrow c.edges arrows

/-- Text without the characters that have a meaning in labels. -/
def Plain (s : String) : Prop := ∀ ch ∈ s.toList, ch ≠ '<' ∧ ch ≠ '>' ∧ ch ≠ '&'

/-- Tasks whose names, types and parameters are plain. -/
def PlainNode (n : Node (List (String × String))) : Prop :=
  Plain n.id ∧ (∀ t, n.type_ = some t → Plain t) ∧
    ∀ c, n.config = some c → ∀ e ∈ c, Plain e.1 ∧ Plain e.2

end Render
end Verif
