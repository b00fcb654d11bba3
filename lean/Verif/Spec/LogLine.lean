import Verif.Model.LogEntry
import Verif.Spec.Value
/-!
What the log line of a `debug!` call should be.
-/
namespace Verif

/-- An entry that can exist: sizes fit a machine word, values that can exist. -/
structure LogEntry.Legal (e : LogEntry) : Prop where
  names : e.names.length < 18446744073709551616
  params : e.params.length < 18446744073709551616
  values : ∀ v ∈ e.params, v.Legal

/-- A format string in pieces: plain text, a hole `{}`, a placeholder `{name}`. -/
inductive Piece where
  | text (t : Text)
  | hole
  | name (n : Text)

/-- The format string as it is written. -/
def Piece.render : List Piece → Text
  | [] => []
  | .text t :: ps => t ++ render ps
  | .hole :: ps => '{' :: '}' :: render ps
  | .name n :: ps => '{' :: n ++ '}' :: render ps

/-- No braces in a text. -/
def Braceless (t : Text) : Prop := '{' ∉ t ∧ '}' ∉ t

/-- Every opening brace is followed by another character than a closing one. -/
def Shut : Text → Prop
  | [] => True
  | c :: r => (c = '{' → ∃ d r', r = d :: r' ∧ d ≠ '}') ∧ Shut r

/-- Texts and names have no braces, names are not empty. -/
def Piece.Plain : Piece → Prop
  | .text t => Braceless t
  | .hole => True
  | .name n => Braceless n ∧ n ≠ []

/-- The texts of the arguments without a name, in order. -/
def anonTexts (shw : Value → Text) : List LogArg → List Text
  | [] => []
  | .anon v :: l => shw v :: anonTexts shw l
  | .named _ _ :: l => anonTexts shw l

/-- The text of the argument with this name. -/
def namedText (shw : Value → Text) (n : Text) : List LogArg → Option Text
  | [] => none
  | .anon _ :: l => namedText shw n l
  | .named m v :: l => if m = n then some (shw v) else namedText shw n l

/-- The names of the arguments, in order. -/
def argNames : List LogArg → List Text
  | [] => []
  | .anon _ :: l => argNames l
  | .named n _ :: l => n :: argNames l

/-- The line: the k-th hole holds the k-th argument without a name, a placeholder holds the argument
of that name. -/
def Piece.fill (named : Text → Option Text) : List Piece → List Text → Option Text
  | [], [] => some []
  | [], _ :: _ => none
  | .text t :: ps, as => (fill named ps as).map (t ++ ·)
  | .hole :: _, [] => none
  | .hole :: ps, a :: as => (fill named ps as).map (a ++ ·)
  | .name n :: ps, as =>
    match named n with
    | none => none
    | some v => (fill named ps as).map (v ++ ·)

/-- The k-th `{}` of any format string replaced by the k-th text, as many as there are texts. -/
def fillHoles : Text → List Text → Text
  | t, [] => t
  | '{' :: '}' :: r, p :: ps => p ++ fillHoles r ps
  | c :: r, p :: ps => c :: fillHoles r (p :: ps)
  | [], _ :: _ => []

/-- A string table in which the macro's indices are right: the format string and the names are found
at their index, which is not 0 for a name. -/
structure TableOk (intern : Text → UInt32) (strings : List Text) (fmt : Text) (args : List LogArg) :
    Prop where
  fmt : strings[(intern fmt).toNat]? = some fmt
  names : ∀ n ∈ argNames args, intern n ≠ 0 ∧ strings[(intern n).toNat]? = some n

end Verif
