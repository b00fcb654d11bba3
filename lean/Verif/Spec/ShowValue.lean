import Verif.Spec.LogLine
import Verif.Spec.LogRuntime
import Verif.Model.ShowValue
/-!
Which values and which log lines can be read back from their text.
-/
namespace Verif
open Bincode

namespace Value

mutual
/-- No text with braces in it and no map without entries, at any depth. -/
def Clear : Value → Prop
  | .char c => c ≠ '{' ∧ c ≠ '}'
  | .str s => Braceless s.toList
  | .opt o => ClearOpt o
  | .newtype v => Clear v
  | .seq l => ClearSeq l
  | .map l => l ≠ [] ∧ ClearMap l
  | _ => True
def ClearOpt : Option Value → Prop
  | none => True
  | some v => Clear v
def ClearSeq : List Value → Prop
  | [] => True
  | v :: l => Clear v ∧ ClearSeq l
def ClearMap : List (Value × Value) → Prop
  | [] => True
  | (k, v) :: l => Clear k ∧ Clear v ∧ ClearMap l
end

mutual
/-- No text with braces in it and no map, at any depth. -/
def Bare : Value → Prop
  | .char c => c ≠ '{' ∧ c ≠ '}'
  | .str s => Braceless s.toList
  | .opt o => BareOpt o
  | .newtype v => Bare v
  | .seq l => BareSeq l
  | .map _ => False
  | _ => True
def BareOpt : Option Value → Prop
  | none => True
  | some v => Bare v
def BareSeq : List Value → Prop
  | [] => True
  | v :: l => Bare v ∧ BareSeq l
end

/-- Characters and strings, however wrapped. -/
def IsText : Value → Prop
  | .char _ => True
  | .str _ => True
  | .newtype v => IsText v
  | _ => False

mutual
/-- Two values the same argument of a call may have, except that texts, floats and times in them are the same. -/
def Alike : Value → Value → Prop
  | .bool _, .bool _ => True
  | .u8 _, .u8 _ => True
  | .u16 _, .u16 _ => True
  | .u32 _, .u32 _ => True
  | .u64 _, .u64 _ => True
  | .i8 _, .i8 _ => True
  | .i16 _, .i16 _ => True
  | .i32 _, .i32 _ => True
  | .i64 _, .i64 _ => True
  | .f32 a, .f32 b => a = b
  | .f64 a, .f64 b => a = b
  | .char a, .char b => a = b
  | .str a, .str b => a = b
  | .unit, .unit => True
  | .opt a, .opt b => AlikeOpt a b
  | .newtype a, .newtype b => Alike a b
  | .seq a, .seq b => AlikeSeq a b
  | .map a, .map b => AlikeMap a b
  | .bytes _, .bytes _ => True
  | .time a, .time b => a = b
  | _, _ => False
def AlikeOpt : Option Value → Option Value → Prop
  | some a, some b => Alike a b
  | _, _ => True
/-- Position by position, the lengths may differ (unless the elements are texts). -/
def AlikeSeq : List Value → List Value → Prop
  | [], [] => True
  | [], v :: _ => ¬ v.IsText
  | v :: _, [] => ¬ v.IsText
  | a :: l, b :: m => Alike a b ∧ AlikeSeq l m
/-- Likewise for the entries of maps. -/
def AlikeMap : List (Value × Value) → List (Value × Value) → Prop
  | [], [] => True
  | [], (k, _) :: _ => ¬ k.IsText
  | (k, _) :: _, [] => ¬ k.IsText
  | (k, v) :: l, (k', v') :: m => Alike k k' ∧ Alike v v' ∧ AlikeMap l m
end

end Value

/-- How a person reads an integer. -/
def readInt (t : Text) : Option Int :=
  let digits (d : Text) : Option Nat := if d ≠ [] ∧ d.all Char.isDigit then some (Nat.ofDigitChars 10 d 0) else none
  match t with
  | '-' :: d => (digits d).map fun n => -(n : Int)
  | d => (digits d).map fun n => (n : Int)

/-- A call of `debug!` as it was compiled: its format string, its arguments, and the indices that the macro put in
place of the format string and the names. -/
structure LogCall where
  intern : Text → UInt32
  fmt : Text
  args : List LogArg

/-- The entry made by a call, before the logger sets its time. -/
def LogCall.entry (c : LogCall) : LogEntry := debugEntry c.intern 0 c.fmt c.args

/-- The indices of a call are among those given by the compilers. -/
def LogCall.Compiled (given : List (String × Nat)) (c : LogCall) : Prop :=
  ∀ t ∈ c.fmt :: argNames c.args, (String.ofList t, (c.intern t).toNat) ∈ given

/-- What a call says, given how values are written: any format string whose holes are filled in order by values that
are not empty texts, have no braces in their texts and no empty maps; or plain text with holes and placeholders, filled
by values without braces and, in the placeholders, any values. -/
inductive LogCall.Says (shw : Value → Text) (c : LogCall) (line : Text) : Prop where
  | holes (vs : List Value) (args : c.args = vs.map .anon) (clear : ∀ v ∈ vs, v.Clear ∧ shw v ≠ [])
      (filled : line = fillHoles c.fmt (vs.map shw))
  | pieces (ps : List Piece) (fmt : c.fmt = Piece.render ps) (plain : ∀ q ∈ ps, q.Plain)
      (names : (argNames c.args).Nodup) (bare : ∀ v, .anon v ∈ c.args → v.Bare)
      (filled : Piece.fill (fun n => namedText shw n c.args) ps (anonTexts shw c.args) = some line)

/-- What the lines should be: each entry is that of a call that was made, and its line is what the call says, behind
its time (twice when there are named arguments). -/
def LineOf (fl : Floats) (acts : List LogRt.Act) (e : LogEntry) (l : Text) : Prop :=
  ∃ (th : Nat) (c : LogCall) (now : Nat → UInt64) (line : Text), .stamp th c.entry now ∈ acts ∧
    e = { c.entry with time := e.time } ∧ c.Says (Value.display fl) line ∧
    l = showTime e.time ++ [':', ' '] ++ ((if argNames c.args = [] then [] else showTime e.time ++ [':', ' ']) ++ line)

end Verif
