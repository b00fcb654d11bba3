import Verif.Model.TextDumpMem
import Verif.Spec.LogLine
/-! Vocabulary of C113. -/
namespace Verif
open Bincode

/-- The lines printed. -/
def TextDump.lines : TextDump → List Text
  | .done ls _ => ls
  | .panicked ls => ls

/-- Whether it ended, with or without an error, other than by a panic. -/
def TextDump.ended : TextDump → Bool
  | .done _ _ => true
  | .panicked _ => false

/-- The strings of an entry are among those of the index, and it has a name index for each parameter. -/
structure LogEntry.Indexed (strings : List Text) (e : LogEntry) : Prop where
  msg : e.msgIndex.toNat < strings.length
  names : ∀ i ∈ e.names, i.toNat < strings.length
  params : e.params.length ≤ e.names.length

/-- The lines of entries: none for one that cannot be put together. -/
def linesOf (shw : Value → Text) (showTime : UInt64 → Text) (strings : List Text) (es : List LogEntry) : List Text :=
  es.flatMap fun e =>
    match rebuildLogline shw showTime strings e with
    | .ok (some l) => [showTime e.time ++ [':', ' '] ++ l]
    | _ => []

/-- The data are these entries, one after the other, and a rest. -/
inductive Entries : Bytes → List LogEntry → Bytes → Prop
  | nil {bs : Bytes} : Entries bs [] bs
  | cons {bs r rest : Bytes} {e : LogEntry} {es : List LogEntry} (h : (dec : Dec LogEntry) bs = .ok (e, r))
      (hs : Entries r es rest) : Entries bs (e :: es) rest

/-- The data of an entry say that it has `n` name indexes, which begin at `r`. -/
def NamesSaid (bs : Bytes) (n : Nat) (r : Bytes) : Prop :=
  ∃ time msg r1 r2, (dec : Dec UInt64) bs = .ok (time, r1) ∧ (dec : Dec UInt32) r1 = .ok (msg, r2) ∧
    decVar 8 r2 = .ok (n, r)

/-- They have that many and say then that there are `m` parameters. -/
def ParamsSaid (bs : Bytes) (m : Nat) : Prop :=
  ∃ n r names r1 r2, NamesSaid bs n r ∧ decN (dec : Dec UInt32) n r = .ok (names, r1) ∧ decVar 8 r1 = .ok (m, r2)

end Verif
