import Verif.Model.LogReader
import Verif.Spec.ListDumpMem
import Verif.Spec.TextDumpMem
/-! Vocabulary of C116. -/
namespace Verif
namespace LogReader
open Bincode ULog Wire CopperList
variable {P : Type}

/-- The first line of an export of lists. -/
def header (f : Format) : Text :=
  match f with
  | .json => "Extracting copperlists with format: json".toList
  | .csv => "Extracting copperlists with format: csv".toList

/-- The line of an entry. -/
def lineOf (sh : Shown P) (strings : List Text) (e : LogEntry) : Text :=
  match rebuildLogline sh.value sh.time strings e with
  | .ok (some l) => sh.time e.time ++ [':', ' '] ++ l
  | _ => sh.failedLine

/-- The log `base` of a directory can be opened. -/
def Opened (d : Dir) (base : Name) (r : Reader) : Prop := Reader.new (d.slabs base) = .ok r

end LogReader
end Verif
