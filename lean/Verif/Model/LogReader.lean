import Verif.Model.ListDumpMem
import Verif.Model.TextDumpMem
import Verif.Model.SlabFiles
import Verif.Model.UnifiedLogRead
/-!
The log reader program of a robot: `run_cli` (core/cu29_export/src/lib.rs:49-82) as called by the `main` of a log reader
(templates/cu_full/src/logreader.rs:10-13).  The parsing of the command line (external crate clap) is not modelled.
-/
namespace Verif
namespace LogReader
open Bincode ULog Wire CopperList
variable {P α : Type}

/-- `ExportFormat` (lib.rs:11-15). -/
inductive Format
  | json
  | csv
  deriving DecidableEq, Repr

/-- `Command` (lib.rs:38-47).  `index` is what `read_interned_strings` makes of the path: `none` is an error. -/
inductive Command
  | extractLog (index : Option (List Text))
  | extractCopperlist (format : Format)

/-- `Display for ExportFormat` (lib.rs:17-24). -/
def Format.show : Format → Text
  | .json => "json".toList
  | .csv => "csv".toList

/-- What a run of the program does: the lines it prints, and whether it ends with success.  An error returned by
`run_cli` is a panic of `main` (logreader.rs:12), which is a failure, as are the other panics. -/
structure Run where
  out : List Text
  ok : Bool
  deriving DecidableEq, Repr

def Run.cons (l : Text) (r : Run) : Run := ⟨l :: r.out, r.ok⟩

/-- How reading the log as a byte stream stops: it delivers nothing, the caller stops, an error, a panic, or a read that
does not return. -/
inductive Stop
  | eof
  | more
  | err
  | panic
  | diverges
  deriving DecidableEq, Repr

/-- What `UnifiedLoggerIOReader` (cu29_unifiedlog/src/lib.rs:718-736) delivers to buffers of these sizes, and how it
stops. -/
def pull (files : List Bytes) (t : EntryType) : IOReader → List Nat → Bytes × Stop
  | _, [] => ([], .more)
  | io, n :: ns =>
    match io.read files t n with
    | .ok ([], _) => ([], .eof)
    | .ok (d, io) => (d ++ (pull files t io ns).1, (pull files t io ns).2)
    | .err => ([], .err)
    | .panic => ([], .panic)
    | .diverges => ([], .diverges)

/-- How the program shows things: a list (`{:#?}`), an error of the decoder, an error of the reader, a line that could
not be put together, a value and a time in a line. -/
structure Shown (P : Type) where
  list : CL (List (Msg P)) → Text
  decodeError : DecodeError → Text
  ioError : Text
  failedLine : Text
  value : Value → Text
  time : UInt64 → Text

/-- The loop over `copperlists_dump` (lib.rs:74-77, 86-111): an error of the data or of the reader is printed and ends
it, like the end of the data. -/
def listsRun (sh : Shown P) (slots : List (Slot P)) (stop : Stop) : Nat → Bytes → Run
  | 0, _ => ⟨[], false⟩
  | fuel + 1, bs =>
    match clMem slots bs with
    | .panic => ⟨[], false⟩
    | .ok (.ok (cl, rest), _) => (listsRun sh slots stop fuel rest).cons (sh.list cl)
    | .ok (.error .unexpectedEnd, _) =>
      match stop with
      | .eof => ⟨[], true⟩
      | .err => ⟨[sh.ioError], true⟩
      | _ => ⟨[], false⟩
    | .ok (.error e, _) => ⟨[sh.decodeError e], true⟩

/-- `textlog_dump` (lib.rs:116-149): an error of the data or of the reader is printed and returned. -/
def textRun (sh : Shown P) (strings : List Text) (size : Nat) (stop : Stop) : Nat → Bytes → Run
  | 0, _ => ⟨[], false⟩
  | fuel + 1, bs =>
    match LogEntry.decodeMem size bs with
    | .panic => ⟨[], false⟩
    | .ok (.ok (entry, rest), _) =>
      if entry.msgIndex = 0 then ⟨[], true⟩
      else
        match rebuildLogline sh.value sh.time strings entry with
        | .panic => ⟨[], false⟩
        | .ok none => (textRun sh strings size stop fuel rest).cons sh.failedLine
        | .ok (some l) =>
          (textRun sh strings size stop fuel rest).cons (sh.time entry.time ++ [':', ' '] ++ l)
    | .ok (.error .unexpectedEnd, _) =>
      match stop with
      | .eof => ⟨[], true⟩
      | .err => ⟨[sh.ioError], false⟩
      | _ => ⟨[], false⟩
    | .ok (.error e, _) => ⟨[sh.decodeError e], false⟩

/-- `run_cli` (lib.rs:49-82): the log is opened first (a log that cannot be opened is a panic, lib.rs:56-63), the index
before anything is read.  `ns` are the sizes of the buffers of the decoder. -/
def runCli (sh : Shown P) (slots : List (Slot P)) (size page : Nat) (d : Dir) (base : Option Name) (cmd : Command)
    (ns : List Nat) : Run :=
  match ({ Builder.new with base := some base } : Builder).build page d, base with
  | .ok (.reader r), some base =>
    match cmd with
    | .extractLog none => ⟨[], false⟩
    | .extractLog (some strings) =>
      match pull (d.slabs base) .structuredLogLine (IOReader.new r) ns with
      | (bs, stop) => textRun sh strings size stop (bs.length + 1) bs
    | .extractCopperlist f =>
      match pull (d.slabs base) .copperList (IOReader.new r) ns with
      | (bs, stop) =>
        (listsRun sh slots stop (bs.length + 1) bs).cons ("Extracting copperlists with format: ".toList ++ f.show)
  | _, _ => ⟨[], false⟩

end LogReader
end Verif
