import Verif.Model.LogEntry
/-!
Model of core/cu29_export/src/lib.rs: reading a log as a stream of objects.
The source (`impl Read`) is the bytes it delivers.
-/
namespace Verif
open Bincode

/-- Repeated `decode_from_std_read` until the first error: what was decoded, the error.  At most
`fuel` objects. -/
def decodeStream {α : Type} (d : Dec α) : Nat → Bytes → List α × DecodeError
  | 0, _ => ([], .other)
  | fuel + 1, bs =>
    match d bs with
    | .error e => ([], e)
    | .ok (a, rest) =>
      let (l, e) := decodeStream d fuel rest
      (a :: l, e)

/-- `copperlists_dump` (lib.rs:85-109): the objects up to the first error, whatever the error.  An
object takes at least one byte, so there are no more than bytes. -/
def dumpObjects {α : Type} [Codec α] (bs : Bytes) : List α :=
  (decodeStream (dec : Dec α) (bs.length + 1) bs).1

/-- What `textlog_dump` prints and how it ends. -/
inductive TextDump where
  /-- The lines printed; whether the result is `Ok`. -/
  | done (lines : List Text) (ok : Bool)
  /-- The lines printed before a panic. -/
  | panicked (lines : List Text)

def TextDump.cons (l : Text) : TextDump → TextDump
  | .done ls ok => .done (l :: ls) ok
  | .panicked ls => .panicked (l :: ls)

/-- The loop of `textlog_dump` (lib.rs:118-147) over the entries: it ends at an entry whose message
index is 0; an entry that cannot be rebuilt prints no line of its own. -/
def textLines (shw : Value → Text) (showTime : UInt64 → Text) (strings : List Text) (ok : Bool) :
    List LogEntry → TextDump
  | [] => .done [] ok
  | e :: es =>
    if e.msgIndex = 0 then .done [] true
    else
      match rebuildLogline shw showTime strings e with
      | .panic => .panicked []
      | .ok none => textLines shw showTime strings ok es
      | .ok (some l) =>
        .cons (showTime e.time ++ [':', ' '] ++ l) (textLines shw showTime strings ok es)

/-- `textlog_dump` (lib.rs:116-149): the end of the data ends the dump, another error is
reported. -/
def textlogDump (shw : Value → Text) (showTime : UInt64 → Text) (strings : List Text) (bs : Bytes) :
    TextDump :=
  let (es, e) := decodeStream (dec : Dec LogEntry) (bs.length + 1) bs
  textLines shw showTime strings (e == .unexpectedEnd) es

end Verif
