import Verif.Model.Export
/-!
The decoder of log entries with the memory it asks for: core/cu29_log/src/lib.rs:58-84 makes room for as many
parameters as the data says before it has seen one of them.  The memory bincode's own decoders ask for (strings and
sequences within a value) is not modelled.
-/
namespace Verif
open Bincode

/-- `SmallVec::with_capacity(n)` (external crate smallvec 1.14) on a 64 bits machine: the bytes asked for on the heap.
Up to `stack` elements need none; more than `isize::MAX` bytes is a "capacity overflow" panic. -/
def withCapacity (stack size n : Nat) : Rs Nat :=
  if n ≤ stack then .ok 0 else if size * n ≤ 9223372036854775807 then .ok (size * n) else .panic

/-- `Decode for CuLogEntry` (cu29_log/src/lib.rs:58-84, 19): what it returns and the memory it asks for.  `size` is
the size of a `Value`. -/
def LogEntry.decodeMem (size : Nat) (bs : Bytes) : Rs (Except DecodeError (LogEntry × Bytes) × Nat) :=
  match (do let time ← (dec : Dec UInt64); let msg ← (dec : Dec UInt32); let n ← decVar 8; pure (time, msg, n) :
      Dec (UInt64 × UInt32 × Nat)) bs with
  | .error e => .ok (.error e, 0)
  | .ok ((time, msg, n), bs) =>
    match withCapacity 10 4 n with
    | .panic => .panic
    | .ok mem =>
      match (do let names ← decN (dec : Dec UInt32) n; let m ← decVar 8; pure (names, m) :
          Dec (List UInt32 × Nat)) bs with
      | .error e => .ok (.error e, mem)
      | .ok ((names, m), bs) =>
        match withCapacity 10 size m with
        | .panic => .panic
        | .ok mem' =>
          match decN (dec : Dec Value) m bs with
          | .error e => .ok (.error e, mem + mem')
          | .ok (params, bs) => .ok (.ok (⟨time, msg, names, params⟩, bs), mem + mem')

/-- `textlog_dump` (cu29_export/src/lib.rs:116-149), with at most `fuel` entries. -/
def textLoop (shw : Value → Text) (showTime : UInt64 → Text) (strings : List Text) (size : Nat) :
    Nat → Bytes → TextDump
  | 0, _ => .done [] false
  | fuel + 1, bs =>
    match LogEntry.decodeMem size bs with
    | .panic => .panicked []
    | .ok (.error e, _) => .done [] (e == .unexpectedEnd)
    | .ok (.ok (entry, rest), _) =>
      if entry.msgIndex = 0 then .done [] true
      else
        match rebuildLogline shw showTime strings entry with
        | .panic => .panicked []
        | .ok none => textLoop shw showTime strings size fuel rest
        | .ok (some l) =>
          .cons (showTime entry.time ++ [':', ' '] ++ l) (textLoop shw showTime strings size fuel rest)

/-- The dump of a text log: an entry takes at least one byte. -/
def textlogDumpMem (shw : Value → Text) (showTime : UInt64 → Text) (strings : List Text) (size : Nat) (bs : Bytes) :
    TextDump := textLoop shw showTime strings size (bs.length + 1) bs

end Verif
