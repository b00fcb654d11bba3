import Verif.Model.Export
/-!
Model of the structured log in a plain file: `SimpleFileWriter` and `OwningIoWriter`
(core/cu29_log_runtime/src/lib.rs:172-262), over `std::io::BufWriter` and `std::fs::File`, from the documentation and
the source of the standard library.
-/
namespace Verif
namespace LogFile
open Bincode

/-- What a call of `write` of the operating system does: it takes some of the bytes, is interrupted, fails, or is the
one before which the process is killed. -/
inductive Outcome where
  | wrote (n : Nat)
  | interrupted
  | failed
  | killed
  deriving DecidableEq, Repr

/-- What a call comes to. -/
inductive Res where
  | ok
  | err
  | killed
  deriving DecidableEq, Repr

/-- The file, and what the next writes do; after those, each write takes all of its bytes. -/
structure Disk where
  bytes : Bytes
  plan : List Outcome
  deriving DecidableEq, Repr

/-- The loops of `Write::write_all` of a file and of `BufWriter::flush_buf`: write what is left until nothing is, again
after an interruption; a write that takes nothing is an error.  Also gives the bytes that were not taken. -/
def writeLoop : List Outcome → Bytes → Bytes → Res × Bytes × Disk
  | [], file, data => (.ok, [], ⟨file ++ data, []⟩)
  | o :: plan, file, data =>
    if data = [] then (.ok, [], ⟨file, o :: plan⟩)
    else
      match o with
      | .interrupted => writeLoop plan file data
      | .failed => (.err, data, ⟨file, plan⟩)
      | .killed => (.killed, data, ⟨file, plan⟩)
      | .wrote n =>
        if n = 0 then (.err, data, ⟨file, plan⟩) else writeLoop plan (file ++ data.take n) (data.drop n)

/-- The size of the buffer of a `BufWriter::new`. -/
def capacity : Nat := 8192

/-- `OwningIoWriter` (lib.rs:173-176) of a file: the buffer of its `BufWriter`, and `bytes_written`. -/
structure Writer where
  disk : Disk
  buf : Bytes
  count : Nat
  deriving DecidableEq, Repr

/-- `SimpleFileWriter::new` (lib.rs:219-234) of a file that can be opened: what the file held before is gone. -/
def Writer.new (plan : List Outcome) : Writer := ⟨⟨[], plan⟩, [], 0⟩

/-- `BufWriter::flush_buf`: what was not written stays in the buffer. -/
def Writer.flushBuf (w : Writer) : Res × Writer :=
  let (r, rest, d) := writeLoop w.disk.plan w.disk.bytes w.buf
  (r, { w with disk := d, buf := rest })

/-- `BufWriter::write_all`, the end of `write_all_cold`: a piece as long as the buffer goes to the file. -/
def Writer.writeTail (w : Writer) (data : Bytes) : Res × Writer :=
  if capacity ≤ data.length then
    let (r, _, d) := writeLoop w.disk.plan w.disk.bytes data
    (r, { w with disk := d })
  else (.ok, { w with buf := w.buf ++ data })

/-- `BufWriter::write_all`. -/
def Writer.writeAll (w : Writer) (data : Bytes) : Res × Writer :=
  if data.length < capacity - w.buf.length then (.ok, { w with buf := w.buf ++ data })
  else if capacity - w.buf.length < data.length then
    match w.flushBuf with
    | (.ok, w) => w.writeTail data
    | (r, w) => (r, w)
  else w.writeTail data

/-- `OwningIoWriter::write` (lib.rs:199-208). -/
def Writer.write (w : Writer) (data : Bytes) : Res × Writer :=
  match w.writeAll data with
  | (.ok, w) => (.ok, { w with count := w.count + data.length })
  | (r, w) => (r, w)

/-- `SimpleFileWriter::log` (lib.rs:244-248): the encoder writes the encoding in some pieces, until one fails. -/
def Writer.log (w : Writer) : List Bytes → Res × Writer
  | [] => (.ok, w)
  | d :: ds =>
    match w.write d with
    | (.ok, w) => Writer.log w ds
    | (r, w) => (r, w)

/-- A call: `log` of an entry, whose encoding is written in these pieces, or `flush`. -/
inductive Call where
  | log (e : LogEntry) (pieces : List Bytes)
  | flush

/-- `SimpleFileWriter::log`, `flush` (lib.rs:242-257, 189-194); `File::flush` does nothing. -/
def Writer.step (w : Writer) : Call → Res × Writer
  | .log _ pieces => w.log pieces
  | .flush => w.flushBuf

/-- Any calls, until the process is killed: what each returned, and the writer. -/
def Writer.run (w : Writer) : List Call → List Res × Writer
  | [] => ([], w)
  | c :: cs =>
    match w.step c with
    | (.killed, w) => ([.killed], w)
    | (r, w) => (r :: (Writer.run w cs).1, (Writer.run w cs).2)

/-- `BufWriter::drop`: an error is ignored. -/
def Writer.drop (w : Writer) : Writer := w.flushBuf.2

end LogFile
end Verif
