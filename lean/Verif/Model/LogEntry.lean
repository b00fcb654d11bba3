import Verif.Model.Basic
import Verif.Model.Value
/-!
Model of structured log entries: core/cu29_log/src/lib.rs (entry, wire format, rebuilding of a log
line), core/cu29_log_derive/src/lib.rs (`debug!`), core/cu29_log_runtime/src/lib.rs
(`log_debug_mode`), core/cu29_export/src/lib.rs (`textlog_dump`).
-/
namespace Verif
open Bincode

/-- `CuLogEntry` (cu29_log/src/lib.rs:22-34). -/
structure LogEntry where
  time : UInt64
  msgIndex : UInt32
  names : List UInt32
  params : List Value

/-- `Encode for CuLogEntry` (lib.rs:36-56). -/
def LogEntry.encode (e : LogEntry) : Bytes :=
  enc e.time ++ (enc e.msgIndex ++
    ((encVar e.names.length ++ encAll e.names) ++ (encVar e.params.length ++ encAll e.params)))

/-- `Decode for CuLogEntry` (lib.rs:58-84). -/
def LogEntry.decode : Dec LogEntry := do
  let time ← (dec : Dec UInt64)
  let msgIndex ← (dec : Dec UInt32)
  let n ← decVar 8
  let names ← decN (dec : Dec UInt32) n
  let m ← decVar 8
  let params ← decN (dec : Dec Value) m
  pure ⟨time, msgIndex, names, params⟩

instance : Codec LogEntry := ⟨LogEntry.encode, LogEntry.decode⟩

/-- `CuLogEntry::new` (lib.rs:98-107); the time is set when the entry is logged. -/
def LogEntry.new (time : UInt64) (msgIndex : UInt32) : LogEntry := ⟨time, msgIndex, [], []⟩

/-- `CuLogEntry::add_param` (lib.rs:111-114). -/
def LogEntry.addParam (e : LogEntry) (name : UInt32) (v : Value) : LogEntry :=
  { e with names := e.names ++ [name], params := e.params ++ [v] }

/-! ### Text -/

/-- Text, as its characters. -/
abbrev Text := List Char

/-- `str::replacen("{}", p, 1)`. -/
def replaceFirst (p : Text) : Text → Text
  | '{' :: '}' :: r => p ++ r
  | c :: r => c :: replaceFirst p r
  | [] => []

/-- A `HashMap<String, String>`: the bindings, the most recent first. -/
abbrev Bindings := List (Text × Text)

/-- `HashMap::get`. -/
def Bindings.get (b : Bindings) (n : Text) : Option Text :=
  match b with
  | [] => none
  | (m, v) :: b => if m = n then some v else Bindings.get b n

/-- `strfmt` (external crate) for placeholders that are only a name: `{name}` is replaced by its
value, `{{` and `}}` are one brace; an unknown name, an unbalanced brace is an error.  The first
argument is the name being read.  Formatting specifications behind a colon are not modelled, here
they are part of the name. -/
def strfmt (vars : Bindings) : Option Text → Text → Option Text
  | none, [] => some []
  | none, '{' :: '{' :: r => (strfmt vars none r).map ('{' :: ·)
  | none, '{' :: r => strfmt vars (some []) r
  | none, '}' :: '}' :: r => (strfmt vars none r).map ('}' :: ·)
  | none, '}' :: _ => none
  | none, c :: r => (strfmt vars none r).map (c :: ·)
  | some _, [] => none
  | some _, '{' :: _ => none
  | some n, '}' :: r =>
    match vars.get n with
    | none => none
    | some v => (strfmt vars none r).map (v ++ ·)
  | some n, c :: r => strfmt vars (some (n ++ [c])) r

/-- `format_logline` (lib.rs:118-143), with the text of the time; none is an error. -/
def formatLogline (time : Text) (fmt : Text) (params : List Text) (named : Bindings) : Option Text :=
  let fmt := params.foldl (fun f p => replaceFirst p f) fmt
  if named.isEmpty then some fmt
  else (strfmt named none fmt).map (fun l => time ++ [':', ' '] ++ l)

/-- The loop of `rebuild_logline` over the parameters (lib.rs:152-163): the anonymous ones in order,
the named ones; indexing beyond the names or beyond the strings panics. -/
def splitParams (shw : Value → Text) (strings : List Text) :
    List UInt32 → List Value → List Text → Bindings → Rs (List Text × Bindings)
  | _, [], anon, named => .ok (anon, named)
  | [], _ :: _, _, _ => .panic
  | i :: is, v :: vs, anon, named =>
    if i = 0 then splitParams shw strings is vs (anon ++ [shw v]) named
    else
      match strings[i.toNat]? with
      | none => .panic
      | some n => splitParams shw strings is vs anon ((n, shw v) :: named)

/-- `rebuild_logline` (lib.rs:147-165).  `shw` and `showTime` are the `Display` of values and
times. -/
def rebuildLogline (shw : Value → Text) (showTime : UInt64 → Text) (strings : List Text)
    (e : LogEntry) : Rs (Option Text) :=
  match strings[e.msgIndex.toNat]? with
  | none => .panic
  | some fmt =>
    match splitParams shw strings e.names e.params [] [] with
    | .panic => .panic
    | .ok (anon, named) => .ok (formatLogline (showTime e.time) fmt anon named)

/-! ### The `debug!` macro -/

/-- An argument of `debug!` after the format string: an expression, or `name = expression`. -/
inductive LogArg where
  | anon (v : Value)
  | named (n : Text) (v : Value)

def LogArg.isAnon : LogArg → Bool
  | .anon _ => true
  | .named _ _ => false

/-- The code generated by `debug!` (cu29_log_derive/src/lib.rs:34-121): the anonymous parameters
first, then the named ones.  `intern` gives the index of a string. -/
def debugEntry (intern : Text → UInt32) (time : UInt64) (fmt : Text) (args : List LogArg) :
    LogEntry :=
  let add (e : LogEntry) : LogArg → LogEntry
    | .anon v => e.addParam 0 v
    | .named n v => e.addParam (intern n) v
  ((args.filter LogArg.isAnon) ++ (args.filter (fun a => !a.isAnon))).foldl add
    (.new time (intern fmt))

/-- The bindings of `log_debug_mode` (cu29_log_runtime/src/lib.rs:146-158): the names, zipped with
the parameters. -/
def debugBindings : List Text → List Text → Bindings → Bindings
  | n :: ns, v :: vs, b => debugBindings ns vs ((n, v) :: b)
  | _, _, b => b

/-- The line a debug build also sends to the text logger (`log_debug_mode`,
cu29_log_runtime/src/lib.rs:132-171): all the parameters as anonymous ones, the names zipped with
them. -/
def debugLine (shw : Value → Text) (showTime : UInt64 → Text) (e : LogEntry) (fmt : Text)
    (names : List Text) : Option Text :=
  let params := e.params.map shw
  formatLogline (showTime e.time) fmt params (debugBindings names params [])

end Verif
