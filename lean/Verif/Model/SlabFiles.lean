import Verif.Model.UnifiedLogRead
/-!
Model of the files of a unified log in a directory (core/cu29_unifiedlog/src/lib.rs:150-215, 439-470,
564-605): the names of the slab files, what was there before, and the builder.

A directory is a list of files with distinct names.  File names are sequences of characters; a path
without a file name that is a string (`..`, `/`, not UTF-8) is `none`.  Failures of the file system
other than a missing file are not modelled.
-/
namespace Verif
namespace ULog
open Bincode

abbrev Name := List Char

/-- `str::split('.')`: the pieces between the dots, at least one. -/
def splitDots : Name → List Name
  | [] => [[]]
  | c :: cs =>
    if c = '.' then [] :: splitDots cs
    else
      match splitDots cs with
      | [] => [[c]]
      | p :: ps => (c :: p) :: ps

/-- `join(".")`. -/
def joinDots : List Name → Name
  | [] => []
  | [p] => p
  | p :: q :: ps => p ++ '.' :: joinDots (q :: ps)

/-- The file name built by `build_slab_path` (lib.rs:439-449) from the name of the base file: the last
piece is the extension, the number of the slab is put in front of it. -/
def slabName (base : Name) (i : Nat) : Name :=
  let pieces := splitDots base
  joinDots pieces.dropLast ++ '_' :: Nat.toDigits 10 i ++ '.' :: pieces.getLastD []

abbrev Dir := List (Name × Bytes)

/-- The content of a file. -/
def Dir.get (d : Dir) (n : Name) : Option Bytes := (d.find? (·.1 == n)).map (·.2)

/-- A file created, or truncated if it exists, and its content (lib.rs:451-463). -/
def Dir.put (d : Dir) (n : Name) (b : Bytes) : Dir := (n, b) :: d.filter (·.1 != n)

/-- The slab files a writer leaves, from slab `i` on (lib.rs:451-493: every slab is a file created or
truncated by the writer). -/
def Dir.putSlabs (d : Dir) (base : Name) : Nat → List Bytes → Dir
  | _, [] => d
  | i, f :: fs => (d.put (slabName base i) f).putSlabs base (i + 1) fs

/-- The slab files a reader can open one after the other from slab `i` on (lib.rs:564-605): at most
`n` of them. -/
def Dir.slabsFrom (d : Dir) (base : Name) : Nat → Nat → List Bytes
  | 0, _ => []
  | n + 1, i =>
    match d.get (slabName base i) with
    | none => []
    | some f => f :: d.slabsFrom base n (i + 1)

/-- All of them: there are no more than files in the directory. -/
def Dir.slabs (d : Dir) (base : Name) : List Bytes := d.slabsFrom base d.length 0

/-- `UnifiedLoggerBuilder` (lib.rs:151-156). -/
structure Builder where
  base : Option (Option Name)      -- `file_base_name`; its file name
  size : Option Nat                -- `preallocated_size`
  write : Bool
  create : Bool

/-- `UnifiedLoggerBuilder::new` (lib.rs:165-172). -/
def Builder.new : Builder := ⟨none, none, false, false⟩

/-- What `build` returns: a writer and the directory with its first slab, a reader, an error. -/
inductive Built where
  | writer (lg : Logger) (d : Dir)
  | reader (r : Reader)
  | error
  deriving DecidableEq

/-- `UnifiedLoggerBuilder::build` (lib.rs:194-214). -/
def Builder.build (page : Nat) (d : Dir) (b : Builder) : Rs Built :=
  if b.write && b.create then
    match b.base, b.size with
    | some (some base), some size =>
      match Logger.new size page with
      | .ok lg => .ok (.writer lg (d.putSlabs base 0 lg.files))
      | .panic => .panic
    | _, _ => .panic
  else
    match b.base with
    | none => .ok .error
    | some none => .panic
    | some (some base) =>
      match Reader.new (d.slabs base) with
      | .ok r => .ok (.reader r)
      | .err => .ok .error
      | .panic => .panic
      | .diverges => .panic

end ULog
end Verif
