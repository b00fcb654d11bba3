import Verif.Spec.AnyFile
import Verif.Spec.CrashExport
/-!
Vocabulary of C112: damage to the files of a log.
-/
namespace Verif
namespace ULog

/-- Where the content of a section is: its type, the number of the file, the first byte, the number of bytes. -/
structure Spot where
  type : EntryType
  file : Nat
  pos : Nat
  len : Nat
  deriving DecidableEq, Repr

/-- The bytes there. -/
def Spot.content (files : List Bytes) (p : Spot) : Bytes := ((files[p.file]?.getD []).drop p.pos).take p.len

/-- The byte `i` of the file `k` is one of them. -/
def Spot.Covers (p : Spot) (k i : Nat) : Prop := p.file = k ∧ p.pos ≤ i ∧ i < p.pos + p.len

/-- The contents of those of a type. -/
def contents (files : List Bytes) (t : EntryType) (spots : List Spot) : List Bytes :=
  (spots.filter (·.type == t)).map (·.content files)

/-- Bytes were changed, within these spots only. -/
def DamagedIn (spots : List Spot) (files files' : List Bytes) : Prop :=
  files'.length = files.length ∧ ∀ (k : Nat) file, files[k]? = some file → ∃ file', files'[k]? = some file' ∧
    file'.length = file.length ∧ ∀ i, (∀ p ∈ spots, ¬ p.Covers k i) → file'[i]? = file[i]?

/-- From the byte `n` of the file `k` on anything can have become of the files: other bytes, more, fewer or none, more
or fewer files. -/
def DamagedFrom (k n : Nat) (files files' : List Bytes) : Prop :=
  (∀ j, j < k → files'[j]? = files[j]?) ∧
    ∃ file file', files[k]? = some file ∧ files'[k]? = some file' ∧ n ≤ file.length ∧ file'.take n = file.take n

/-- The second of two spots begins behind the first one, and there is room for a header between them. -/
def Spot.Before (p q : Spot) : Prop := p.file < q.file ∨ p.file = q.file ∧ p.pos + p.len + 15 ≤ q.pos

end ULog
end Verif
