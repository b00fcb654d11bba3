import Verif.Model.UnifiedLogRead
/-!
Vocabulary of C95: what files, whatever they contain, hold as a log.  Nothing here refers to the
reader: a log is a chain of sections, each of which says how far the next one is.
-/
namespace Verif
namespace ULog
open Bincode

/-- How far reading has come: the number of the file and the position in it. -/
abbrev Place := Nat × Nat

/-- The file begins with four bytes and two numbers, the first of which is `first`. -/
def MainAt (file : Bytes) (m0 m1 m2 m3 : UInt8) (first : Nat) : Prop :=
  ∃ b rest, ∃ off size : UInt16, file = m0 :: m1 :: m2 :: m3 :: b ∧
    (dec : Dec (UInt16 × UInt16)) b = .ok ((off, size), rest) ∧ off.toNat = first

/-- The first file begins as a log does, and says that its first section is at `first`. -/
def Opens (files : List Bytes) (first : Nat) : Prop :=
  ∃ file, files[0]? = some file ∧ MainAt file 0xB4 0xA5 0x50 0xFF first

/-- There is no file, or it begins in another way. -/
def NotALog (files : List Bytes) : Prop :=
  files = [] ∨ ∃ file m0 m1 m2 m3 first, files[0]? = some file ∧ MainAt file m0 m1 m2 m3 first ∧
    ¬ (m0 = 0xB4 ∧ m1 = 0xA5 ∧ m2 = 0x50 ∧ m3 = 0xFF)

/-- The first file is too short for its beginning, or the numbers are no numbers. -/
def NoBeginning (files : List Bytes) : Prop :=
  ∃ file, files[0]? = some file ∧ ∀ m0 m1 m2 m3 first, ¬ MainAt file m0 m1 m2 m3 first

/-- In the file there is at `off` a header: two bytes, a type, the distance to the next header and the
number of bytes of content. -/
def HeaderAt (file : Bytes) (off : Nat) (m0 m1 : UInt8) (ty : EntryType) (size filled : UInt32) : Prop :=
  ∃ b rest, file.drop off = m0 :: m1 :: b ∧
    (dec : Dec (EntryType × UInt32 × UInt32)) b = .ok ((ty, size, filled), rest)

/-- The next section of a place is there, or at the beginning of the next file at the end of a file. -/
def Next (files : List Bytes) (p q : Place) : Prop :=
  ∃ file, files[p.1]? = some file ∧
    (p.2 < file.length ∧ q = p ∨ file.length ≤ p.2 ∧ p.1 + 1 < files.length ∧ q = (p.1 + 1, 0))

/-- The section of the type `ty` found next from `p`. -/
def SectionAt (files : List Bytes) (p : Place) (ty : EntryType) (size filled : UInt32) (q : Place) (file : Bytes) :
    Prop :=
  Next files p q ∧ files[q.1]? = some file ∧ HeaderAt file q.2 0xFA 0x57 ty size filled

/-- From section to section: the contents of the ones of type `t`, in order. -/
inductive Chain (files : List Bytes) (t : EntryType) : Place → List Bytes → Place → Prop where
  | here (p : Place) : Chain files t p [] p
  | skip {p q e : Place} {ty : EntryType} {size filled : UInt32} {file : Bytes} {l : List Bytes} :
    SectionAt files p ty size filled q file → ty ≠ .lastEntry → ty ≠ t →
    Chain files t (q.1, q.2 + size.toNat) l e → Chain files t p l e
  | take {p q e : Place} {size filled : UInt32} {file : Bytes} {l : List Bytes} :
    SectionAt files p t size filled q file → t ≠ .lastEntry → q.2 + 15 + filled.toNat ≤ file.length →
    Chain files t (q.1, q.2 + size.toNat) l e →
    Chain files t p ((file.drop (q.2 + 15)).take filled.toNat :: l) e

/-- How a chain can end. -/
inductive EndKind where
  | marker     -- the end marker of a log
  | refused    -- no more file, or something that is not a section
  | broken     -- bytes that are no header, or a content that does not fit in the file
  | endless    -- a section that is its own successor
  deriving DecidableEq, Repr

/-- What is at the end of a chain. -/
inductive Ends (files : List Bytes) (t : EntryType) (p : Place) : EndKind → Prop where
  | marker {q : Place} {size filled : UInt32} {file : Bytes} :
    SectionAt files p .lastEntry size filled q file → Ends files t p .marker
  | noFile {file : Bytes} : files[p.1]? = some file → file.length ≤ p.2 → files.length ≤ p.1 + 1 →
    Ends files t p .refused
  | notSection {q : Place} {file : Bytes} {m0 m1 : UInt8} {ty : EntryType} {size filled : UInt32} :
    Next files p q → files[q.1]? = some file → HeaderAt file q.2 m0 m1 ty size filled →
    ¬ (m0 = 0xFA ∧ m1 = 0x57) → Ends files t p .refused
  | noHeader {q : Place} {file : Bytes} : Next files p q → files[q.1]? = some file →
    (∀ m0 m1 ty size filled, ¬ HeaderAt file q.2 m0 m1 ty size filled) → Ends files t p .broken
  | overrun {q : Place} {file : Bytes} {size filled : UInt32} : SectionAt files p t size filled q file →
    t ≠ .lastEntry → file.length < q.2 + 15 + filled.toNat → Ends files t p .broken
  | endless {q : Place} {file : Bytes} {ty : EntryType} {filled : UInt32} : SectionAt files p ty 0 filled q file →
    ty ≠ .lastEntry → (ty = t → q.2 + 15 + filled.toNat ≤ file.length) → Ends files t p .endless

/-- The files of a log of which the end is missing: some last files, and the end of the one in front
of them. -/
def CutOf (files' files : List Bytes) : Prop :=
  ∃ k file n, files[k]? = some file ∧ files' = files.take k ++ [file.take n]

end ULog
end Verif
