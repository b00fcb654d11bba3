import Verif.Model.UnifiedLogCrash
/-!
The disk behind the memory maps of a log (core/cu29_unifiedlog/src/lib.rs:235-274, 291-317), for power
failures.  The kernel writes bytes of a map back to the disk at any time and in any order.  `flush_until`
asks for a range of a map to be written back (`flush_async_range`): `durable` says whether this has
happened when the operation ends.  The creation of a file and its size are on the disk at once.
-/
namespace Verif
namespace ULog

/-- Up to where a slab was asked to be written back: what its entry says while it is mapped
(lib.rs:268-274), and then its whole file (lib.rs:237). -/
def Logger.flushedOf (lg : Logger) (k : Nat) : Nat :=
  match lg.mapped.find? (fun sl => sl.suffix == k) with
  | some sl => sl.flushed
  | none => ((lg.files[k]?).getD []).length

/-- The disk after an operation: files as long as they are, new parts zero, the bytes that the operation
asked for written back if flushing is durable. -/
def diskAfter (durable : Bool) (old new : Logger) (disk : List Bytes) : List Bytes :=
  new.files.mapIdx fun k file => file.mapIdx fun i b =>
    if durable && decide (old.flushedOf k ≤ i) && decide (i < new.flushedOf k) then b
    else (((disk[k]?).getD [])[i]?).getD 0

/-- Some bytes of the maps are written back. -/
structure WrittenBack (files disk disk' : List Bytes) : Prop where
  len : disk'.length = disk.length
  torn : ∀ (k : Nat) f d, files[k]? = some f → disk[k]? = some d → ∃ d', disk'[k]? = some d' ∧ TornBytes d f d'

/-- A log in use and what is on the disk. -/
inductive Powered (durable : Bool) (page slabSize : Nat) : SecSys → List Bytes → Prop
  | new {lg : Logger} (h : Logger.new slabSize page = .ok lg) :
      Powered durable page slabSize ⟨lg, []⟩ [List.replicate slabSize 0]
  | step {s s' : SecSys} {disk : List Bytes} {op : SecOp} (hs : Powered durable page slabSize s disk)
      (hop : SecOpOk page slabSize op) (h : s.step op = .ok s') :
      Powered durable page slabSize s' (diskAfter durable s.lg s'.lg disk)
  | writeBack {s : SecSys} {disk disk' : List Bytes} (hs : Powered durable page slabSize s disk)
      (h : WrittenBack s.lg.files disk disk') : Powered durable page slabSize s disk'

/-- The disk after the power failed when the maps were `files`: files of the same sizes, in which some of
the bytes are those of the maps and the others the ones that were on the disk, zero where there was no
file. -/
structure PowerLost (files disk disk' : List Bytes) : Prop where
  len : disk'.length = files.length
  bytes : ∀ (k : Nat) f d', files[k]? = some f → disk'[k]? = some d' → d'.length = f.length ∧
    ∀ i, i < f.length → d'[i]? = f[i]? ∨ d'[i]? = some ((((disk[k]?).getD [])[i]?).getD 0)

end ULog
end Verif
