import Verif.Model.PowerThreads
/-!
Vocabulary of C114: a power failure of a robot.
-/
namespace Verif
namespace ULog

/-- The disk after the power failed when the maps were `files` and the disk was `disk`: files of the sizes of the
maps, in which the bytes that were the same in the map and on the disk still are (zero where there was no file).  The
others can be anything. -/
structure PowerFailed (files disk disk' : List Bytes) : Prop where
  len : disk'.length = files.length
  bytes : ∀ (k : Nat) f d', files[k]? = some f → disk'[k]? = some d' → d'.length = f.length ∧
    ∀ (i : Nat) b, f[i]? = some b → (((disk[k]?).getD [])[i]?).getD 0 = b → d'[i]? = some b

/-- None of the sections that streams had at the first moment is the section of a stream at the second one. -/
def Renewed (s s' : LogSys) : Prop :=
  ∀ st st', some st ∈ s.streams → some st' ∈ s'.streams →
    ¬ (st'.section_.slab = st.section_.slab ∧ st'.section_.off = st.section_.off)

end ULog
end Verif
