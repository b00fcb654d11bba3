import Verif.Model.UnifiedLogCrash
/-!
A process killed at any instant of an operation on its log: the effects of the operations of streams
(core/cu29_unifiedlog/src/lib.rs:64-134), in the order in which the code issues them.

The bytes of a store reach the memory map in the order in which the encoder produces them
(bincode writes a header field by field, an object piece by piece, each with a copy of a few bytes):
a killed process leaves an initial part of them.  `Model/UnifiedLogCrash` has the weaker assumption
that any part of them may be there, under which a new section header could be read with a size or a
content that was never written.
-/
namespace Verif
namespace ULog
open Bincode

/-- The files found if the process is killed in the middle of an effect. -/
def Effect.Cut : Effect → List Bytes → List Bytes → Prop
  | .store k off d, files, files' => ∃ j, files' = files.modify k (fun f => writeAt f off (d.take j))
  | _, files, files' => files' = files

/-- The files found if the process is killed during a sequence of effects, or at its end. -/
inductive KilledDuring : List Bytes → List Effect → List Bytes → Prop
  | done {files : List Bytes} : KilledDuring files [] files
  | cut {files files' : List Bytes} {e : Effect} {es : List Effect} (h : e.Cut files files') :
      KilledDuring files (e :: es) files'
  | next {files files' : List Bytes} {e : Effect} {es : List Effect}
      (h : KilledDuring (e.apply files) es files') : KilledDuring files (e :: es) files'

/-- A new section (lib.rs:511-541). -/
def addEffects (lg : Logger) (t : EntryType) (req : Nat) : List Effect :=
  gcEffects lg ++ headerEffects lg t req

/-- An object encoded into a section (lib.rs:91-92, 408-410). -/
def encodeEffects (h : Handle) (obj : List Bytes) : List Effect :=
  [.store h.slab (h.off + maxHeader + h.used) (fitChunks (h.req - (maxHeader + h.used)) obj).1]

/-- A section closed: its header is stored again, with the size of its content (lib.rs:291-306,
412-416). -/
def closeEffects (h : Handle) : List Effect :=
  [.store h.slab h.off (enc h.updateHeader.header)]

/-- The effects of `MmapStream::log` (lib.rs:90-126). -/
def Stream.logEffects (lg : Logger) (st : Stream) (obj : List Bytes) : List Effect :=
  encodeEffects st.section_ obj ++
    match encodeInto lg.files st.section_ obj with
    | .ok (files, h, false) =>
      closeEffects h ++
        (match Logger.flushSection { lg with files := files } h with
        | .panic => []
        | .ok lg =>
          addEffects lg st.entryType st.minAlloc ++
            (match lg.addSection st.entryType st.minAlloc with
            | .panic => []
            | .ok (_, h) => encodeEffects h obj))
    | _ => []

/-- The effects of an operation on streams. -/
def LogSys.effects (s : LogSys) : LogOp → List Effect
  | .openStream t n => addEffects s.lg t n
  | .log i obj =>
    match s.streams[i]? with
    | some (some st) => st.logEffects s.lg obj
    | _ => []
  | .drop i =>
    match s.streams[i]? with
    | some (some st) => closeEffects st.section_
    | _ => []

end ULog
end Verif
