import Verif.Model.UnifiedLogKill
import Verif.Model.UnifiedLogConc
/-!
A process several threads of which use one log, killed at any instant
(core/cu29_unifiedlog/src/lib.rs:55-134): one thread at most has the lock, the others may be encoding
objects into the sections of their streams.
-/
namespace Verif
namespace ULog
open Bincode

/-- The files found if the process is killed while threads perform these effects, each its own in
order: at any moment one of the threads stores the first bytes of its current store, or completes its
current effect.  (The bytes a thread stored stay: it may have stored them in several steps.) -/
inductive KilledTogether : List Bytes → List (List Effect) → List Bytes → Prop
  | kill {files : List Bytes} {ths : List (List Effect)} : KilledTogether files ths files
  | part {files files₁ files' : List Bytes} {ths : List (List Effect)} {i : Nat} {e : Effect} {es : List Effect}
      (hi : ths[i]? = some (e :: es)) (hc : e.Cut files files₁) (h : KilledTogether files₁ ths files') :
      KilledTogether files ths files'
  | next {files files' : List Bytes} {ths : List (List Effect)} {i : Nat} {e : Effect} {es : List Effect}
      (hi : ths[i]? = some (e :: es)) (h : KilledTogether (e.apply files) (ths.set i es) files') :
      KilledTogether files ths files'

/-- The effects of `MmapStream::log` from the lock on (lib.rs:100-117). -/
def Stream.retryEffects (lg : Logger) (st : Stream) (obj : List Bytes) : List Effect :=
  closeEffects st.section_ ++
    (match lg.flushSection st.section_ with
    | .panic => []
    | .ok lg =>
      addEffects lg st.entryType st.minAlloc ++
        (match lg.addSection st.entryType st.minAlloc with
        | .panic => []
        | .ok (_, h) => encodeEffects h obj))

/-- The effects of an action of a thread. -/
def ConcSys.effects (c : ConcSys) : ConcOp → List Effect
  | .openStream t n => addEffects c.sys.lg t n
  | .begin_ i obj =>
    match c.sys.streams[i]? with
    | some (some st) => encodeEffects st.section_ obj
    | _ => []
  | .finish i =>
    match c.waiting i, c.sys.streams[i]? with
    | some obj, some (some st) => st.retryEffects c.sys.lg obj
    | _, _ => []
  | .drop i =>
    match c.sys.streams[i]? with
    | some (some st) => closeEffects st.section_
    | _ => []

end ULog
end Verif
