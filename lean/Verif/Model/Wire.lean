import Verif.Model.BincodeText
import Verif.Model.CopperList
import Verif.Model.Message
/-!
The wire format of copper lists: core/cu29_runtime/src/copperlist.rs (derived codecs),
core/cu29_runtime/src/cutask.rs (messages) and the tuple of messages generated by
core/cu29_derive/src/lib.rs:1366-1410.
-/
namespace Verif
namespace Wire
open Bincode Clock CopperList
variable {P : Type}

/-- `Encode`/`Decode for CuCompactString` (cutask.rs:74-95): its bytes, as a vector; decoding
checks UTF-8. -/
def encStatus (s : String) : Bytes := enc (strBytes s)
def decStatus : Dec String := do
  let b ← (dec : Dec (List UInt8))
  match bytesToStr? b with
  | some s => pure s
  | none => Dec.fail .utf8

/-- Derived `Encode`/`Decode` of `CuMsgMetadata` (cutask.rs:97-108). -/
def encMeta (m : MsgMeta) : Bytes := enc m.processTime ++ (enc m.tov ++ encStatus m.statusTxt)
def decMeta : Dec MsgMeta := do
  let p ← (dec : Dec PartialCuTimeRange)
  let t ← (dec : Dec Tov)
  let s ← decStatus
  pure ⟨p, t, s⟩

/-- Derived `Encode`/`Decode` of `CuMsg<T>` (cutask.rs:126-136): the payload, the metadata.  `c` is
the codec of the payload type of this slot. -/
def encMsg (c : Codec P) (m : Msg P) : Bytes :=
  (match m.payload with
    | none => [0]
    | some p => 1 :: c.enc p) ++ encMeta m.md
def decMsg (c : Codec P) : Dec (Msg P) := do
  let b ← byte
  if b = 0 then do
    let md ← decMeta
    pure ⟨none, md⟩
  else if b = 1 then do
    let p ← c.dec
    let md ← decMeta
    pure ⟨some p, md⟩
  else Dec.fail .invalidVariant

/-- `Encode for CuMsgs` (cu29_derive/src/lib.rs:1366-1388): the messages in order, each with the
codec of its slot. -/
def encMsgs : List (Codec P) → List (Msg P) → Bytes
  | c :: cs, m :: ms => encMsg c m ++ encMsgs cs ms
  | _, _ => []
/-- `Decode for CuMsgs` (cu29_derive/src/lib.rs:1391-1410). -/
def decMsgs : List (Codec P) → Dec (List (Msg P))
  | [] => pure []
  | c :: cs => do
    let m ← decMsg c
    let ms ← decMsgs cs
    pure (m :: ms)

/-- Derived `Encode`/`Decode` of `CopperListState` (copperlist.rs:25-32): the number of the variant
as `u32`. -/
def stateIndex : CLState → Nat
  | .free => 0
  | .initialized => 1
  | .processing => 2
  | .doneProcessing => 3
  | .beingSerialized => 4
def decState : Dec CLState := do
  let n ← decVar 4
  if n = 0 then pure .free
  else if n = 1 then pure .initialized
  else if n = 2 then pure .processing
  else if n = 3 then pure .doneProcessing
  else if n = 4 then pure .beingSerialized
  else Dec.fail .invalidVariant

/-- Derived `Encode`/`Decode` of `CopperList` (copperlist.rs:46-51): id, state, messages. -/
def clCodec (slots : List (Codec P)) : Codec (CL (List (Msg P))) where
  enc cl := enc cl.id ++ (encVar (stateIndex cl.state) ++ encMsgs slots cl.msgs)
  dec := do
    let id ← (dec : Dec UInt32)
    let st ← decState
    let ms ← decMsgs slots
    pure ⟨id, st, ms⟩

end Wire
end Verif
