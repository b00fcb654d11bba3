import Verif.Model.Clock
/-!
Model of the message types of core/cu29_runtime/src/cutask.rs:70-174.
-/
namespace Verif
open Clock

/-- `CuMsgMetadata` (cutask.rs:97-108).  `status_txt` is a short string. -/
structure MsgMeta where
  processTime : PartialCuTimeRange
  tov : Tov
  statusTxt : String
  deriving DecidableEq, Repr

/-- derived `Default` of the metadata parts: no times, no status. -/
def MsgMeta.default : MsgMeta := ⟨.default, .none, ""⟩

/-- `CuMsg<T>` (cutask.rs:126-136). -/
structure Msg (P : Type) where
  payload : Option P
  md : MsgMeta
  deriving DecidableEq, Repr

variable {P : Type}

/-- `CuMsg::new` (cutask.rs:153-158). -/
def Msg.new (payload : Option P) : Msg P := ⟨payload, .default⟩
/-- `set_payload` (cutask.rs:163-165). -/
def Msg.setPayload (m : Msg P) (p : P) : Msg P := { m with payload := some p }
/-- `clear_payload` (cutask.rs:167-169): only the payload is cleared. -/
def Msg.clearPayload (m : Msg P) : Msg P := { m with payload := none }
/-- `msg.metadata.process_time.start = t.into()` (core/cu29_derive/src/lib.rs:710). -/
def Msg.setStart (m : Msg P) (t : CuTime) : Msg P :=
  { m with md := { m.md with processTime := { m.md.processTime with start := .ofTime t } } }
/-- `msg.metadata.process_time.end = t.into()` (core/cu29_derive/src/lib.rs:716). -/
def Msg.setStop (m : Msg P) (t : CuTime) : Msg P :=
  { m with md := { m.md with processTime := { m.md.processTime with stop := .ofTime t } } }

end Verif
