import Verif.Model.Wire
import Verif.Spec.EndToEnd
import Verif.Proofs.Clock
import Verif.Proofs.BincodeText
import Verif.Proofs.LogLine
/-! Round trip of copper lists. -/
namespace Verif
namespace Wire
open Bincode Clock CopperList
variable {P : Type}

theorem strBytes_length (s : String) : (strBytes s).length = s.utf8ByteSize := by
  simp only [strBytes]
  rfl

theorem rt_status {s : String} (h : s.utf8ByteSize < 18446744073709551616) (rest : Bytes) :
    decStatus (encStatus s ++ rest) = .ok (s, rest) := by
  unfold decStatus encStatus
  rw [Dec.bind_ok (rt_list (by rw [strBytes_length]; exact h) (fun a _ => rt_u8 a) _)]
  rw [bytesToStr_strBytes]
  rfl

theorem rt_meta {m : MsgMeta} (h : m.statusTxt.utf8ByteSize < 18446744073709551616) (rest : Bytes) :
    decMeta (encMeta m ++ rest) = .ok (m, rest) := by
  unfold decMeta encMeta
  simp only [List.append_assoc]
  rw [Dec.bind_ok (rt_partialTimeRange _ _), Dec.bind_ok (rt_tov _ _), Dec.bind_ok (rt_status h _)]
  rfl

theorem rt_msg {c : Codec P} {m : Msg P}
    (hp : ∀ p, m.payload = some p → ∀ rest, c.dec (c.enc p ++ rest) = .ok (p, rest))
    (h : m.md.statusTxt.utf8ByteSize < 18446744073709551616) (rest : Bytes) :
    decMsg c (encMsg c m ++ rest) = .ok (m, rest) := by
  obtain ⟨o, md⟩ := m
  unfold decMsg encMsg
  cases o with
  | none =>
    simp only [List.cons_append, List.nil_append]
    rw [Dec.bind_ok (byte_cons _ _)]
    simp only [if_true]
    rw [Dec.bind_ok (rt_meta h _)]
    rfl
  | some p =>
    simp only [List.append_assoc, List.cons_append]
    rw [Dec.bind_ok (byte_cons _ _)]
    simp only [show ¬ ((1 : UInt8) = 0) by decide, if_false, if_true]
    rw [Dec.bind_ok (hp p rfl _), Dec.bind_ok (rt_meta h _)]
    rfl

theorem rt_msgs {slots : List (Codec P)} {ms : List (Msg P)}
    (h : Pointwise (fun c m => (∀ p, m.payload = some p → ∀ rest, c.dec (c.enc p ++ rest) = .ok (p, rest)) ∧
      m.md.statusTxt.utf8ByteSize < 18446744073709551616) slots ms) (rest : Bytes) :
    decMsgs slots (encMsgs slots ms ++ rest) = .ok (ms, rest) := by
  induction h with
  | nil => rfl
  | cons h1 _ ih =>
    unfold decMsgs encMsgs
    rw [List.append_assoc, Dec.bind_ok (rt_msg h1.1 h1.2 _), Dec.bind_ok ih]
    rfl

theorem rt_state (s : CLState) (rest : Bytes) :
    decState (encVar (stateIndex s) ++ rest) = .ok (s, rest) := by
  unfold decState
  rw [Dec.bind_ok (decVar_encVar4 _ (by cases s <;> decide) _)]
  cases s <;> rfl

theorem rt_cl {slots : List (Codec P)} {cl : CL (List (Msg P))} (h : Runtime.Typed slots cl) :
    @RoundTrips _ (clCodec slots) cl := by
  intro rest
  show (clCodec slots).dec ((clCodec slots).enc cl ++ rest) = _
  unfold clCodec
  simp only [List.append_assoc]
  rw [Dec.bind_ok (rt_u32 _ _), Dec.bind_ok (rt_state _ _), Dec.bind_ok (rt_msgs h _)]
  rfl

theorem cl_pos (slots : List (Codec P)) (cl : CL (List (Msg P))) :
    0 < ((clCodec slots).enc cl).length := by
  have : 0 < (enc cl.id).length := encVar_length_pos _
  show 0 < (enc cl.id ++ _).length
  rw [List.length_append]; omega

theorem cl_end (slots : List (Codec P)) : (clCodec slots).dec [] = .error .unexpectedEnd := rfl

end Wire
end Verif
