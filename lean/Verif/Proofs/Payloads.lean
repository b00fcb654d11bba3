import Verif.Model.Payloads
import Verif.Props.Payload
/-!
Lemmas on the codecs of the payloads.
-/
namespace Verif
namespace Payloads
open Bincode Payload

theorem rt_array {T : Type} [Codec T] {n : Nat} {v : Vector T n} (h : ∀ x ∈ v.toList, RoundTrips x) :
    RoundTrips v := by
  intro rest
  show decArrayN T n (encArray v ++ rest) = _
  unfold decArrayN encArray
  have hl : v.toList.length = n := by simp
  have h1 := decN_encAll v.toList h rest
  rw [hl] at h1
  rw [Dec.bind_ok h1, dif_pos hl]
  have : (⟨v.toList.toArray, by simp⟩ : Vector T n) = v := by
    cases v; simp
  rw [Dec.pure_apply, this]

theorem rt_request {r : Msp.Request} (h : ∀ c, r = .setRawRc c → c.length = 16) (rest : Bytes) :
    decRequest (encRequest r ++ rest) = .ok (r, rest) := by
  unfold decRequest encRequest
  cases r with
  | setRawRc c =>
    have h1 : c.length = 16 := h c rfl
    have h2 := decN_encAll c (fun x _ => rt_u16 x) rest
    rw [h1] at h2
    simp only [List.append_assoc]
    rw [Dec.bind_ok (decVar_encVar4 3 (by omega) _)]
    simp only [show ¬ (3 = 0) by omega, show ¬ (3 = 1) by omega, show ¬ (3 = 2) by omega, if_false, if_true]
    rw [Dec.bind_ok h2]
    rfl
  | unknown => rw [Dec.bind_ok (decVar_encVar4 0 (by omega) _)]; rfl
  | batteryState => rw [Dec.bind_ok (decVar_encVar4 1 (by omega) _)]; rfl
  | rc => rw [Dec.bind_ok (decVar_encVar4 2 (by omega) _)]; rfl
  | rawImu => rw [Dec.bind_ok (decVar_encVar4 4 (by omega) _)]; rfl

end Payloads
end Verif
