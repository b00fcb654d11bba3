import Verif.Model.BincodeText
import Verif.Proofs.Bincode
/-! Round trip of text. -/
namespace Verif
namespace Bincode

theorem bytesToStr_strBytes (s : String) : bytesToStr? (strBytes s) = some s := by
  unfold bytesToStr? strBytes
  have : (⟨s.toByteArray.data.toList.toArray⟩ : ByteArray) = s.toByteArray := by simp
  rw [this]
  unfold String.fromUTF8?
  rw [dif_pos s.isValidUTF8]
  rfl

theorem strBytes_inj {a b : String} (h : strBytes a = strBytes b) : a = b := by
  have := bytesToStr_strBytes a
  rw [h, bytesToStr_strBytes] at this
  exact (Option.some.inj this).symm

theorem rt_string {s : String} (h : (strBytes s).length < 18446744073709551616) :
    RoundTrips s := by
  intro rest
  show (do let n ← decVar 8
           let b ← takeBytes n
           match bytesToStr? b with
           | some s => pure s
           | none => Dec.fail .utf8 : Dec String) _ = _
  show _ = Except.ok (s, rest)
  have e : (enc s : Bytes) ++ rest = encVar (strBytes s).length ++ (strBytes s ++ rest) := by
    show (encVar (strBytes s).length ++ strBytes s) ++ rest = _
    simp
  rw [e, Dec.bind_ok (decVar_encVar8 _ h _), Dec.bind_ok (takeBytes_append _ _),
    bytesToStr_strBytes]
  rfl

theorem charWidth_ofNat {k : Nat} (h : k < 256) : charWidth (UInt8.ofNat k) =
    if k < 128 then 1 else if k < 194 then 0 else if k < 224 then 2 else if k < 240 then 3 else if k < 245 then 4
    else 0 := by
  have e : (UInt8.ofNat k).toNat = k := by rw [UInt8.toNat_ofNat']; omega
  unfold charWidth
  simp only [UInt8.lt_iff_toNat_lt, e]
  rfl

theorem charWidth_encode (c : Char) : ∃ b r, String.utf8EncodeChar c = b :: r ∧ charWidth b = r.length + 1 := by
  have hc : c.val.toNat ≤ 0x10ffff := by
    rcases c.valid with h | ⟨_, h⟩ <;> omega
  unfold String.utf8EncodeChar
  simp only
  generalize c.val.toNat = v at hc ⊢
  split
  · refine ⟨_, _, rfl, ?_⟩
    rw [charWidth_ofNat (by omega)]
    simp only [List.length_nil]
    repeat' split
    all_goals omega
  · split
    · refine ⟨_, _, rfl, ?_⟩
      rw [charWidth_ofNat (by omega)]
      simp only [List.length_cons, List.length_nil]
      repeat' split
      all_goals omega
    · split
      · refine ⟨_, _, rfl, ?_⟩
        rw [charWidth_ofNat (by omega)]
        simp only [List.length_cons, List.length_nil]
        repeat' split
        all_goals omega
      · refine ⟨_, _, rfl, ?_⟩
        rw [charWidth_ofNat (by omega)]
        simp only [List.length_cons, List.length_nil]
        repeat' split
        all_goals omega

@[simp] theorem rt_char (c : Char) : RoundTrips c := by
  intro rest
  obtain ⟨b, r, h, hw⟩ := charWidth_encode c
  show (do
    let b ← byte
    if charWidth b = 0 then Dec.fail .utf8
    else do
      let r ← takeBytes (charWidth b - 1)
      match (⟨(b :: r).toArray⟩ : ByteArray).utf8DecodeChar? 0 with
      | some c => pure c
      | none => Dec.fail .utf8 : Dec Char) (String.utf8EncodeChar c ++ rest) = _
  rw [h, List.cons_append, Dec.bind_ok (a := b) (r := r ++ rest) rfl, if_neg (by omega),
    Dec.bind_ok (a := r) (r := rest) (by rw [hw, Nat.add_sub_cancel]; exact takeBytes_append _ _)]
  have e : (⟨(b :: r).toArray⟩ : ByteArray) = (String.utf8EncodeChar c).toByteArray ++ ByteArray.empty := by
    rw [← h]
    ext1
    simp
  rw [e, ByteArray.utf8DecodeChar?_utf8EncodeChar_append]
  rfl

end Bincode
end Verif
