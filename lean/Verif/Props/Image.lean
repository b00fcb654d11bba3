import Verif.Model.Image
import Verif.Proofs.Bincode
/-! C54: buffers and images survive being logged; an image has all the bytes its format announces. -/
namespace Verif
namespace Image
open Bincode Pool

/-- A buffer, pooled or not, decodes to a detached buffer with the same content, the decoder leaving
what follows. -/
theorem C54_buffer {E : Type} [Codec E] (i : Inner E) (hl : i.data.length < 18446744073709551616)
    (he : ∀ x ∈ i.data, RoundTrips x) (rest : Bytes) :
    decHandle E (encHandle i ++ rest) = .ok (.detached i.data, rest) := by
  have h : encHandle i = enc i.data := by cases i <;> rfl
  rw [h]
  unfold decHandle
  rw [Dec.bind_ok (rt_list hl he rest)]
  rfl

/-- An image decodes to an image with the same sequence number, format and bytes. -/
theorem C54_image (i : CuImage) (hl : i.buffer.data.length < 18446744073709551616) (rest : Bytes) :
    decImage (encImage i ++ rest) = .ok (⟨i.seq, i.format, .detached i.buffer.data⟩, rest) := by
  have h : encHandle i.buffer = enc i.buffer.data := by cases i.buffer <;> rfl
  have hf : ∀ rest, decFormat (encFormat i.format ++ rest) = .ok (i.format, rest) := by
    intro rest
    unfold encFormat decFormat
    simp only [List.append_assoc]
    rw [Dec.bind_ok (rt_u32 _ _), Dec.bind_ok (rt_u32 _ _), Dec.bind_ok (rt_u32 _ _),
      Dec.bind_ok (rt_pair (rt_u8 _) (rt_pair (rt_u8 _) (rt_pair (rt_u8 _) (rt_u8 _))) _)]
    rfl
  unfold encImage decImage
  rw [h]
  simp only [List.append_assoc]
  rw [Dec.bind_ok (rt_u64 _ _), Dec.bind_ok (hf _), Dec.bind_ok (rt_list hl (fun x _ => rt_u8 x) rest)]
  rfl

/-- Every byte of every line of an image made with `new` is in its buffer, before and after logging. -/
theorem C54_lines {f : Format} {b : Inner UInt8} {i : CuImage} (h : CuImage.new f b = .ok i)
    {line column : Nat} (hl : line < f.height.toNat) (hc : column < f.stride.toNat) :
    i.format = f ∧ line * f.stride.toNat + column < i.buffer.data.length := by
  unfold CuImage.new at h
  split at h
  · rename_i hle
    injection h with h
    subst h
    refine ⟨rfl, Nat.lt_of_lt_of_le ?_ hle⟩
    unfold Format.byteSize
    have : (line + 1) * f.stride.toNat ≤ f.height.toNat * f.stride.toNat :=
      Nat.mul_le_mul_right _ hl
    rw [Nat.add_mul] at this
    rw [Nat.mul_comm f.stride.toNat]
    omega
  · simp at h

/-- A 2 by 2 image in a pooled buffer that is longer than needed. -/
example : ∃ i, CuImage.new ⟨2, 2, 2, (71, 82, 69, 89)⟩ (.pooled 3 ⟨7, [1, 2, 3, 4, 5]⟩) = .ok i ∧
    decImage (encImage i ++ [9]) = .ok (⟨0, ⟨2, 2, 2, (71, 82, 69, 89)⟩, .detached [1, 2, 3, 4, 5]⟩, [9]) :=
  ⟨_, rfl, by rfl⟩

end Image
end Verif
