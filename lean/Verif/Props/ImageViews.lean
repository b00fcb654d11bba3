import Verif.Model.ImageViews
import Verif.Spec.ImageViews
import Verif.Props.Image
/-!
C124: a view of an image shows its pixels and nothing else.
-/
namespace Verif
namespace Image
open Bincode Pool

/-- Images made with `new` have all their bytes, and so have they when they are read from a log. -/
theorem C124_whole {f : Format} {b : Inner UInt8} {i : CuImage} (h : CuImage.new f b = .ok i) {bpp : Nat}
    (hw : f.width.toNat * bpp ≤ f.stride.toNat) (hl : b.data.length < 18446744073709551616) (rest : Bytes) :
    Whole bpp i ∧ ∃ i', decImage (encImage i ++ rest) = .ok (i', rest) ∧ Whole bpp i' ∧
      ∀ x y, i'.pixel bpp x y = i.pixel bpp x y := by
  unfold CuImage.new at h
  split at h
  · rename_i hle
    injection h with h
    subst h
    exact ⟨⟨hle, hw⟩, _, C54_image _ hl rest, ⟨hle, hw⟩, fun _ _ => rfl⟩
  · cases h

theorem inside {i : CuImage} {bpp : Nat} (h : Whole bpp i) {x y : Nat} (hx : x < i.format.width.toNat)
    (hy : y < i.format.height.toNat) : y * i.format.stride.toNat + x * bpp + bpp ≤ i.buffer.data.length := by
  have h1 : (y + 1) * i.format.stride.toNat ≤ i.format.height.toNat * i.format.stride.toNat := Nat.mul_le_mul_right _ hy
  have h2 : (x + 1) * bpp ≤ i.format.width.toNat * bpp := Nat.mul_le_mul_right _ hx
  have := h.rows
  have := h.row
  rw [Nat.mul_comm] at h1
  rw [Nat.add_mul, Nat.one_mul] at h2
  rw [Nat.mul_comm i.format.height.toNat, Nat.mul_comm, Nat.add_mul, Nat.one_mul] at h1
  omega

/-- The detector of tags sees every pixel of a gray image, and reads nothing else, whatever the gaps between the rows.

Missing: images of 2³¹ bytes or more; images that do not have all their bytes (`C124_tags_violated`). -/
theorem C124_tags_partial {i : CuImage} (h : Whole 1 i)
    (hs : i.format.stride.toNat * i.format.height.toNat < 2147483648) (x y : Nat) :
    (tagView i).pixel x y = if x < i.format.width.toNat ∧ y < i.format.height.toNat then .bytes (i.pixel 1 x y) else
      .refused := by
  by_cases hb : 0 < i.format.width.toNat ∧ 0 < i.format.height.toNat
  · have hrow := h.row
    have h1 : i.format.stride.toNat * 1 ≤ i.format.stride.toNat * i.format.height.toNat := Nat.mul_le_mul_left _ hb.2
    have h2 : 1 * i.format.height.toNat ≤ i.format.stride.toNat * i.format.height.toNat :=
      Nat.mul_le_mul_right _ (by omega)
    have ew : asI32 i.format.width = i.format.width.toNat := by unfold asI32; rw [if_pos (by omega)]
    have eh : asI32 i.format.height = i.format.height.toNat := by unfold asI32; rw [if_pos (by omega)]
    have es : asI32 i.format.stride = i.format.stride.toNat := by unfold asI32; rw [if_pos (by omega)]
    simp only [tagView, TagView.pixel, ew, eh, es, Int.ofNat_lt]
    split
    · rename_i hin
      have hi := inside h hin.1 hin.2
      have hlt : y * i.format.stride.toNat + x < i.format.stride.toNat * i.format.height.toNat := by
        have : (y + 1) * i.format.stride.toNat ≤ i.format.height.toNat * i.format.stride.toNat :=
          Nat.mul_le_mul_right _ hin.2
        rw [Nat.add_mul, Nat.one_mul, Nat.mul_comm i.format.height.toNat] at this
        omega
      have ek : (y : Int) * (i.format.stride.toNat : Int) + (x : Int) = ((y * i.format.stride.toNat + x : Nat) : Int) := by
        rw [Int.natCast_add, Int.natCast_mul]
      rw [ek, if_pos (by omega), Int.toNat_natCast, readElems, if_pos (by omega), CuImage.pixel]
      simp only [Nat.mul_one]
    · rfl
  · have hn : ¬ (x < i.format.width.toNat ∧ y < i.format.height.toNat) := by omega
    rw [if_neg hn]
    have neg : ∀ (n : UInt32) (k : Nat), ¬ k < n.toNat → ¬ (k : Int) < asI32 n := by
      intro n k hk
      have := n.toNat_lt
      unfold asI32
      split <;> omega
    unfold TagView.pixel
    rw [if_neg]
    rintro ⟨a, b⟩
    apply hn
    exact ⟨Decidable.byContradiction fun hk => neg _ _ hk a, Decidable.byContradiction fun hk => neg _ _ hk b⟩

/-- A log with a damaged image, or an image whose rows are announced too short, makes it read memory that is not the
image's: neither decoding nor `new` looks. -/
theorem C124_tags_violated :
    (∃ bs i, decImage bs = .ok (i, []) ∧ (tagView i).pixel 0 0 = .outside) ∧
    ∃ f b i, CuImage.new f b = .ok i ∧ (tagView i).pixel 1 1 = .outside :=
  ⟨⟨encImage ⟨0, ⟨2, 2, 2, (71, 82, 69, 89)⟩, .detached []⟩, _, by rfl, by decide⟩,
    ⟨2, 2, 1, (71, 82, 69, 89)⟩, .detached [1, 2], _, rfl, by decide⟩

/-- For a gray image without gaps between its rows the crate `image` shows every pixel; with gaps, `as_image_buffer`
panics.

Missing: everything else (`C124_color_violated`, `C124_wide_violated`). -/
theorem C124_image_partial {i : CuImage} (h : Whole 1 i) :
    (i.format.width = i.format.stride → ∃ v, asImageBuffer 1 1 i = .ok (some v) ∧ ∀ x y, v.pixel x y =
      if x < i.format.width.toNat ∧ y < i.format.height.toNat then .bytes (i.pixel 1 x y) else .refused) ∧
    (i.format.width ≠ i.format.stride → asImageBuffer 1 1 i = .panic) := by
  refine ⟨fun hw => ?_, fun hw => by rw [asImageBuffer, if_pos hw]⟩
  have hr := h.rows
  rw [← hw] at hr
  refine ⟨_, by rw [asImageBuffer, if_neg (by simpa using hw), if_pos (by simpa using hr)], fun x y => ?_⟩
  unfold Flat.pixel
  dsimp only
  split
  · rename_i hin
    have := inside h hin.1 hin.2
    rw [← hw] at this
    rw [readElems, if_pos (by omega), CuImage.pixel, ← hw]
    simp only [Nat.mul_one]
  · rfl

/-- No image of colors can be seen so: if its rows have room for its pixels, `as_image_buffer` panics. -/
theorem C124_color_violated {i : CuImage} {channels : Nat} (hc : 1 < channels) (h : Whole channels i)
    (hw : 0 < i.format.width.toNat) (size : Nat) (means : PairMeans) :
    asImageBuffer channels size i = .panic ∧ asKorniaImage means channels size i = .panic := by
  have hne : i.format.width ≠ i.format.stride := by
    intro e
    have := h.row
    rw [← e] at this
    have h2 : i.format.width.toNat * 2 ≤ i.format.width.toNat * channels := Nat.mul_le_mul_left _ hc
    omega
  exact ⟨by rw [asImageBuffer, if_pos hne], by rw [asKorniaImage, if_pos hne]⟩

/-- With samples of two bytes, a view is given whose last pixel is beyond the end of the buffer, for every image that
has no more bytes than its format announces. -/
theorem C124_wide_violated {i : CuImage} (hw : i.format.width = i.format.stride)
    (hb : i.buffer.data.length = i.format.stride.toNat * i.format.height.toNat) (hpos : 0 < i.buffer.data.length) :
    ∃ v, asImageBuffer 1 2 i = .ok (some v) ∧
      v.pixel (i.format.width.toNat - 1) (i.format.height.toNat - 1) = .outside := by
  rw [← hw] at hb
  have hp := hpos
  rw [hb] at hp
  have h1 := Nat.pos_of_mul_pos_right hp
  have h2 := Nat.pos_of_mul_pos_left hp
  refine ⟨_, by rw [asImageBuffer, if_neg (by simpa using hw), if_pos (by rw [hb]; simp)], ?_⟩
  unfold Flat.pixel
  dsimp only
  rw [if_pos ⟨by omega, by omega⟩, readElems, if_neg]
  obtain ⟨w, ew⟩ : ∃ w, i.format.width.toNat = w + 1 := ⟨i.format.width.toNat - 1, by omega⟩
  obtain ⟨k, ek⟩ : ∃ k, i.format.height.toNat = k + 1 := ⟨i.format.height.toNat - 1, by omega⟩
  rw [ew, ek] at hb
  rw [hb, ew, ek]
  simp only [Nat.add_sub_cancel, Nat.mul_one]
  rw [Nat.mul_add (w + 1), Nat.mul_comm (w + 1) k]
  generalize k * (w + 1) = p
  omega

/-- The crate `kornia` shows every pixel of a gray image without gaps if it takes a pair of numbers for height and
width, or if the image is square.

Missing: everything else (`C124_color_violated`, `C124_kornia_violated`). -/
theorem C124_kornia_partial {i : CuImage} (h : Whole 1 i) (hw : i.format.width = i.format.stride) (means : PairMeans)
    (hm : means = .heightWidth ∨ i.format.width = i.format.height) :
    ∃ v, asKorniaImage means 1 1 i = .ok v ∧ ∀ x y, v.pixel x y =
      if x < i.format.width.toNat ∧ y < i.format.height.toNat then .bytes (i.pixel 1 x y) else .refused := by
  refine ⟨⟨i.format.width.toNat, i.format.height.toNat, 1, 1, i.buffer.data⟩, ?_, fun x y => ?_⟩
  · rw [asKorniaImage, if_neg (by simpa using hw)]
    rcases hm with rfl | hm
    · rfl
    · cases means <;> simp only [hm]
  · unfold Flat.pixel
    dsimp only
    split
    · rename_i hin
      have := inside h hin.1 hin.2
      rw [← hw] at this
      rw [readElems, if_pos (by omega), CuImage.pixel, ← hw]
      simp only [Nat.mul_one]
    · rfl

/-- If it takes it for width and height, the pixels of an image of three columns and two rows are elsewhere, and one is
refused.  And a view of three samples a pixel is given of a buffer of one sample a pixel: all but a third of it is
other memory. -/
theorem C124_kornia_violated :
    (∃ i v, Whole 1 i ∧ asKorniaImage .widthHeight 1 1 i = .ok v ∧ i.pixel 1 1 1 = [5] ∧ v.pixel 1 1 = .bytes [4] ∧
      i.pixel 1 2 0 = [3] ∧ v.pixel 2 0 = .refused) ∧
    ∀ means, ∃ f b i v, CuImage.new f b = .ok i ∧ asKorniaImage means 3 1 i = .ok v ∧ v.pixel 1 0 = .outside := by
  refine ⟨⟨⟨0, ⟨3, 2, 3, (71, 82, 69, 89)⟩, .detached [1, 2, 3, 4, 5, 6]⟩, _, ⟨by decide, by decide⟩, rfl, ?_⟩, fun means =>
    ⟨⟨2, 2, 2, (82, 71, 66, 51)⟩, .detached [1, 2, 3, 4], ⟨0, ⟨2, 2, 2, (82, 71, 66, 51)⟩, .detached [1, 2, 3, 4]⟩,
      ⟨2, 2, 3, 1, [1, 2, 3, 4]⟩, rfl, by cases means <;> rfl, by decide⟩⟩
  decide

/-- A gray image of two rows with a gap between them, in a buffer that is longer than needed. -/
example : ∃ i, CuImage.new ⟨2, 2, 3, (71, 82, 69, 89)⟩ (.pooled 3 ⟨7, [1, 2, 0, 3, 4, 0, 9]⟩) = .ok i ∧ Whole 1 i ∧
    [(0, 0), (1, 0), (0, 1), (1, 1), (2, 1)].map (fun p => (tagView i).pixel p.1 p.2) =
      [.bytes [1], .bytes [2], .bytes [3], .bytes [4], .refused] ∧ asImageBuffer 1 1 i = .panic :=
  ⟨_, rfl, ⟨by decide, by decide⟩, by decide, by decide⟩

/-- One without gap, and one of colors. -/
example : Whole 1 ⟨0, ⟨3, 2, 3, (71, 82, 69, 89)⟩, .detached [1, 2, 3, 4, 5, 6]⟩ ∧
    Whole 3 ⟨0, ⟨1, 2, 3, (82, 71, 66, 51)⟩, .detached [1, 2, 3, 4, 5, 6]⟩ ∧
    ((asImageBuffer 1 1 ⟨0, ⟨3, 2, 3, (71, 82, 69, 89)⟩, .detached [1, 2, 3, 4, 5, 6]⟩).map' fun v =>
      v.map fun v => v.pixel 1 1) = .ok (some (.bytes [5])) :=
  ⟨⟨by decide, by decide⟩, ⟨by decide, by decide⟩, by decide⟩

end Image
end Verif
