import Verif.Model.Image
/-! What the pixels of an image are. -/
namespace Verif
namespace Image

/-- The buffer has all the bytes that the format announces, and a row all its pixels of this many bytes. -/
structure Whole (bpp : Nat) (i : CuImage) : Prop where
  rows : i.format.stride.toNat * i.format.height.toNat ≤ i.buffer.data.length
  row : i.format.width.toNat * bpp ≤ i.format.stride.toNat

/-- The pixel in column `x` of row `y`: rows start `stride` bytes apart, pixels have `bpp` bytes. -/
def CuImage.pixel (bpp : Nat) (i : CuImage) (x y : Nat) : List UInt8 :=
  (i.buffer.data.drop (y * i.format.stride.toNat + x * bpp)).take bpp

end Image
end Verif
