import Verif.Model.Image
/-!
Views of an image as one of the crates `image` and `kornia`, and of the detector of tags:
components/payloads/cu_sensor_payloads/src/image.rs:70-117 and components/tasks/cu_apriltag/src/lib.rs:211-228.
All of them read the buffer through a pointer to its first byte, outside the lock of its handle; here nobody writes to it
meanwhile.
-/
namespace Verif
namespace Image
open Pool

/-- What comes of reading a pixel through a view. -/
inductive Seen where
  /-- these bytes -/
  | bytes (b : List UInt8)
  /-- the view has no such pixel -/
  | refused
  /-- memory that is not the buffer's: undefined behaviour -/
  | outside
  deriving DecidableEq, Repr

/-- `n` elements of `size` bytes from the `i`th on, in a buffer that starts here. -/
def readElems (size : Nat) (data : List UInt8) (i n : Nat) : Seen :=
  if (i + n) * size ≤ data.length then .bytes ((data.drop (i * size)).take (n * size)) else .outside

/-- A view of rows without gaps between them: `ImageBuffer` of the crate `image`, `Image` of the crate `kornia`. -/
structure Flat where
  width : Nat
  height : Nat
  /-- samples of a pixel -/
  channels : Nat
  /-- bytes of a sample -/
  size : Nat
  data : List UInt8
  deriving DecidableEq, Repr

/-- Reading a pixel: `ImageBuffer::get_pixel` of the crate `image`, all samples of a pixel in `kornia`. -/
def Flat.pixel (v : Flat) (x y : Nat) : Seen :=
  if x < v.width ∧ y < v.height then readElems v.size v.data ((y * v.width + x) * v.channels) v.channels else .refused

/-- `as_image_buffer` (image.rs:74-90) for pixels of `channels` samples of `size` bytes.  The slice it makes has as many
samples as the buffer has bytes (image.rs:85), and `ImageBuffer::from_raw` compares its length with the samples needed;
`none` is the error. -/
def asImageBuffer (channels size : Nat) (i : CuImage) : Rs (Option Flat) :=
  if i.format.width ≠ i.format.stride then .panic
  else if channels * i.format.width.toNat * i.format.height.toNat ≤ i.buffer.data.length then
    .ok (some ⟨i.format.width.toNat, i.format.height.toNat, channels, size, i.buffer.data⟩)
  else .ok none

/-- What the crate `kornia` takes a pair of numbers for, when it is a size. -/
inductive PairMeans where
  | widthHeight
  | heightWidth
  deriving DecidableEq, Repr

/-- `as_kornia_image` (image.rs:92-116): the pair is height and width (image.rs:114), no length is compared.
Simplification: the number of samples fits a `usize`. -/
def asKorniaImage (means : PairMeans) (channels size : Nat) (i : CuImage) : Rs Flat :=
  if i.format.width ≠ i.format.stride then .panic
  else
    let pair := (i.format.height.toNat, i.format.width.toNat)
    match means with
    | .widthHeight => .ok ⟨pair.1, pair.2, channels, size, i.buffer.data⟩
    | .heightWidth => .ok ⟨pair.2, pair.1, channels, size, i.buffer.data⟩

/-- `as i32`. -/
def asI32 (n : UInt32) : Int := if n.toNat < 2147483648 then n.toNat else (n.toNat : Int) - 4294967296

/-- `image_u8_t` of the detector. -/
structure TagView where
  width : Int
  height : Int
  stride : Int
  data : List UInt8
  deriving DecidableEq, Repr

/-- `image_from_cuimage` (cu_apriltag/src/lib.rs:211-228). -/
def tagView (i : CuImage) : TagView :=
  ⟨asI32 i.format.width, asI32 i.format.height, asI32 i.format.stride, i.buffer.data⟩

/-- The detector reads `buf[y * stride + x]`, an `int`; it looks at those within the width and the height. -/
def TagView.pixel (v : TagView) (x y : Nat) : Seen :=
  if (x : Int) < v.width ∧ (y : Int) < v.height then
    let k := (y : Int) * v.stride + x
    if 0 ≤ k ∧ k < 2147483648 then readElems 1 v.data k.toNat 1 else .outside
  else .refused

end Image
end Verif
