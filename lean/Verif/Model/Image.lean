import Verif.Model.Pool
/-!
Images: components/payloads/cu_sensor_payloads/src/image.rs.  The conversions to the `image` and
`kornia` crates are in `Model/ImageViews`.
-/
namespace Verif
namespace Image
open Bincode Pool

/-- `CuImageBufferFormat` (image.rs:14-20). -/
structure Format where
  width : UInt32
  height : UInt32
  stride : UInt32
  pixelFormat : UInt8 × UInt8 × UInt8 × UInt8
  deriving DecidableEq, Repr

/-- `byte_size` (image.rs:22-26): the product of two `u32` always fits a 64 bit `usize`. -/
def Format.byteSize (f : Format) : Nat := f.stride.toNat * f.height.toNat

/-- `CuImage` (image.rs:28-36); the content of the allocation behind its handle. -/
structure CuImage where
  seq : UInt64
  format : Format
  buffer : Inner UInt8
  deriving DecidableEq, Repr

/-- `CuImage::new` (image.rs:57-68): an assertion on the size of the buffer. -/
def CuImage.new (format : Format) (buffer : Inner UInt8) : Rs CuImage :=
  if format.byteSize ≤ buffer.data.length then .ok ⟨0, format, buffer⟩ else .panic

/-- Derived codec of the format; `[u8; 4]` has no length. -/
def encFormat (f : Format) : Bytes :=
  enc f.width ++ (enc f.height ++ (enc f.stride ++ enc f.pixelFormat))
def decFormat : Dec Format := do
  let w ← (dec : Dec UInt32)
  let h ← (dec : Dec UInt32)
  let s ← (dec : Dec UInt32)
  let p ← (dec : Dec (UInt8 × UInt8 × UInt8 × UInt8))
  pure ⟨w, h, s, p⟩

/-- Derived `Encode` (image.rs:28) and `Decode` (image.rs:38-51). -/
def encImage (i : CuImage) : Bytes := enc i.seq ++ (encFormat i.format ++ encHandle i.buffer)
def decImage : Dec CuImage := do
  let seq ← (dec : Dec UInt64)
  let format ← decFormat
  let buffer ← (dec : Dec (List UInt8))
  pure ⟨seq, format, .detached buffer⟩

end Image
end Verif
