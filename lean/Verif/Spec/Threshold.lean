import Verif.Model.DynThreshold
/-! The threshold of an image pixel by pixel. -/
namespace Verif
namespace Threshold

/-- The pixel of an image of the given width. -/
def pixel (img : List UInt8) (width x y : Nat) : Nat := (img[x + y * width]?.getD 0).toNat

/-- Whether two coordinates differ by at most the radius. -/
def near (r a b : Nat) : Bool := a ≤ b + r && b ≤ a + r

/-- The values of the pixels of the image at most the radius away from `(x, y)` in both directions. -/
def window (img : List UInt8) (width height r x y : Nat) : List Nat :=
  ((List.range height).filter (near r y)).flatMap fun y' =>
    ((List.range width).filter (near r x)).map fun x' => pixel img width x' y'

/-- The pixel is strictly brighter than the mean of its window. -/
def Brighter (img : List UInt8) (width height r x y : Nat) : Prop :=
  pixel img width x y * (window img width height r x y).length > (window img width height r x y).sum

/-- `out` is the thresholded image. -/
def Thresholded (img : List UInt8) (width height r : Nat) (out : List UInt8) : Prop :=
  out.length = width * height ∧
  ∀ x y, x < width → y < height →
    (Brighter img width height r x y → pixel out width x y = 255) ∧
    (¬ Brighter img width height r x y → pixel out width x y = 0)

/-- Images, with the contents of the buffers they are written to, processed one after the other: the outputs. -/
def Task.run (t : Task) : List (List UInt8 × List UInt8) → Rs (List (Option (List UInt8)))
  | [] => .ok []
  | (src, dst) :: xs => do
    let (t, o) ← t.process src dst
    let os ← t.run xs
    .ok (o :: os)

end Threshold
end Verif
