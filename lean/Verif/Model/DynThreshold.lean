import Verif.Model.Basic
/-!
The adaptive threshold: components/tasks/cu_dynthreshold/src/cu_dynthreshold_impl.rs.  Overflows of integers
panic (debug build); so does an access out of bounds, which is undefined behaviour in the code
(`get_unchecked`).
-/
namespace Verif
namespace Threshold

/-- `get_pixel` (l.18-23). -/
def getPixel {α : Type} (s : List α) (x y width : Nat) : Rs α := Rs.ofOption s[x + y * width]?

/-- `put_pixel` (l.28-32). -/
def putPixel {α : Type} (s : List α) (x y width : Nat) (v : α) : Rs (List α) :=
  if x + y * width < s.length then .ok (s.set (x + y * width) v) else .panic

/-- A u32 result. -/
def u32 (n : Nat) : Rs Nat := if n < 2 ^ 32 then .ok n else .panic

/-- The inner loop of `integral_image` (l.41-46) over the columns given. -/
def integralRow (src : List UInt8) (width y : Nat) : List Nat → Nat → List Nat → Rs (List Nat)
  | [], _, dst => .ok dst
  | x :: xs, sum, dst => do
    let p ← getPixel src x y width
    let sum ← u32 (sum + p.toNat)
    let above ← getPixel dst (x + 1) y (width + 1)
    let v ← u32 (above + sum)
    let dst ← putPixel dst (x + 1) (y + 1) (width + 1) v
    integralRow src width y xs sum dst

/-- The outer loop of `integral_image` (l.39-48) over the lines given. -/
def integralRows (src : List UInt8) (width : Nat) : List Nat → List Nat → Rs (List Nat)
  | [], dst => .ok dst
  | y :: ys, dst => do
    let dst ← integralRow src width y (List.range width) 0 dst
    integralRows src width ys dst

/-- `integral_image` (l.35-49). -/
def integralImage (src : List UInt8) (dst : List Nat) (width height : Nat) : Rs (List Nat) :=
  integralRows src width (List.range height) dst

/-- `sum_image_pixels` (l.51-68). -/
def sumImagePixels (integral : List Nat) (left top right bottom width : Nat) : Rs Nat := do
  let a ← getPixel integral (right + 1) (bottom + 1) width
  let b ← getPixel integral left top width
  let c ← getPixel integral (right + 1) top width
  let d ← getPixel integral left (bottom + 1) width
  let sum : Int := a + b - c - d
  if sum < 0 then .panic else .ok (sum.toNat % 2 ^ 32)

/-- `n as i32` for a u32 or usize. -/
def asI32 (n : Nat) : Int := ((n + 2 ^ 31) % 2 ^ 32 : Nat) - 2 ^ 31

/-- `max(0, y as i32 - block_radius as i32) as usize` (l.85, 89). -/
def low (y radius : Nat) : Rs Nat :=
  let d := asI32 y - asI32 radius
  if d < -2 ^ 31 ∨ 2 ^ 31 ≤ d then .panic else .ok (max 0 d).toNat

/-- `min(height - 1, y + block_radius as usize)` (l.86, 90). -/
def high (y radius size : Nat) : Nat := min (size - 1) (y + radius)

/-- `a - b + 1` for usize. -/
def span (a b : Nat) : Rs Nat := if a < b then .panic else .ok (a - b + 1)

/-- One pixel of `adaptive_threshold` (l.81-101). -/
def thresholdPixel (src : List UInt8) (integral : List Nat) (radius width height : Nat) (x y : Nat) : Rs UInt8 := do
  let current ← getPixel src x y width
  let yLow ← low y radius
  let yHigh := high y radius height
  let xLow ← low x radius
  let xHigh := high x radius width
  let h ← span yHigh yLow
  let w ← span xHigh xLow
  let w := (h * w) % 2 ^ 32
  let sum ← sumImagePixels integral xLow yLow xHigh yHigh (width + 1)
  let c ← u32 (current.toNat * w)
  .ok (if c > sum then 255 else 0)

/-- The loops of `adaptive_threshold` (l.79-103) over the pixels given. -/
def thresholdPixels (src : List UInt8) (integral : List Nat) (radius width height : Nat) :
    List (Nat × Nat) → List UInt8 → Rs (List UInt8)
  | [], dst => .ok dst
  | (x, y) :: xys, dst => do
    let v ← thresholdPixel src integral radius width height x y
    let dst ← putPixel dst x y width v
    thresholdPixels src integral radius width height xys dst

/-- The pixels line by line. -/
def coords (width height : Nat) : List (Nat × Nat) :=
  (List.range height).flatMap fun y => (List.range width).map fun x => (x, y)

/-- `adaptive_threshold` (l.70-104). -/
def adaptiveThreshold (src : List UInt8) (integral : List Nat) (dst : List UInt8) (radius width height : Nat) :
    Rs (List UInt8) :=
  if radius = 0 then .panic
  else thresholdPixels src integral radius width height (coords width height) dst

/-- `DynThreshold` (l.107-113), without its pool. -/
structure Task where
  integral : List Nat
  width : Nat
  height : Nat
  radius : Nat
deriving DecidableEq

/-- `new` (l.121-144), for u32 parameters. -/
def Task.new (width height radius : Nat) : Rs Task := do
  let _ ← u32 (width * height)
  let n ← u32 ((width + 1) * (height + 1))
  .ok ⟨List.replicate n 0, width, height, radius⟩

/-- `process` (l.146-206) with a payload, into a buffer of the pool with the content `dst`: `none` is the error
for an input of the wrong size. -/
def Task.process (t : Task) (src dst : List UInt8) : Rs (Task × Option (List UInt8)) :=
  if src.length ≠ t.width * t.height then .ok (t, none)
  else do
    let i ← integralImage src t.integral t.width t.height
    let out ← adaptiveThreshold src i dst t.radius t.width t.height
    .ok ({ t with integral := i }, some out)

end Threshold
end Verif
