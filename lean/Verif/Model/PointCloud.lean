import Verif.Model.Basic
import Verif.Model.Bincode
/-!
Sorting of point clouds (components/payloads/cu_sensor_payloads/src/pointcloud.rs:152-191).
`PointCloudSoa<N>` is generated by `#[derive(Soa)]`: a length and one array of `N` values per field.
-/
namespace Verif
namespace PointCloud
open Bincode

/-- `PointCloudSoa<N>` (pointcloud.rs:81-89 and the derive): the arrays have `N` elements, `len` of
which are points.  Coordinates are `f32` bit patterns. -/
structure Cloud where
  len : Nat
  tov : List UInt64
  x : List F32
  y : List F32
  z : List F32
  i : List F32
  returnOrder : List UInt8
  deriving DecidableEq, Repr

/-- `slice.swap(a, b)`: panics out of bounds. -/
def swapAt {α : Type} (l : List α) (a b : Nat) : Rs (List α) :=
  match l[a]?, l[b]? with
  | some va, some vb => .ok ((l.set a vb).set b va)
  | _, _ => .panic

/-- `swap` (pointcloud.rs:184-190): `return_order` is not swapped. -/
def Cloud.swap (c : Cloud) (a b : Nat) : Rs Cloud := do
  let tov ← swapAt c.tov a b
  let x ← swapAt c.x a b
  let y ← swapAt c.y a b
  let z ← swapAt c.z a b
  let i ← swapAt c.i a b
  pure { c with tov := tov, x := x, y := y, z := z, i := i }

/-- The loop of `partition` (pointcloud.rs:173-178): `k` more values of `j`. -/
def partLoop (pivot : UInt64) : Nat → Nat → Nat → Cloud → Rs (Cloud × Nat)
  | 0, _, i, c => .ok (c, i)
  | k + 1, j, i, c =>
    match c.tov[j]? with
    | none => .panic
    | some t =>
      if t ≤ pivot then
        match c.swap i j with
        | .panic => .panic
        | .ok c => partLoop pivot k (j + 1) (i + 1) c
      else partLoop pivot k (j + 1) i c

/-- `partition` (pointcloud.rs:170-181). -/
def Cloud.partition (c : Cloud) (low high : Nat) : Rs (Cloud × Nat) :=
  match c.tov[high]? with
  | none => .panic
  | some pivot =>
    match partLoop pivot (high - low) low low c with
    | .panic => .panic
    | .ok (c, i) =>
      match c.swap i high with
      | .panic => .panic
      | .ok c => .ok (c, i)

/-- `quicksort` (pointcloud.rs:159-167), with a bound on the depth of the recursion: reaching it is
a panic.  `sort` gives it the number of elements. -/
def quicksort : Nat → Nat → Nat → Cloud → Rs Cloud
  | 0, _, _, _ => .panic
  | fuel + 1, low, high, c =>
    if low < high then
      match c.partition low high with
      | .panic => .panic
      | .ok (c, p) =>
        match (if p > 0 then quicksort fuel low (p - 1) c else .ok c) with
        | .panic => .panic
        | .ok c => quicksort fuel (p + 1) high c
    else .ok c

/-- `sort` (pointcloud.rs:154-156) of a cloud of capacity `n`: all the slots, not the first `len`.
With `n = 0` the subtraction panics (debug) or the first access does (release). -/
def Cloud.sort (n : Nat) (c : Cloud) : Rs Cloud :=
  if n = 0 then .panic else quicksort (n + 1) 0 (n - 1) c

end PointCloud
end Verif
