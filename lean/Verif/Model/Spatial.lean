import Verif.Model.Basic
/-!
Poses: components/payloads/cu_spatial_payloads/src/lib.rs, and the poses of the detected tags,
components/tasks/cu_apriltag/src/lib.rs:310-334.  The conversions move numbers and compute nothing:
`α` is the type of the numbers.
-/
namespace Verif
namespace Spatial
variable {α : Type}

/-- `Transform3D` (lib.rs:12-15): `mat[row][column]`. -/
structure Transform3D (α : Type) where
  mat : Fin 4 → Fin 4 → α

/-- `Transform3D::default` (lib.rs:75-81): every entry is the default of its type, 0. -/
def Transform3D.default [OfNat α 0] : Transform3D α := ⟨fun _ _ => 0⟩

/-- `Mat` of faer: a size and the entries, by row and column. -/
structure FaerMat (α : Type) where
  nrows : Nat
  ncols : Nat
  get : Nat → Nat → α

/-- `From<&Transform3D<f64>> for Mat<f64>` (lib.rs:88-98): the entries one by one, over zeros. -/
def Transform3D.toFaer [OfNat α 0] (p : Transform3D α) : FaerMat α where
  nrows := 4
  ncols := 4
  get r c := if hr : r < 4 then if hc : c < 4 then p.mat ⟨r, hr⟩ ⟨c, hc⟩ else 0 else 0

/-- `From<Mat<f64>> for Transform3D<f64>` (lib.rs:100-112). -/
def ofFaer (m : FaerMat α) : Rs (Transform3D α) :=
  if m.nrows ≠ 4 then .panic
  else if m.ncols ≠ 4 then .panic
  else .ok ⟨fun r c => m.get r.val c.val⟩

/-- `Isometry3` of nalgebra: a rotation (held as a unit quaternion) and a translation. -/
structure Isometry (α : Type) where
  rotation : Fin 3 → Fin 3 → α
  translation : Fin 3 → α

def up (i : Fin 3) : Fin 4 := ⟨i.val, by omega⟩

/-- `From<&Transform3D<f64>> for Isometry3<f64>` (lib.rs:121-134): the 16 entries by rows, the blocks of
the matrix of these rows.  `quat` is the effect on a matrix of turning it into a quaternion: that of
nalgebra leaves rotations as they are (up to rounding). -/
def Transform3D.toIsometry (quat : (Fin 3 → Fin 3 → α) → Fin 3 → Fin 3 → α) (p : Transform3D α) : Isometry α :=
  let flat : Fin 16 → α := fun i => p.mat ⟨i.val / 4, by omega⟩ ⟨i.val % 4, by omega⟩
  let matrix : Fin 4 → Fin 4 → α := fun r c => flat ⟨r.val * 4 + c.val, by omega⟩
  { rotation := quat fun r c => matrix (up r) (up c)
    translation := fun r => matrix (up r) 3 }

/-- `to_homogeneous` of nalgebra. -/
def Isometry.toHomogeneous [OfNat α 0] [OfNat α 1] (s : Isometry α) : Fin 4 → Fin 4 → α := fun r c =>
  if hr : r.val < 3 then
    if hc : c.val < 3 then s.rotation ⟨r.val, hr⟩ ⟨c.val, hc⟩ else s.translation ⟨r.val, hr⟩
  else if c.val = 3 then 1 else 0

/-- `From<Isometry3<f64>> for Transform3D<f64>` (lib.rs:136-142). -/
def ofIsometry [OfNat α 0] [OfNat α 1] (s : Isometry α) : Transform3D α := ⟨s.toHomogeneous⟩

/-- A vector of glam. -/
structure Vec3 (α : Type) where
  x : α
  y : α
  z : α
  deriving DecidableEq, Repr

/-- `DAffine3` of glam: the axes are the columns of its matrix. -/
structure DAffine3 (α : Type) where
  xAxis : Vec3 α
  yAxis : Vec3 α
  zAxis : Vec3 α
  translation : Vec3 α
  deriving DecidableEq, Repr

/-- `From<Transform3D<f64>> for DAffine3` (lib.rs:150-171). -/
def Transform3D.toGlam (p : Transform3D α) : DAffine3 α where
  xAxis := ⟨p.mat 0 0, p.mat 0 1, p.mat 0 2⟩
  yAxis := ⟨p.mat 1 0, p.mat 1 1, p.mat 1 2⟩
  zAxis := ⟨p.mat 2 0, p.mat 2 1, p.mat 2 2⟩
  translation := ⟨p.mat 0 3, p.mat 1 3, p.mat 2 3⟩

/-- `transform[i][j] = …`, entry by entry. -/
def setAt (m : Fin 4 → Fin 4 → α) (i j : Fin 4) (v : α) : Fin 4 → Fin 4 → α :=
  fun r c => if r = i ∧ c = j then v else m r c

/-- `From<DAffine3> for Transform3D<f64>` (lib.rs:173-199). -/
def ofGlam [OfNat α 0] [OfNat α 1] (a : DAffine3 α) : Transform3D α :=
  let t : Fin 4 → Fin 4 → α := fun _ _ => 0
  let t := setAt (setAt (setAt t 0 0 a.xAxis.x) 0 1 a.xAxis.y) 0 2 a.xAxis.z
  let t := setAt (setAt (setAt t 1 0 a.yAxis.x) 1 1 a.yAxis.y) 1 2 a.yAxis.z
  let t := setAt (setAt (setAt t 2 0 a.zAxis.x) 2 1 a.zAxis.y) 2 2 a.zAxis.z
  let t := setAt (setAt (setAt t 0 3 a.translation.x) 1 3 a.translation.y) 2 3 a.translation.z
  ⟨setAt t 3 3 1⟩

/-- `MatdRef::data` of the crate `apriltag`: the entries of a matrix, row after row. -/
def matdData {r c : Nat} (m : Fin r → Fin c → α) (i : Nat) : Option α :=
  if h : i / c < r ∧ i % c < c then some (m ⟨i / c, h.1⟩ ⟨i % c, h.2⟩) else none

/-- The pose of a detected tag (cu_apriltag/src/lib.rs:315-330), from the data of the estimated
rotation and translation; an index out of the data is a panic. -/
def tagPose [OfNat α 0] (rotation translation : Nat → Option α) : Rs (Transform3D α) := do
  let m := (Transform3D.default (α := α)).mat
  let m := setAt m 0 3 (← Rs.ofOption (translation 0))
  let m := setAt m 1 3 (← Rs.ofOption (translation 1))
  let m := setAt m 2 3 (← Rs.ofOption (translation 2))
  let m := setAt m 0 0 (← Rs.ofOption (rotation 0))
  let m := setAt m 0 1 (← Rs.ofOption (rotation 3))
  let m := setAt m 0 2 (← Rs.ofOption (rotation (2 * 3)))
  let m := setAt m 1 0 (← Rs.ofOption (rotation 1))
  let m := setAt m 1 1 (← Rs.ofOption (rotation (1 + 3)))
  let m := setAt m 1 2 (← Rs.ofOption (rotation (1 + 2 * 3)))
  let m := setAt m 2 0 (← Rs.ofOption (rotation 2))
  let m := setAt m 2 1 (← Rs.ofOption (rotation (2 + 3)))
  let m := setAt m 2 2 (← Rs.ofOption (rotation (2 + 2 * 3)))
  pure ⟨m⟩

end Spatial
end Verif
