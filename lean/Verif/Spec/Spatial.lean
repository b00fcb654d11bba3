import Verif.Model.Spatial
/-!
What poses do to points: the specification of the conversions.
-/
namespace Verif
namespace Spatial

/-- The point `R p + t`. -/
def act (R : Fin 3 → Fin 3 → Rat) (t : Fin 3 → Rat) (p : Fin 3 → Rat) : Fin 3 → Rat :=
  fun i => R i 0 * p 0 + R i 1 * p 1 + R i 2 * p 2 + t i

/-- The rotation of a pose: its first three rows and columns. -/
def Transform3D.rot (p : Transform3D Rat) : Fin 3 → Fin 3 → Rat := fun i j => p.mat (up i) (up j)

/-- The translation of a pose: its last column (`translation`, lib.rs:18-24). -/
def Transform3D.trans (p : Transform3D Rat) : Fin 3 → Rat := fun i => p.mat (up i) 3

/-- A pose moves the points by its rotation and its translation. -/
def Transform3D.act (p : Transform3D Rat) : (Fin 3 → Rat) → Fin 3 → Rat := Spatial.act p.rot p.trans

/-- The last row of a pose is `0 0 0 1`. -/
def Transform3D.Affine (p : Transform3D Rat) : Prop :=
  p.mat 3 0 = 0 ∧ p.mat 3 1 = 0 ∧ p.mat 3 2 = 0 ∧ p.mat 3 3 = 1

def Isometry.act (s : Isometry Rat) : (Fin 3 → Rat) → Fin 3 → Rat := Spatial.act s.rotation s.translation

/-- A matrix of faer as a pose: the last row apart. -/
def FaerMat.act (m : FaerMat Rat) : (Fin 3 → Rat) → Fin 3 → Rat :=
  Spatial.act (fun i j => m.get i j) (fun i => m.get i 3)

def Vec3.at (v : Vec3 Rat) (i : Fin 3) : Rat := if i = 0 then v.x else if i = 1 then v.y else v.z

/-- `transform_point3` of glam: a sum of the axes, and the translation. -/
def DAffine3.act (a : DAffine3 Rat) (p : Fin 3 → Rat) : Fin 3 → Rat :=
  fun i => a.xAxis.at i * p 0 + a.yAxis.at i * p 1 + a.zAxis.at i * p 2 + a.translation.at i

def transpose (R : Fin 3 → Fin 3 → Rat) : Fin 3 → Fin 3 → Rat := fun i j => R j i

/-- A rotation, or a reflection: the rows are orthogonal and of length 1. -/
def Orthogonal (R : Fin 3 → Fin 3 → Rat) : Prop :=
  ∀ i j, R i 0 * R j 0 + R i 1 * R j 1 + R i 2 * R j 2 = if i = j then 1 else 0

end Spatial
end Verif
