import Verif.Proofs.Spatial
/-!
C64: poses keep their meaning through conversions.
-/
namespace Verif
namespace Spatial

/-- faer: the matrix moves points as the pose does, and the way back gives the pose. -/
theorem C64_faer (p : Transform3D Rat) : p.toFaer.act = p.act ∧ ofFaer p.toFaer = .ok p := by
  refine ⟨?_, ?_⟩
  · funext q i
    revert i
    exact fin3 rfl rfl rfl
  · show Rs.ok (Transform3D.mk fun r c => _) = _
    congr
    funext r c
    simp [Transform3D.toFaer]

/-- A matrix of another size is refused by a panic, any other becomes the pose with its entries. -/
theorem C64_faer_size (m : FaerMat Rat) :
    (ofFaer m = .panic ↔ ¬ (m.nrows = 4 ∧ m.ncols = 4)) ∧ (∀ p, ofFaer m = .ok p → p.act = m.act) := by
  unfold ofFaer
  refine ⟨?_, ?_⟩
  · by_cases h1 : m.nrows = 4 <;> by_cases h2 : m.ncols = 4 <;> simp [h1, h2]
  · intro p hp
    by_cases h1 : m.nrows = 4 <;> by_cases h2 : m.ncols = 4 <;> simp [h1, h2] at hp
    subst hp
    funext q i
    revert i
    exact fin3 rfl rfl rfl

/-- nalgebra: an isometry made from a pose moves points as the pose does, and the way back gives the
pose, if the rotation is one (`quat` leaves rotations as they are). -/
theorem C64_nalgebra (quat : (Fin 3 → Fin 3 → Rat) → Fin 3 → Fin 3 → Rat) (p : Transform3D Rat)
    (hq : quat p.rot = p.rot) :
    (p.toIsometry quat).act = p.act ∧ (p.Affine → ofIsometry (p.toIsometry quat) = p) := by
  have hr : (p.toIsometry quat).rotation = p.rot := by
    rw [← hq]
    show quat _ = quat _
    congr 1
    funext r c
    revert r
    refine fin3 ?_ ?_ ?_ <;> (revert c; exact fin3 rfl rfl rfl)
  have ht : (p.toIsometry quat).translation = p.trans := by
    funext r
    revert r
    exact fin3 rfl rfl rfl
  refine ⟨by unfold Isometry.act Transform3D.act; rw [hr, ht], ?_⟩
  intro ⟨h0, h1, h2, h3⟩
  cases p with | mk mat =>
  show Transform3D.mk _ = _
  congr 1
  funext r c
  simp only [Isometry.toHomogeneous, hr, ht]
  revert r c
  refine fin4 ?_ ?_ ?_ ?_
  · exact fin4 rfl rfl rfl rfl
  · exact fin4 rfl rfl rfl rfl
  · exact fin4 rfl rfl rfl rfl
  · exact fin4 h0.symm h1.symm h2.symm h3.symm

/-- glam: a pose that is converted and converted back is the same pose. -/
theorem C64_glam_round_trip (p : Transform3D Rat) (h : p.Affine) : ofGlam p.toGlam = p := by
  obtain ⟨h0, h1, h2, h3⟩ := h
  cases p with | mk mat =>
  show Transform3D.mk _ = _
  congr 1
  funext r c
  revert r c
  refine fin4 ?_ ?_ ?_ ?_
  · exact fin4 rfl rfl rfl rfl
  · exact fin4 rfl rfl rfl rfl
  · exact fin4 rfl rfl rfl rfl
  · exact fin4 h0.symm h1.symm h2.symm h3.symm

/-- glam: the affine transform has the rotation of the pose transposed (for a rotation: the inverse
one).  It moves all points as the pose does only if the rotation is symmetric. -/
theorem C64_glam_partial (p : Transform3D Rat) :
    p.toGlam.act = act (transpose p.rot) p.trans ∧ (p.toGlam.act = p.act ↔ ∀ i j, p.rot i j = p.rot j i) := by
  have h : p.toGlam.act = act (transpose p.rot) p.trans := by
    funext q i
    revert i
    exact fin3 rfl rfl rfl
  refine ⟨h, ?_, ?_⟩
  · intro he
    rw [h] at he
    have := (act_inj he).1
    intro i j
    exact (congrFun (congrFun this j) i)
  · intro hs
    rw [h]
    have : transpose p.rot = p.rot := by funext i j; exact hs j i
    rw [this]; rfl

/-- A quarter of a turn about z, and a step along x. -/
def quarter : Transform3D Rat := ⟨fun r c =>
  ([[0, -1, 0, 1], [1, 0, 0, 0], [0, 0, 1, 0], [0, 0, 0, 1]][r.val]?.getD [])[c.val]?.getD 0⟩

example := C64_glam_round_trip quarter ⟨rfl, rfl, rfl, rfl⟩
example := (C64_nalgebra id quarter rfl).2 ⟨rfl, rfl, rfl, rfl⟩

example : quarter.Affine ∧ Orthogonal quarter.rot :=
  ⟨⟨rfl, rfl, rfl, rfl⟩, by
    refine fin3 ?_ ?_ ?_ <;> refine fin3 ?_ ?_ ?_ <;> decide +kernel⟩

/-- Negation: glam sends the point (1, 0, 0), that the pose sends to (1, 1, 0), to (1, -1, 0). -/
theorem C64_glam_violated : quarter.Affine ∧
    quarter.act (fun i => if i = 0 then 1 else 0) 1 = 1 ∧
    quarter.toGlam.act (fun i => if i = 0 then 1 else 0) 1 = -1 := by
  refine ⟨⟨rfl, rfl, rfl, rfl⟩, ?_, ?_⟩ <;> decide +kernel

/-- The pose of a tag: the translation is the estimated one; the rotation is the estimated one
transposed, as the data are taken by columns; the last row is 0. -/
theorem C64_tag_partial (R : Fin 3 → Fin 3 → Rat) (t : Fin 3 → Rat) :
    ∃ p, tagPose (matdData R) (matdData (r := 3) (c := 1) fun i _ => t i) = .ok p ∧
      p.rot = transpose R ∧ p.trans = t ∧ ∀ c, p.mat 3 c = 0 := by
  refine ⟨_, rfl, ?_, ?_, ?_⟩
  · funext i j
    revert i j
    refine fin3 ?_ ?_ ?_ <;> exact fin3 rfl rfl rfl
  · funext i
    revert i
    exact fin3 rfl rfl rfl
  · exact fin4 rfl rfl rfl rfl

/-- The two transpositions undo each other: the glam transform of the pose of a tag moves the points
as the estimate does. -/
theorem C64_tag_glam (R : Fin 3 → Fin 3 → Rat) (t : Fin 3 → Rat) (p : Transform3D Rat)
    (h : tagPose (matdData R) (matdData (r := 3) (c := 1) fun i _ => t i) = .ok p) : p.toGlam.act = act R t := by
  obtain ⟨p', hp, hr, ht, _⟩ := C64_tag_partial R t
  rw [hp] at h
  cases h
  rw [(C64_glam_partial p).1, hr, ht]
  rfl

/-- Negation: the pose of a tag turned a quarter of a turn about z does not move points as the
estimate does, and is not an affine matrix: through nalgebra and back it changes. -/
theorem C64_tag_violated : ∃ p,
    tagPose (matdData quarter.rot) (matdData (r := 3) (c := 1) fun i _ => quarter.trans i) = .ok p ∧
    quarter.act (fun i => if i = 0 then 1 else 0) 1 = 1 ∧ p.act (fun i => if i = 0 then 1 else 0) 1 = -1 ∧
    ¬ p.Affine ∧ (ofIsometry (p.toIsometry id)).mat 3 3 ≠ p.mat 3 3 := by
  refine ⟨_, rfl, ?_, ?_, ?_, ?_⟩
  · decide +kernel
  · decide +kernel
  · intro h
    exact absurd h.2.2.2 (by decide +kernel)
  · decide +kernel

/-- Negation: the default pose is not that of no motion: it sends every point to the origin. -/
theorem C64_default_violated : ∀ q i, (Transform3D.default : Transform3D Rat).act q i = 0 := by
  intro q i
  show (0 : Rat) * q 0 + 0 * q 1 + 0 * q 2 + 0 = 0
  grind

end Spatial
end Verif
