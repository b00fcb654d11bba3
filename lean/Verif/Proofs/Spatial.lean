import Verif.Spec.Spatial
/-!
Lemmas on poses.
-/
namespace Verif
namespace Spatial

theorem fin3 {P : Fin 3 → Prop} (h0 : P 0) (h1 : P 1) (h2 : P 2) : ∀ i, P i := by
  intro i
  match i with
  | 0 => exact h0
  | 1 => exact h1
  | 2 => exact h2

theorem fin4 {P : Fin 4 → Prop} (h0 : P 0) (h1 : P 1) (h2 : P 2) (h3 : P 3) : ∀ i, P i := by
  intro i
  match i with
  | 0 => exact h0
  | 1 => exact h1
  | 2 => exact h2
  | 3 => exact h3

/-- The effect on all points determines the rotation and the translation. -/
theorem act_inj {R R' : Fin 3 → Fin 3 → Rat} {t t' : Fin 3 → Rat} (h : act R t = act R' t') : R = R' ∧ t = t' := by
  have ht : t = t' := by
    funext i
    have := congrFun (congrFun h (fun _ => 0)) i
    simp only [act] at this
    grind
  subst ht
  refine ⟨?_, rfl⟩
  funext i j
  have := congrFun (congrFun h (fun k => if k = j then 1 else 0)) i
  revert j
  refine fin3 ?_ ?_ ?_ <;> intro this <;> simp [act] at this <;> grind

end Spatial
end Verif
