import Verif.Props.C52
/-!
# C53  Rigid transforms are isometries; extent transforms
-/
set_option autoImplicit false
namespace Imodal
open Real Matrix

/-- Squared Euclidean distance of two points of space. -/
def dist3sq (p q : Fin 3 → ℝ) : ℝ := (p 0 - q 0)^2 + (p 1 - q 1)^2 + (p 2 - q 2)^2

theorem IsRotation.mul {n : Nat} {R S : Matrix (Fin n) (Fin n) ℝ} (hR : IsRotation R)
    (hS : IsRotation S) : IsRotation (R * S) := by
  refine ⟨?_, ?_, ?_⟩
  · rw [Matrix.transpose_mul, Matrix.mul_assoc, ← Matrix.mul_assoc Rᵀ, hR.1, Matrix.one_mul, hS.1]
  · rw [Matrix.transpose_mul, Matrix.mul_assoc, ← Matrix.mul_assoc S, hS.2.1, Matrix.one_mul, hR.2.1]
  · rw [Matrix.det_mul, hR.2.2, hS.2.2, one_mul]

theorem applyLinear3d_rigid (t : Fin 3 → ℝ) (m : Matrix (Fin 3) (Fin 3) ℝ) (p : Fin 3 → ℝ) :
    applyLinear3d (translationMatrix4d t * embed4 m) p = fun i => m.mulVec p i + t i := by
  funext i
  fin_cases i <;>
    simp [applyLinear3d, translationMatrix4d, embed4, Matrix.mul_apply, Matrix.mulVec, dotProduct,
      Fin.sum_univ_four, Fin.sum_univ_three]

theorem rotation_dist (m : Matrix (Fin 3) (Fin 3) ℝ) (hm : mᵀ * m = 1) (p q : Fin 3 → ℝ) :
    dist3sq (fun i => m.mulVec p i) (fun i => m.mulVec q i) = dist3sq p q := by
  have e : ∀ i j, ∑ k, m k i * m k j = if i = j then 1 else 0 := by
    intro i j
    have := congrFun (congrFun hm i) j
    simpa [Matrix.mul_apply, Matrix.one_apply] using this
  have e00 := e 0 0; have e11 := e 1 1; have e22 := e 2 2
  have e01 := e 0 1; have e02 := e 0 2; have e12 := e 1 2
  simp [Fin.sum_univ_three] at e00 e11 e22 e01 e02 e12
  simp only [dist3sq, Matrix.mulVec, dotProduct, Fin.sum_univ_three]
  linear_combination (p 0 - q 0)^2 * e00 + (p 1 - q 1)^2 * e11 + (p 2 - q 2)^2 * e22 +
    2 * (p 0 - q 0) * (p 1 - q 1) * e01 + 2 * (p 0 - q 0) * (p 2 - q 2) * e02 +
    2 * (p 1 - q 1) * (p 2 - q 2) * e12

/-- The deformation built by `rigid_deformation3d` preserves all distances. -/
theorem C53_rigid_isometry (angles t p q : Fin 3 → ℝ) :
    dist3sq (applyLinear3d (rigidDeformation3d angles t) p)
      (applyLinear3d (rigidDeformation3d angles t) q) = dist3sq p q := by
  have hrot := ((C52_rot3d_rotation (angles 0)).1.mul (C52_rot3d_rotation (angles 1)).2.1).mul
    (C52_rot3d_rotation (angles 2)).2.2
  rw [rigidDeformation3d, applyLinear3d_rigid, applyLinear3d_rigid,
    ← rotation_dist _ hrot.1 p q]
  simp only [dist3sq]
  ring

/-- With zero angles it is the translation; with zero translation it fixes the origin. -/
theorem C53_rigid_special (angles t p : Fin 3 → ℝ) :
    applyLinear3d (rigidDeformation3d 0 t) p = (fun i => p i + t i) ∧
    applyLinear3d (rigidDeformation3d angles t) 0 = t := by
  constructor
  · rw [rigidDeformation3d, applyLinear3d_rigid]
    funext i
    congr 1
    have : rot3dX ((0 : Fin 3 → ℝ) 0) * rot3dY ((0 : Fin 3 → ℝ) 1) * rot3dZ ((0 : Fin 3 → ℝ) 2) = 1 := by
      ext i j
      fin_cases i <;> fin_cases j <;>
        simp [rot3dX, rot3dY, rot3dZ, Matrix.mul_apply, Fin.sum_univ_three]
    rw [this, Matrix.one_mulVec]
  · rw [rigidDeformation3d, applyLinear3d_rigid]
    funext i
    simp

/-- What the extent transformation does to a point: `s (x + min1 - min0)` on each axis. -/
theorem extent_apply (e₀ e₁ : Extent3) (h : ∀ i, e₀.hi i - e₀.lo i ≠ 0) :
    ∃ A, extentTransformation4d e₀ e₁ = .ok A ∧ ∀ p i, applyLinear3d A p i =
      (e₁.hi i - e₁.lo i) / (e₀.hi i - e₀.lo i) * (p i + (e₁.lo i - e₀.lo i)) := by
  refine ⟨_, by unfold extentTransformation4d; rw [if_neg (by push Not; exact h)], ?_⟩
  intro p i
  fin_cases i <;>
    simp [applyLinear3d, translationMatrix4d, scaleMatrix4d, Matrix.mul_apply, Matrix.mulVec, dotProduct,
      Fin.sum_univ_four] <;> ring

/-- The transformation maps the lower corner to the lower corner and the upper corner to the
upper corner exactly if on every axis the scale is one or the target's lower bound is zero. -/
theorem C53_extent_partial (e₀ e₁ : Extent3) (h : ∀ i, e₀.hi i - e₀.lo i ≠ 0) :
    ∃ A, extentTransformation4d e₀ e₁ = .ok A ∧
      ((applyLinear3d A e₀.lo = e₁.lo ∧ applyLinear3d A e₀.hi = e₁.hi) ↔
        ∀ i, e₁.hi i - e₁.lo i = e₀.hi i - e₀.lo i ∨ e₁.lo i = 0) := by
  obtain ⟨A, h1, h2⟩ := extent_apply e₀ e₁ h
  refine ⟨A, h1, ?_⟩
  constructor
  · rintro ⟨hlo, _⟩ i
    have := congrFun hlo i
    rw [h2] at this
    have hd := h i
    rw [div_mul_eq_mul_div, div_eq_iff hd] at this
    have : e₁.lo i * ((e₁.hi i - e₁.lo i) - (e₀.hi i - e₀.lo i)) = 0 := by linear_combination this
    rcases mul_eq_zero.1 this with h3 | h3
    · exact Or.inr h3
    · exact Or.inl (sub_eq_zero.1 h3)
  · intro hi
    constructor
    · funext i
      have hd := h i
      rw [h2, div_mul_eq_mul_div, div_eq_iff hd]
      rcases hi i with h3 | h3
      · rw [h3]; ring
      · rw [h3]; ring
    · funext i
      have hd := h i
      rw [h2, div_mul_eq_mul_div, div_eq_iff hd]
      rcases hi i with h3 | h3
      · rw [show e₁.hi i = e₁.lo i + (e₀.hi i - e₀.lo i) by linarith]; ring
      · rw [h3]; ring

/-- Disagreement: the unit cube is not sent to the cube from 1 to 3. -/
theorem C53_extent_wrong :
    ∃ (e₀ e₁ : Extent3) (A : Matrix (Fin 4) (Fin 4) ℝ), extentTransformation4d e₀ e₁ = .ok A ∧
      applyLinear3d A e₀.lo ≠ e₁.lo := by
  obtain ⟨A, h1, h2⟩ := extent_apply ⟨fun _ => 0, fun _ => 1⟩ ⟨fun _ => 1, fun _ => 3⟩ (by intro i; norm_num)
  refine ⟨_, _, A, h1, fun h => ?_⟩
  have := congrFun h 0
  rw [h2] at this
  norm_num at this

end Imodal
