import Verif.Model.Coords
import Mathlib.LinearAlgebra.Matrix.NonsingularInverse
/-!
# C75 Voxel and point coordinates convert without loss

`voxels2points_affine` and `points2voxels_affine` apply the matrix they are given, both in the same
direction.
-/
set_option autoImplicit false
namespace Imodal
noncomputable section

/-- A matrix whose last row is that of an affine map. -/
def Spec.IsAffine (A : Matrix (Fin 4) (Fin 4) ℝ) : Prop := A 3 0 = 0 ∧ A 3 1 = 0 ∧ A 3 2 = 0 ∧ A 3 3 = 1

theorem applyLinear3d_mul (A B : Matrix (Fin 4) (Fin 4) ℝ) (hA : Spec.IsAffine A) (p : Fin 3 → ℝ) :
    applyLinear3d B (applyLinear3d A p) = applyLinear3d (B * A) p := by
  obtain ⟨h0, h1, h2, h3⟩ := hA
  ext i
  fin_cases i <;>
  · simp [applyLinear3d, Matrix.mulVec, dotProduct, Fin.sum_univ_four, Matrix.mul_apply, h0, h1, h2, h3]
    ring

theorem applyLinear3d_one (p : Fin 3 → ℝ) : applyLinear3d 1 p = p := by
  ext i
  fin_cases i <;> simp [applyLinear3d]

/-- With inverse matrices the two conversions are inverse, for all affine maps and all voxels. -/
theorem C75_partial (A B : Matrix (Fin 4) (Fin 4) ℝ) (hA : Spec.IsAffine A) (hB : Spec.IsAffine B) (h : B * A = 1) (v p : Fin 3 → ℝ) :
    points2voxelsAffine B (voxels2pointsAffine A v) = v ∧ voxels2pointsAffine A (points2voxelsAffine B p) = p := by
  have h' : A * B = 1 := mul_eq_one_comm.1 h
  constructor
  · show applyLinear3d B (applyLinear3d A v) = v
    rw [applyLinear3d_mul A B hA, h, applyLinear3d_one]
  · show applyLinear3d A (applyLinear3d B p) = p
    rw [applyLinear3d_mul B A hB, h', applyLinear3d_one]

/-- A voxel with whole coordinates comes back as the same indices. -/
theorem C75_indices (A B : Matrix (Fin 4) (Fin 4) ℝ) (hA : Spec.IsAffine A) (h : B * A = 1) (v : Fin 3 → ℤ) :
    points2voxelsAffineIdx B (voxels2pointsAffine A fun i => (v i : ℝ)) = v := by
  ext i
  have e : points2voxelsAffine B (voxels2pointsAffine A fun i => (v i : ℝ)) = fun i => (v i : ℝ) := by
    show applyLinear3d B (applyLinear3d A _) = _
    rw [applyLinear3d_mul A B hA, h, applyLinear3d_one]
  simp only [points2voxelsAffineIdx, e, Int.floor_intCast]

/-- **Disagreement.** Given the same matrix, the two functions are inverse exactly when the affine
map is its own inverse. -/
theorem C75_disagreement (A : Matrix (Fin 4) (Fin 4) ℝ) (hA : Spec.IsAffine A) :
    (∀ v, points2voxelsAffine A (voxels2pointsAffine A v) = v) ↔ A * A = 1 := by
  constructor
  · intro h
    have hp : ∀ v, applyLinear3d (A * A) v = v := fun v => by rw [← applyLinear3d_mul A A hA]; exact h v
    have h0 := hp ![0, 0, 0]
    have h1 := hp ![1, 0, 0]
    have h2 := hp ![0, 1, 0]
    have h3 := hp ![0, 0, 1]
    obtain ⟨a0, a1, a2, a3⟩ := hA
    have hrow : ∀ j, (A * A) 3 j = A 3 j := fun j => by simp [Matrix.mul_apply, Fin.sum_univ_four, a0, a1, a2, a3]
    have g : ∀ (i : Fin 3) (v : Fin 3 → ℝ), applyLinear3d (A * A) v i
        = (A * A) i.castSucc 0 * v 0 + (A * A) i.castSucc 1 * v 1 + (A * A) i.castSucc 2 * v 2 + (A * A) i.castSucc 3 := by
      intro i v
      generalize A * A = M
      fin_cases i <;> simp [applyLinear3d, Matrix.mulVec, dotProduct, Fin.sum_univ_four]
    ext i j
    have key : ∀ (i : Fin 3), (A * A) i.castSucc j = (1 : Matrix (Fin 4) (Fin 4) ℝ) i.castSucc j := by
      intro i
      have e0 := congrFun h0 i
      have e1 := congrFun h1 i
      have e2 := congrFun h2 i
      have e3 := congrFun h3 i
      rw [g] at e0 e1 e2 e3
      fin_cases i <;> fin_cases j <;> simp [Matrix.one_apply] at e0 e1 e2 e3 ⊢ <;> linarith
    refine Fin.lastCases ?_ key i
    show (A * A) 3 j = _
    rw [hrow]
    fin_cases j <;> simp [a0, a1, a2, a3, Fin.last, Matrix.one_apply]
  · intro h v
    show applyLinear3d A (applyLinear3d A v) = v
    rw [applyLinear3d_mul A A hA, h, applyLinear3d_one]

/-- A scaling by two and the scaling by one half. -/
example : Spec.IsAffine (scaleMatrix4d fun _ => 2) ∧ Spec.IsAffine (scaleMatrix4d fun _ => 1 / 2) ∧
    scaleMatrix4d (fun _ => 1 / 2) * scaleMatrix4d (fun _ => 2) = 1 := by
  refine ⟨?_, ?_, ?_⟩
  · simp [Spec.IsAffine, scaleMatrix4d]
  · simp [Spec.IsAffine, scaleMatrix4d]
  · ext i j
    fin_cases i <;> fin_cases j <;> simp [scaleMatrix4d, Matrix.mul_apply, Fin.sum_univ_four, Matrix.one_apply]

/-- With the same scaling by two, the voxel `(1, 0, 0)` comes back as `(4, 0, 0)`. -/
example : points2voxelsAffine (scaleMatrix4d fun _ => 2) (voxels2pointsAffine (scaleMatrix4d fun _ => 2) ![1, 0, 0]) = ![4, 0, 0] := by
  ext i
  fin_cases i <;> simp [points2voxelsAffine, voxels2pointsAffine, applyLinear3d, scaleMatrix4d, Matrix.mulVec, dotProduct, Fin.sum_univ_four]
  norm_num

end
end Imodal
