import Verif.Model.Coords
import Mathlib.LinearAlgebra.Matrix.Determinant.Basic
import Mathlib.Tactic.LinearCombination
import Mathlib.Tactic.FinCases
/-!
# C52  Rotation builders
-/
set_option autoImplicit false
namespace Imodal
open Real Matrix

/-- `R` is a rotation: orthogonal with determinant one. -/
def IsRotation {n : Nat} (R : Matrix (Fin n) (Fin n) ℝ) : Prop :=
  Rᵀ * R = 1 ∧ R * Rᵀ = 1 ∧ R.det = 1

theorem C52_rot2d_rotation (θ : ℝ) : IsRotation (rot2d θ) := by
  have h := sin_sq_add_cos_sq θ
  refine ⟨?_, ?_, ?_⟩
  · ext i j; fin_cases i <;> fin_cases j <;>
      simp [rot2d, Matrix.mul_apply, Fin.sum_univ_two] <;> first | ring1 | linear_combination h
  · ext i j; fin_cases i <;> fin_cases j <;>
      simp [rot2d, Matrix.mul_apply, Fin.sum_univ_two] <;> first | ring1 | linear_combination h
  · simp [rot2d, Matrix.det_fin_two]; linear_combination h

theorem C52_rot3d_rotation (θ : ℝ) :
    IsRotation (rot3dX θ) ∧ IsRotation (rot3dY θ) ∧ IsRotation (rot3dZ θ) := by
  have h := sin_sq_add_cos_sq θ
  refine ⟨⟨?_, ?_, ?_⟩, ⟨?_, ?_, ?_⟩, ⟨?_, ?_, ?_⟩⟩
  all_goals first
    | (simp [rot3dX, rot3dY, rot3dZ, Matrix.det_fin_three]; linear_combination h)
    | (ext i j
       fin_cases i <;> fin_cases j <;>
         simp [rot3dX, rot3dY, rot3dZ, Matrix.mul_apply, Fin.sum_univ_three] <;> first | ring1 | linear_combination h)

/-- Angles add under composition. -/
theorem C52_angles_add (θ φ : ℝ) :
    rot2d θ * rot2d φ = rot2d (θ + φ) ∧ rot3dX θ * rot3dX φ = rot3dX (θ + φ) ∧
    rot3dY θ * rot3dY φ = rot3dY (θ + φ) ∧ rot3dZ θ * rot3dZ φ = rot3dZ (θ + φ) := by
  have hs := sin_add θ φ
  have hc := cos_add θ φ
  refine ⟨?_, ?_, ?_, ?_⟩
  · ext i j; fin_cases i <;> fin_cases j <;>
      simp [rot2d, Matrix.mul_apply, Fin.sum_univ_two, hs, hc] <;> ring
  all_goals
    ext i j
    fin_cases i <;> fin_cases j <;>
      simp [rot3dX, rot3dY, rot3dZ, Matrix.mul_apply, Fin.sum_univ_three, hs, hc] <;> ring

/-- The batched builders about the x and z axes give the scalar builder's matrix for each
angle. -/
theorem C52_batched_xz_partial {N : Type} (θ : N → ℝ) (n : N) :
    rot3dXVec θ n = rot3dX (θ n) ∧ rot3dZVec θ n = rot3dZ (θ n) := by
  constructor <;> ext i j <;> fin_cases i <;> fin_cases j <;> rfl

/-- Disagreement: the batched planar builder and the batched builder about the y axis give
the scalar matrix of the opposite angle. -/
theorem C52_batched_opposite {N : Type} (θ : N → ℝ) (n : N) :
    rot2dVec θ n = rot2d (-θ n) ∧ rot3dYVec θ n = rot3dY (-θ n) := by
  constructor <;> ext i j <;> fin_cases i <;> fin_cases j <;>
    simp [rot2dVec, rot2d, rot3dYVec, rot3dY, stack12]

/-- Hence batched and scalar builders agree there exactly for angles with zero sine. -/
theorem C52_batched_agree_iff {N : Type} (θ : N → ℝ) (n : N) :
    (rot2dVec θ n = rot2d (θ n) ↔ sin (θ n) = 0) ∧
    (rot3dYVec θ n = rot3dY (θ n) ↔ sin (θ n) = 0) := by
  constructor
  · constructor
    · intro h
      have := congrFun (congrFun h 0) 1
      simp [rot2dVec, rot2d, stack12] at this
      linarith
    · intro h
      ext i j; fin_cases i <;> fin_cases j <;> simp [rot2dVec, rot2d, stack12, h]
  · constructor
    · intro h
      have := congrFun (congrFun h 0) 2
      simp [rot3dYVec, rot3dY, stack12] at this
      linarith
    · intro h
      ext i j; fin_cases i <;> fin_cases j <;> simp [rot3dYVec, rot3dY, stack12, h]

/-- The batched builders still give rotations. -/
theorem C52_batched_rotations {N : Type} (θ : N → ℝ) (n : N) :
    IsRotation (rot2dVec θ n) ∧ IsRotation (rot3dXVec θ n) ∧ IsRotation (rot3dYVec θ n) ∧
      IsRotation (rot3dZVec θ n) := by
  rw [(C52_batched_opposite θ n).1, (C52_batched_opposite θ n).2, (C52_batched_xz_partial θ n).1,
    (C52_batched_xz_partial θ n).2]
  exact ⟨C52_rot2d_rotation _, (C52_rot3d_rotation _).1, (C52_rot3d_rotation _).2.1,
    (C52_rot3d_rotation _).2.2⟩

/-- A concrete disagreement, at a right angle. -/
example : rot2dVec (fun _ : Unit => π / 2) () ≠ rot2d (π / 2) := by
  rw [ne_eq, (C52_batched_agree_iff _ _).1]
  simp

end Imodal
