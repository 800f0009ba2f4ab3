import Verif.Model.Clouds
import Verif.Props.C53
/-!
# C126: matrices applied to point clouds

`linear_transform` lets square matrices act on clouds of points, each point on its own, and refuses
other shapes. `apply_linear_transform_3d` lets affine 4 × 4 matrices act on clouds in space, and what the
builders of translations, scalings and rigid deformations return is affine. For other 4 × 4 matrices
applying two of them in turn is not applying their product.
-/
set_option autoImplicit false
namespace Imodal
open Matrix
noncomputable section

theorem viewRows_self {N c : Nat} (h : N * c = N * c) (x : Fin N → Fin c → ℝ) : viewRows h x = x := by
  funext n j
  simp [viewRows]

theorem viewRows_rows {N k c : Nat} (h : N * k = N * c) (hk : k = c) (x : Fin N → Fin k → ℝ) (n : Fin N) (j : Fin c) :
    viewRows h x n j = x n (Fin.cast hk.symm j) := by
  subst hk
  rw [viewRows_self]
  rfl

/-- A square matrix of the dimension of the points: row `n` of the result is the matrix times point `n`. -/
theorem C126_points {N c : Nat} (points : Fin N → Fin c → ℝ) (A : Matrix (Fin c) (Fin c) ℝ) :
    ∃ out, linearTransform points A = .ok out ∧ ∀ n, out n = A.mulVec (points n) := by
  refine ⟨fun n => A.mulVec (points n), ?_, fun n => rfl⟩
  unfold linearTransform batchedProduct
  rw [dif_pos rfl]
  dsimp only
  rw [dif_pos rfl, viewRows_self]
  rfl

/-- With at least one point, every matrix that is not square of the dimension of the points is refused. -/
theorem C126_shapes {N c k e : Nat} (hN : 0 < N) (points : Fin N → Fin c → ℝ) (A : Matrix (Fin k) (Fin e) ℝ) (h : ¬(k = c ∧ e = c)) :
    linearTransform points A = .error .runtime := by
  unfold linearTransform batchedProduct
  by_cases he : e = c
  · rw [dif_pos he]
    dsimp only
    rw [dif_neg]
    intro hk
    exact h ⟨Nat.eq_of_mul_eq_mul_left hN hk, he⟩
  · rw [dif_neg he]

theorem linearTransform_eq {N c : Nat} (points : Fin N → Fin c → ℝ) (A : Matrix (Fin c) (Fin c) ℝ) :
    linearTransform points A = .ok fun n => A.mulVec (points n) := by
  obtain ⟨out, h1, h2⟩ := C126_points points A
  rw [h1]
  exact congrArg _ (funext h2)

/-- Matrices act: the identity changes nothing, applying `B` and then `A` is applying `A @ B`, and a
matrix with an inverse is undone by it. -/
theorem C126_action {N c : Nat} (points : Fin N → Fin c → ℝ) (A B : Matrix (Fin c) (Fin c) ℝ) :
    linearTransform points (1 : Matrix (Fin c) (Fin c) ℝ) = .ok points ∧
    (∃ mid, linearTransform points B = .ok mid ∧ linearTransform mid A = linearTransform points (A * B)) ∧
    (A * B = 1 → ∃ mid, linearTransform points B = .ok mid ∧ linearTransform mid A = .ok points) := by
  have h2 : ∃ mid, linearTransform points B = .ok mid ∧ linearTransform mid A = linearTransform points (A * B) := by
    refine ⟨_, linearTransform_eq points B, ?_⟩
    rw [linearTransform_eq, linearTransform_eq]
    simp only [Matrix.mulVec_mulVec]
  have h1 : linearTransform points (1 : Matrix (Fin c) (Fin c) ℝ) = .ok points := by
    rw [linearTransform_eq]
    simp only [Matrix.one_mulVec]
  refine ⟨h1, h2, fun h => ?_⟩
  obtain ⟨mid, a, b⟩ := h2
  exact ⟨mid, a, by rw [b, h, h1]⟩

/-- A cloud turned by `rot2d` keeps the distances between its points, and turning by two angles in turn
is turning by their sum. -/
theorem C126_turn {N : Nat} (points : Fin N → Fin 2 → ℝ) (θ φ : ℝ) : ∃ out, linearTransform points (rot2d θ) = .ok out ∧
    (∀ m n, (out m 0 - out n 0) ^ 2 + (out m 1 - out n 1) ^ 2 = (points m 0 - points n 0) ^ 2 + (points m 1 - points n 1) ^ 2) ∧
    linearTransform out (rot2d φ) = linearTransform points (rot2d (φ + θ)) := by
  refine ⟨_, linearTransform_eq points (rot2d θ), fun m n => ?_, ?_⟩
  · simp only [rot2d, Matrix.mulVec, dotProduct, Fin.sum_univ_two, Matrix.of_apply, Matrix.cons_val_zero, Matrix.cons_val_one]
    linear_combination ((points m 0 - points n 0) ^ 2 + (points m 1 - points n 1) ^ 2) * Real.sin_sq_add_cos_sq θ
  · obtain ⟨mid, a, b⟩ := (C126_action points (rot2d φ) (rot2d θ)).2.1
    rw [linearTransform_eq] at a
    rw [Except.ok.inj a, b, (C52_angles_add φ θ).1]

/-! ## Space -/

/-- The last row of an affine matrix. -/
def Spec.IsAffine4 (A : Matrix (Fin 4) (Fin 4) ℝ) : Prop := A 3 0 = 0 ∧ A 3 1 = 0 ∧ A 3 2 = 0 ∧ A 3 3 = 1

theorem applyTransform3d_eq {N : Nat} (points : Fin N → Fin 3 → ℝ) (A : Matrix (Fin 4) (Fin 4) ℝ) :
    applyTransform3d points A = .ok fun n => applyLinear3d A (points n) := by
  unfold applyTransform3d
  rw [linearTransform_eq]
  dsimp only
  refine congrArg _ (funext fun n => funext fun j => ?_)
  have hp : withOnes points n = ![points n 0, points n 1, points n 2, 1] := by
    funext i
    fin_cases i <;> rfl
  simp only [firstThree, applyLinear3d, hp]
  change Fin 3 at j
  fin_cases j <;> rfl

theorem applyLinear3d_comp (A : Matrix (Fin 4) (Fin 4) ℝ) {B : Matrix (Fin 4) (Fin 4) ℝ} (hB : Spec.IsAffine4 B) (p : Fin 3 → ℝ) :
    applyLinear3d A (applyLinear3d B p) = applyLinear3d (A * B) p := by
  obtain ⟨h0, h1, h2, h3⟩ := hB
  have hq : (![(applyLinear3d B p) 0, (applyLinear3d B p) 1, (applyLinear3d B p) 2, 1] : Fin 4 → ℝ) = B.mulVec ![p 0, p 1, p 2, 1] := by
    funext i
    fin_cases i
    · rfl
    · rfl
    · rfl
    · simp [Matrix.mulVec, dotProduct, Fin.sum_univ_four, h0, h1, h2, h3]
  rw [applyLinear3d, hq, Matrix.mulVec_mulVec]
  rfl

theorem Spec.IsAffine4.mul {A B : Matrix (Fin 4) (Fin 4) ℝ} (hA : Spec.IsAffine4 A) (hB : Spec.IsAffine4 B) : Spec.IsAffine4 (A * B) := by
  obtain ⟨a0, a1, a2, a3⟩ := hA
  obtain ⟨b0, b1, b2, b3⟩ := hB
  simp [Spec.IsAffine4, Matrix.mul_apply, Fin.sum_univ_four, a0, a1, a2, a3, b0, b1, b2, b3]

/-- Translations, scalings, rigid deformations and transformations between extents are affine, and
products of affine matrices are. -/
theorem C126_affine (t s angles : Fin 3 → ℝ) (e₀ e₁ : Extent3) (A B : Matrix (Fin 4) (Fin 4) ℝ) :
    Spec.IsAffine4 (translationMatrix4d t) ∧ Spec.IsAffine4 (scaleMatrix4d s) ∧ Spec.IsAffine4 (rigidDeformation3d angles t) ∧
    (extentTransformation4d e₀ e₁ = .ok A → Spec.IsAffine4 A) ∧ (Spec.IsAffine4 A → Spec.IsAffine4 B → Spec.IsAffine4 (A * B)) := by
  have ht : ∀ t, Spec.IsAffine4 (translationMatrix4d t) := fun t => by simp [Spec.IsAffine4, translationMatrix4d]
  have hs : ∀ s, Spec.IsAffine4 (scaleMatrix4d s) := fun s => by simp [Spec.IsAffine4, scaleMatrix4d]
  refine ⟨ht t, hs s, ?_, fun h => ?_, Spec.IsAffine4.mul⟩
  · exact (ht t).mul (by simp [Spec.IsAffine4, embed4])
  · unfold extentTransformation4d at h
    split at h
    · cases h
    · cases h
      exact (hs _).mul (ht _)

/-- Affine matrices act on clouds in space: the identity changes nothing, applying an affine matrix `B`
and then any `A` is applying `A @ B`, and an affine matrix with an inverse is undone by it. -/
theorem C126_space_partial {N : Nat} (points : Fin N → Fin 3 → ℝ) (A : Matrix (Fin 4) (Fin 4) ℝ) {B : Matrix (Fin 4) (Fin 4) ℝ} (hB : Spec.IsAffine4 B) :
    applyTransform3d points (1 : Matrix (Fin 4) (Fin 4) ℝ) = .ok points ∧
    (∃ mid : Fin N → Fin 3 → ℝ, applyTransform3d points B = .ok mid ∧ applyTransform3d mid A = applyTransform3d points (A * B)) ∧
    (A * B = 1 → ∃ mid : Fin N → Fin 3 → ℝ, applyTransform3d points B = .ok mid ∧ applyTransform3d mid A = .ok points) := by
  have h1 : applyTransform3d points (1 : Matrix (Fin 4) (Fin 4) ℝ) = .ok points := by
    rw [applyTransform3d_eq]
    refine congrArg _ (funext fun n => funext fun j => ?_)
    simp only [applyLinear3d, Matrix.one_mulVec]
    change Fin 3 at j
    fin_cases j <;> rfl
  have h2 : ∃ mid : Fin N → Fin 3 → ℝ, applyTransform3d points B = .ok mid ∧ applyTransform3d mid A = applyTransform3d points (A * B) := by
    refine ⟨_, applyTransform3d_eq points B, ?_⟩
    rw [applyTransform3d_eq, applyTransform3d_eq]
    exact congrArg _ (funext fun n => applyLinear3d_comp A hB (points n))
  refine ⟨h1, h2, fun h => ?_⟩
  obtain ⟨mid, a, b⟩ := h2
  exact ⟨mid, a, by rw [b, h, h1]⟩

/-- Without the last row of an affine matrix this fails: the fourth coordinate is dropped, not divided
by. Here a matrix with last entry one half and its inverse, applied in turn, move a point. -/
theorem C126_projective_disagreement : ∃ (A B : Matrix (Fin 4) (Fin 4) ℝ) (points mid : Fin 1 → Fin 3 → ℝ), A * B = 1 ∧
    applyTransform3d points B = .ok mid ∧ applyTransform3d mid A ≠ .ok points := by
  refine ⟨!![1, 0, 0, -2; 0, 1, 0, 0; 0, 0, 1, 0; 0, 0, 0, 2], !![1, 0, 0, 1; 0, 1, 0, 0; 0, 0, 1, 0; 0, 0, 0, 1 / 2], 0, _, ?_, applyTransform3d_eq _ _, ?_⟩
  · ext i j
    fin_cases i <;> fin_cases j <;> simp [Matrix.mul_apply, Fin.sum_univ_four]
  · rw [applyTransform3d_eq]
    intro h
    have := congrFun (congrFun (Except.ok.inj h) 0) 0
    simp [applyLinear3d, Matrix.mulVec, dotProduct, Fin.sum_univ_four] at this
    norm_num at this

/-- With at least one point, a matrix that is not square with one row more than the points have
coordinates is refused. -/
theorem C126_space_shapes {N c k e : Nat} (hN : 0 < N) (points : Fin N → Fin c → ℝ) (A : Matrix (Fin k) (Fin e) ℝ) (h : ¬(k = c + 1 ∧ e = c + 1)) :
    applyTransform3d points A = .error .runtime := by
  unfold applyTransform3d
  rw [C126_shapes hN _ A h]

-- a translation is undone by the opposite one on a whole cloud
example {N : Nat} (points : Fin N → Fin 3 → ℝ) (t : Fin 3 → ℝ) : ∃ mid : Fin N → Fin 3 → ℝ,
    applyTransform3d points (translationMatrix4d t) = .ok mid ∧ applyTransform3d mid (translationMatrix4d fun i => -t i) = .ok points := by
  refine (C126_space_partial points _ (C126_affine t t t ⟨t, t⟩ ⟨t, t⟩ 1 1).1).2.2 ?_
  ext i j
  fin_cases i <;> fin_cases j <;> simp [translationMatrix4d, Matrix.mul_apply, Fin.sum_univ_four]

-- three points of the plane and a matrix for space
example (points : Fin 3 → Fin 2 → ℝ) (A : Matrix (Fin 4) (Fin 4) ℝ) : applyTransform3d points A = .error .runtime :=
  C126_space_shapes (by norm_num) points A (by decide)

end
end Imodal
