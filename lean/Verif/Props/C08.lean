import Verif.Lemmas.Kernel
import Verif.Spec.Euclid
/-!
# C08 Gaussian kernel basics

Everything here is about `K_xx`, `K_xy` and `gauss_kernel(·, 0, ·)`; distances are
Mathlib's Euclidean distances.
-/
set_option autoImplicit false
namespace Imodal
open Spec
variable {d n : Nat}

/-- The kernel matrix is symmetric. -/
theorem C08_symmetric (σ : ℝ) (x : Fin n → Vec d) (i j : Fin n) :
    kXX σ x i j = kXX σ x j i := kXY_comm σ (x i) (x j)

/-- Ones on the diagonal. -/
theorem C08_diagonal (σ : ℝ) (x : Fin n → Vec d) (i : Fin n) : kXX σ x i i = 1 :=
  kXY_self σ (x i)

/-- Entries lie in (0, 1]. -/
theorem C08_range (σ : ℝ) (x : Fin n → Vec d) (i j : Fin n) :
    0 < kXX σ x i j ∧ kXX σ x i j ≤ 1 := by
  refine ⟨Real.exp_pos _, ?_⟩
  unfold kXX
  rw [Real.exp_le_one_iff]
  have h := sqDistance_nonneg (x i) (x j)
  apply div_nonpos_of_nonpos_of_nonneg _ (by positivity)
  linarith

/-- The kernel is a strictly decreasing function of the distance. -/
theorem C08_decreasing {σ : ℝ} (hσ : σ ≠ 0) (x y x' y' : Vec d) :
    kXY σ x y < kXY σ x' y' ↔ euclid x' y' < euclid x y := by
  have h0 : 0 < σ ^ 2 := by positivity
  unfold kXY euclid
  rw [Real.exp_lt_exp, sqDistance_eq_dist, sqDistance_eq_dist, div_lt_div_iff_of_pos_right h0]
  constructor
  · intro h
    exact lt_of_pow_lt_pow_left₀ 2 dist_nonneg (by linarith)
  · intro h
    have := pow_lt_pow_left₀ h dist_nonneg two_ne_zero
    linarith

/-- It depends on the distance alone, so it is unchanged under any isometry. -/
theorem C08_isometry {d' : Nat} (σ : ℝ) (T : Vec d → Vec d') (hT : IsIsometry T)
    (x : Fin n → Vec d) : kXX σ (fun i => T (x i)) = kXX σ x := by
  funext i j
  unfold kXX
  rw [sqDistance_eq_dist, sqDistance_eq_dist]
  have := hT (x i) (x j)
  unfold euclid at this
  rw [this]

/-- An entry is one exactly when the two points are equal. -/
theorem C08_eq_one_iff {σ : ℝ} (hσ : σ ≠ 0) (x : Fin n → Vec d) (i j : Fin n) :
    kXX σ x i j = 1 ↔ x i = x j := by
  unfold kXX
  rw [Real.exp_eq_one_iff, ← sqDistance_eq_zero]
  have : σ ^ 2 ≠ 0 := by positivity
  rw [div_eq_zero_iff]
  simp [this]

/-- The value is the Gaussian of the distance. -/
theorem C08_value (σ : ℝ) (x y : Vec d) :
    kXY σ x y = Real.exp (-(euclid x y ^ 2) / (2 * σ ^ 2)) := by
  unfold kXY euclid
  rw [sqDistance_eq_dist]
  congr 1
  by_cases hσ : σ = 0
  · simp [hσ]
  · field_simp

/-- The three entry points agree: `K_xx(x)` is `K_xy(x, x)`, and `gauss_kernel` of order 0
applied to relative differences gives the entries of `K_xy`. -/
theorem C08_entry_points (σ : ℝ) (x y : Vec d) (xs : Fin n → Vec d) (i j : Fin n) :
    kXX σ xs i j = kXY σ (xs i) (xs j) ∧
    gaussKernel σ 0 (relDiff x y) = .ok (some fun _ => kXY σ x y) := by
  refine ⟨rfl, ?_⟩
  simp [gaussKernel, gauss0_relDiff]

-- hypotheses that can be met: a translation of the plane is an isometry
example : IsIsometry (fun x : Vec 2 => fun c => x c + 3) := by
  intro x y
  simp [euclid, EuclideanSpace.dist_eq, Real.dist_eq]
example : kXY 2 (fun _ : Fin 1 => (0 : ℝ)) (fun _ => 1) < kXY 2 (fun _ : Fin 1 => (0 : ℝ)) (fun _ => 0) := by
  rw [C08_decreasing two_ne_zero]
  simp [euclid, EuclideanSpace.dist_eq]

end Imodal
