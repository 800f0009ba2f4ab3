import Verif.Model.Field
import Mathlib.Analysis.InnerProductSpace.PiL2
import Mathlib.Analysis.SpecialFunctions.ExpDeriv
import Mathlib.Analysis.Calculus.FDeriv.Pow
import Mathlib.Analysis.Calculus.FDeriv.Pi
import Mathlib.Tactic.Ring
import Mathlib.Tactic.FieldSimp
import Mathlib.Tactic.Linarith
import Mathlib.Tactic.Positivity
/-! Facts about the Gaussian kernel used by several properties. -/
set_option autoImplicit false
namespace Imodal
noncomputable section
variable {d : Nat}

theorem sqDistance_comm (x y : Vec d) : sqDistance x y = sqDistance y x :=
  Finset.sum_congr rfl fun _ _ => by ring

theorem sqDistance_nonneg (x y : Vec d) : 0 ≤ sqDistance x y :=
  Finset.sum_nonneg fun _ _ => by positivity

theorem sqDistance_self (x : Vec d) : sqDistance x x = 0 := by simp [sqDistance]

theorem sqDistance_eq_zero {x y : Vec d} : sqDistance x y = 0 ↔ x = y := by
  unfold sqDistance
  rw [Finset.sum_eq_zero_iff_of_nonneg (fun _ _ => by positivity)]
  constructor
  · intro h
    funext c
    have := h c (Finset.mem_univ c)
    have := pow_eq_zero_iff (two_ne_zero) |>.mp this
    linarith
  · rintro rfl c _; simp

theorem sqDistance_eq_dist (x y : Vec d) :
    sqDistance x y = dist (WithLp.toLp 2 x : EuclideanSpace ℝ (Fin d)) (WithLp.toLp 2 y) ^ 2 := by
  rw [EuclideanSpace.dist_eq, Real.sq_sqrt (Finset.sum_nonneg fun _ _ => by positivity)]
  exact Finset.sum_congr rfl fun c _ => by rw [Real.dist_eq, sq_abs]

theorem gaussKernel_zero (σ : ℝ) (x : Vec d) :
    gaussKernel σ 0 x = .ok (some fun _ => gauss0 σ x) := rfl
theorem gaussKernel_one (σ : ℝ) (x : Vec d) :
    gaussKernel σ 1 x = .ok (some fun I => -gauss0 σ x * x (I 0) / (σ * σ)) := rfl
theorem gaussKernel_two (σ : ℝ) (x : Vec d) :
    gaussKernel σ 2 x = .ok (some fun I =>
      gauss0 σ x * (-(if I 0 = I 1 then 1 else 0) + x (I 0) * x (I 1) / (σ * σ)) / (σ * σ)) := rfl

theorem gauss0_relDiff (σ : ℝ) (x y : Vec d) : gauss0 σ (relDiff x y) = kXY σ x y := by
  unfold gauss0 kXY relDiff sqDistance
  congr 1
  by_cases hσ : σ = 0
  · simp [hσ]
  · field_simp

theorem keopsGauss_eq (σ : ℝ) (x y : Vec d) : keopsGauss σ x y = kXY σ x y := by
  unfold keopsGauss kXY sqDistance
  congr 1
  by_cases hσ : σ = 0
  · simp [hσ]
  · field_simp

theorem kXX_eq {n : Nat} (σ : ℝ) (x : Fin n → Vec d) (i j : Fin n) :
    kXX σ x i j = kXY σ (x i) (x j) := rfl

theorem kXY_comm (σ : ℝ) (x y : Vec d) : kXY σ x y = kXY σ y x := by
  unfold kXY; rw [sqDistance_comm]

theorem kXY_pos (σ : ℝ) (x y : Vec d) : 0 < kXY σ x y := Real.exp_pos _

theorem kXY_self (σ : ℝ) (x : Vec d) : kXY σ x x = 1 := by
  simp [kXY, sqDistance_self]

theorem gauss0_neg (σ : ℝ) (x : Vec d) : gauss0 σ (fun c => -x c) = gauss0 σ x := by
  simp [gauss0]

/-- Linear form with coefficients `g`. -/
abbrev linForm (g : Vec d) : Vec d →L[ℝ] ℝ :=
  ∑ c, g c • (ContinuousLinearMap.proj c : (Fin d → ℝ) →L[ℝ] ℝ)

theorem linForm_apply (g v : Vec d) : linForm g v = ∑ c, g c * v c := by
  simp [linForm, ContinuousLinearMap.sum_apply]

theorem hasFDerivAt_coord (c : Fin d) (x : Vec d) :
    HasFDerivAt (fun y : Vec d => y c) (ContinuousLinearMap.proj c : (Fin d → ℝ) →L[ℝ] ℝ) x :=
  hasFDerivAt_apply c x

theorem hasFDerivAt_gauss0 (σ : ℝ) (x : Vec d) :
    HasFDerivAt (gauss0 σ) (linForm fun c => -gauss0 σ x * x c / (σ * σ)) x := by
  have h1 : HasFDerivAt (fun y : Vec d => ∑ c, y c ^ 2)
      (∑ c, (2 * x c) • (ContinuousLinearMap.proj c : (Fin d → ℝ) →L[ℝ] ℝ)) x := by
    apply HasFDerivAt.fun_sum
    intro c _
    have := (hasFDerivAt_coord c x).pow 2
    simpa using this
  have h2 : HasFDerivAt (fun y : Vec d => -(∑ c, y c ^ 2) / 2 / (σ * σ))
      ((-1 / 2 / (σ * σ)) • ∑ c, (2 * x c) • (ContinuousLinearMap.proj c : (Fin d → ℝ) →L[ℝ] ℝ)) x := by
    have := h1.const_mul (-1 / 2 / (σ * σ))
    refine this.congr_of_eventuallyEq (Filter.Eventually.of_forall fun y => ?_)
    ring
  have h3 := h2.exp
  refine h3.congr_fderiv ?_
  ext v
  simp only [linForm_apply, ContinuousLinearMap.smul_apply, ContinuousLinearMap.sum_apply,
    ContinuousLinearMap.proj_apply, smul_eq_mul, Finset.mul_sum]
  exact Finset.sum_congr rfl fun c _ => by unfold gauss0; ring

theorem hasFDerivAt_gauss1 (σ : ℝ) (x : Vec d) (a : Fin d) :
    HasFDerivAt (fun y : Vec d => -gauss0 σ y * y a / (σ * σ))
      (linForm fun c => gauss0 σ x * (-(if a = c then 1 else 0) + x a * x c / (σ * σ)) / (σ * σ)) x := by
  have h := ((hasFDerivAt_gauss0 σ x).mul (hasFDerivAt_coord a x)).const_mul (-1 / (σ * σ))
  have h' := h.congr_of_eventuallyEq
    (f₁ := fun y : Vec d => -gauss0 σ y * y a / (σ * σ)) (Filter.Eventually.of_forall fun y => by
      simp only [Pi.mul_apply]; ring)
  refine h'.congr_fderiv ?_
  ext v
  simp only [ContinuousLinearMap.smul_apply, ContinuousLinearMap.add_apply, linForm_apply,
    ContinuousLinearMap.proj_apply, smul_eq_mul]
  have : gauss0 σ x * v a = ∑ c, gauss0 σ x * (if a = c then 1 else 0) * v c := by
    simp
  rw [this, Finset.mul_sum, ← Finset.sum_add_distrib, Finset.mul_sum]
  refine Finset.sum_congr rfl fun c _ => ?_
  by_cases hσ : σ = 0
  · simp [hσ]
  · field_simp; ring

end
end Imodal
