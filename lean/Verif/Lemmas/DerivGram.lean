import Verif.Lemmas.Gram
import Verif.Lemmas.Field
import Mathlib.Analysis.Calculus.Deriv.Slope
import Mathlib.Analysis.Calculus.Deriv.Pow
import Mathlib.Analysis.SpecialFunctions.ExpDeriv
/-! The Gram matrix of point values and first derivatives of the Gaussian kernel is positive
semi-definite, as a limit of Gram matrices of point values. -/
set_option autoImplicit false
namespace Imodal
noncomputable section
open Filter Topology
variable {d : Nat} {ι : Type*} [Fintype ι]

/-- Euclidean product of coordinate vectors. -/
def dot (x y : Vec d) : ℝ := ∑ c, x c * y c

/-- `x + t a`. -/
def along (x a : Vec d) (t : ℝ) : Vec d := fun c => x c + t * a c

/-- Factor of the kernel when the first point moves along `a`. -/
def facA (σ : ℝ) (z a : Vec d) (t : ℝ) : ℝ :=
  Real.exp (-(t ^ 2 * dot a a + 2 * t * dot z a) / (2 * σ ^ 2))

theorem kXY_along (σ : ℝ) (x y a b : Vec d) (t u : ℝ) :
    kXY σ (along x a t) (along y b u)
      = kXY σ x y * facA σ (relDiff x y) a t * facA σ (relDiff x y) (fun c => -b c) u
        * Real.exp (t * u * (dot a b / σ ^ 2)) := by
  unfold kXY facA
  rw [← Real.exp_add, ← Real.exp_add, ← Real.exp_add]
  congr 1
  have h : sqDistance (along x a t) (along y b u)
      = sqDistance x y + (t ^ 2 * dot a a + 2 * t * dot (relDiff x y) a)
        + (u ^ 2 * dot (fun c => -b c) (fun c => -b c) + 2 * u * dot (relDiff x y) (fun c => -b c))
        - 2 * (t * u * dot a b) := by
    unfold sqDistance dot along relDiff
    simp only [Finset.mul_sum, ← Finset.sum_add_distrib, ← Finset.sum_sub_distrib]
    exact Finset.sum_congr rfl fun c _ => by ring
  rw [h]
  by_cases hσ : σ = 0
  · simp [hσ]
  · field_simp; ring

theorem facA_zero (σ : ℝ) (z a : Vec d) : facA σ z a 0 = 1 := by simp [facA]

theorem facA_slope (σ : ℝ) (z a : Vec d) :
    Tendsto (fun t => t⁻¹ * (facA σ z a t - 1)) (𝓝[≠] 0) (𝓝 (-dot z a / σ ^ 2)) := by
  have h : HasDerivAt (facA σ z a) (-dot z a / σ ^ 2) 0 := by
    have h1 : HasDerivAt (fun t : ℝ => -(t ^ 2 * dot a a + 2 * t * dot z a) / (2 * σ ^ 2))
        (-(2 * dot z a) / (2 * σ ^ 2)) 0 := by
      have ha : HasDerivAt (fun t : ℝ => t ^ 2 * dot a a + 2 * t * dot z a)
          (2 * dot z a) 0 := by
        have e1 := ((hasDerivAt_pow 2 (0 : ℝ)).mul_const (dot a a))
        have e2 := (((hasDerivAt_id (0 : ℝ)).const_mul 2).mul_const (dot z a))
        have e3 := e1.add e2
        exact e3.congr_deriv (by simp)
      exact ha.neg.div_const _
    have h2 := h1.exp
    have e : Real.exp (-((0 : ℝ) ^ 2 * dot a a + 2 * 0 * dot z a) / (2 * σ ^ 2)) * (-(2 * dot z a) / (2 * σ ^ 2))
        = -dot z a / σ ^ 2 := by
      by_cases hσ : σ = 0
      · simp [hσ]
      · simp; field_simp
    rw [e] at h2
    exact h2
  have := hasDerivAt_iff_tendsto_slope_zero.mp h
  simpa [facA_zero] using this

theorem expMixed (c : ℝ) :
    Tendsto (fun t : ℝ => (t ^ 2)⁻¹ * (Real.exp (t * t * c) - 1)) (𝓝[≠] 0) (𝓝 c) := by
  have h : HasDerivAt (fun s : ℝ => Real.exp (s * c)) c 0 := by
    have := ((hasDerivAt_id (0 : ℝ)).mul_const c).exp
    simpa using this
  have h1 := hasDerivAt_iff_tendsto_slope_zero.mp h
  have h2 : Tendsto (fun t : ℝ => t ^ 2) (𝓝[≠] 0) (𝓝[≠] 0) := by
    refine tendsto_nhdsWithin_iff.mpr ⟨?_, ?_⟩
    · have : Tendsto (fun t : ℝ => t ^ 2) (𝓝 0) (𝓝 (0 ^ 2)) := (continuous_pow 2).tendsto 0
      rw [zero_pow two_ne_zero] at this
      exact this.mono_left nhdsWithin_le_nhds
    · filter_upwards [self_mem_nhdsWithin] with t ht
      exact pow_ne_zero 2 ht
  have h3 := h1.comp h2
  refine h3.congr fun t => ?_
  simp [sq]

theorem facA_tendsto (σ : ℝ) (z a : Vec d) : Tendsto (facA σ z a) (𝓝[≠] 0) (𝓝 1) := by
  have hc : Continuous (facA σ z a) := by unfold facA; fun_prop
  have := hc.tendsto 0
  rw [facA_zero] at this
  exact this.mono_left nhdsWithin_le_nhds

/-- One entry of the limiting Gram matrix, scalar fields. -/
def entry (σ : ℝ) (x y : Vec d) (α β : ℝ) (a b : Vec d) : ℝ :=
  α * β * kXY σ x y - α * dot b (g1 σ (relDiff x y)) + dot a (g1 σ (relDiff x y)) * β
    - ∑ c, ∑ e, a c * b e * g2 σ (relDiff x y) c e

/-- One entry of the approximating Gram matrix. -/
def approxEntry (σ : ℝ) (x y : Vec d) (α β : ℝ) (a b : Vec d) (t : ℝ) : ℝ :=
  (α - t⁻¹) * (β - t⁻¹) * kXY σ x y + (α - t⁻¹) * t⁻¹ * kXY σ x (along y b t)
    + t⁻¹ * (β - t⁻¹) * kXY σ (along x a t) y + t⁻¹ * t⁻¹ * kXY σ (along x a t) (along y b t)

theorem along_zero (x a : Vec d) : along x a 0 = x := by funext c; simp [along]

theorem approxEntry_tendsto (σ : ℝ) (x y : Vec d) (α β : ℝ) (a b : Vec d) :
    Tendsto (approxEntry σ x y α β a b) (𝓝[≠] 0) (𝓝 (entry σ x y α β a b)) := by
  set z := relDiff x y with hz
  set b' : Vec d := fun c => -b c with hb'
  set K := kXY σ x y with hK
  set c := dot a b / σ ^ 2 with hc
  have hA := facA_slope σ z a
  have hB := facA_slope σ z b'
  have hA1 := facA_tendsto σ z a
  have hB1 := facA_tendsto σ z b'
  have hE := expMixed c
  have key : Tendsto (fun t => α * β * K + α * (K * (t⁻¹ * (facA σ z b' t - 1)))
      + β * (K * (t⁻¹ * (facA σ z a t - 1)))
      + K * ((t⁻¹ * (facA σ z a t - 1)) * (t⁻¹ * (facA σ z b' t - 1))
        + facA σ z a t * facA σ z b' t * ((t ^ 2)⁻¹ * (Real.exp (t * t * c) - 1)))) (𝓝[≠] 0)
      (𝓝 (α * β * K + α * (K * (-dot z b' / σ ^ 2)) + β * (K * (-dot z a / σ ^ 2))
        + K * ((-dot z a / σ ^ 2) * (-dot z b' / σ ^ 2) + 1 * 1 * c))) :=
    (((tendsto_const_nhds.add ((hB.const_mul K).const_mul α)).add ((hA.const_mul K).const_mul β)).add
      (((hA.mul hB).add ((hA1.mul hB1).mul hE)).const_mul K))
  have e1 : ∀ t : ℝ, t ≠ 0 → approxEntry σ x y α β a b t
      = α * β * K + α * (K * (t⁻¹ * (facA σ z b' t - 1)))
      + β * (K * (t⁻¹ * (facA σ z a t - 1)))
      + K * ((t⁻¹ * (facA σ z a t - 1)) * (t⁻¹ * (facA σ z b' t - 1))
        + facA σ z a t * facA σ z b' t * ((t ^ 2)⁻¹ * (Real.exp (t * t * c) - 1))) := by
    intro t ht
    have h00 : kXY σ (along x a t) y = K * facA σ z a t := by
      have := kXY_along σ x y a b t 0
      rw [along_zero, facA_zero] at this
      simpa using this
    have h01 : kXY σ x (along y b t) = K * facA σ z b' t := by
      have := kXY_along σ x y a b 0 t
      rw [along_zero, facA_zero] at this
      simpa using this
    have h11 : kXY σ (along x a t) (along y b t) = K * facA σ z a t * facA σ z b' t * Real.exp (t * t * c) :=
      kXY_along σ x y a b t t
    unfold approxEntry
    rw [h00, h01, h11, ← hK]
    field_simp
    ring
  have e2 : entry σ x y α β a b = α * β * K + α * (K * (-dot z b' / σ ^ 2)) + β * (K * (-dot z a / σ ^ 2))
        + K * ((-dot z a / σ ^ 2) * (-dot z b' / σ ^ 2) + 1 * 1 * c) := by
    have hg1 : ∀ v : Vec d, dot v (g1 σ z) = -K * dot z v / σ ^ 2 := by
      intro v
      unfold dot g1
      rw [hz, gauss0_relDiff, ← hK, Finset.mul_sum, Finset.sum_div]
      exact Finset.sum_congr rfl fun c _ => by ring
    have hg2 : ∑ c, ∑ e, a c * b e * g2 σ z c e
        = K * (-dot a b + dot z a * dot z b / σ ^ 2) / σ ^ 2 := by
      have hz' : dot z a * dot z b = ∑ c, ∑ e, a c * b e * (z c * z e) := by
        unfold dot
        rw [Finset.sum_mul_sum]
        exact Finset.sum_congr rfl fun c _ => Finset.sum_congr rfl fun e _ => by ring
      have hab : dot a b = ∑ c, ∑ e, a c * b e * (if c = e then 1 else 0) := by
        unfold dot; simp
      rw [hz', hab, ← Finset.sum_neg_distrib, Finset.sum_div, ← Finset.sum_add_distrib, Finset.mul_sum, Finset.sum_div]
      refine Finset.sum_congr rfl fun c _ => ?_
      rw [← Finset.sum_neg_distrib, Finset.sum_div, ← Finset.sum_add_distrib, Finset.mul_sum, Finset.sum_div]
      refine Finset.sum_congr rfl fun e _ => ?_
      unfold g2
      rw [hz, gauss0_relDiff, ← hK]
      ring
    have hneg : dot z b' = -dot z b := by
      simp [dot, hb']
    unfold entry
    rw [← hz, hg1, hg1, hg2, hneg, ← hK, hc]
    ring
  rw [e2]
  refine key.congr' ?_
  filter_upwards [self_mem_nhdsWithin] with t ht
  exact (e1 t ht).symm

/-- Positive semi-definiteness for scalar functionals `Σ_i α_i f(x_i) + ⟨a_i, ∇f(x_i)⟩`. -/
theorem entry_psd (σ : ℝ) (x : ι → Vec d) (α : ι → ℝ) (a : ι → Vec d) :
    0 ≤ ∑ i, ∑ j, entry σ (x i) (x j) (α i) (α j) (a i) (a j) := by
  have hlim : Tendsto (fun t => ∑ i, ∑ j, approxEntry σ (x i) (x j) (α i) (α j) (a i) (a j) t) (𝓝[≠] 0)
      (𝓝 (∑ i, ∑ j, entry σ (x i) (x j) (α i) (α j) (a i) (a j))) :=
    tendsto_finsetSum _ fun i _ => tendsto_finsetSum _ fun j _ => approxEntry_tendsto σ _ _ _ _ _ _
  refine ge_of_tendsto' hlim fun t => ?_
  have h := gaussian_psd σ (Sum.elim x fun i => along (x i) (a i) t)
    (Sum.elim (fun i => α i - t⁻¹) fun _ => t⁻¹)
  refine h.trans_eq ?_
  simp only [Fintype.sum_sum_type, Sum.elim_inl, Sum.elim_inr]
  unfold approxEntry
  simp only [Finset.sum_add_distrib]
  ring

end
end Imodal
