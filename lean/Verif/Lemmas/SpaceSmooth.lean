import Verif.Lemmas.SmoothAtoms
import Verif.Lemmas.ModQuad
import Verif.Lemmas.Stretch
import Mathlib.Analysis.Calculus.FDeriv.Add
import Mathlib.Analysis.Calculus.FDeriv.Equiv
import Mathlib.LinearAlgebra.Determinant
import Mathlib.Topology.Algebra.Module.Determinant
import Mathlib.Topology.Algebra.Module.FiniteDimension
import Mathlib.Topology.Order.IntermediateValue
/-!
# Fields are smooth in space, and steps along flat fields keep orientation
-/
set_option autoImplicit false
namespace Imodal
noncomputable section
open Spec
variable {d : Nat}

theorem rep_contDiff (n : WithTop ℕ∞) (σ : ℝ) : (A : List (Atom d)) → ContDiff ℝ n (rep σ A)
  | [] => (contDiff_const : ContDiff ℝ n fun _ : Vec d => (0 : Vec d))
  | a :: A => by
    have h : rep σ (a :: A) = fun y => a.rep σ y + rep σ A y := funext fun y => rep_cons σ a A y
    rw [h]
    refine ContDiff.add (contDiff_iff_contDiffAt.2 fun y => contDiffAt_pi.2 fun c => ?_) (rep_contDiff n σ A)
    exact sm_atom_rep σ (b := fun _ => a) (y := fun y => y) ⟨fun _ => contDiffAt_const, fun _ => contDiffAt_const, fun _ _ => contDiffAt_const⟩
      (fun c => (contDiff_apply ℝ ℝ c).contDiffAt) c

theorem IsRep.contDiff {n : WithTop ℕ∞} {σ : ℝ} {f : FieldExpr d} {A : List (Atom d)} (h : IsRep σ f A) : ContDiff ℝ n (fieldVal f) := by
  rw [show fieldVal f = rep σ A from funext h.val]
  exact rep_contDiff n σ A

mutual
/-- The values of every field of the library are smooth in space. -/
theorem fieldVal_contDiff (n : WithTop ℕ∞) : (f : FieldExpr d) → Avail 0 f → ContDiff ℝ n (fieldVal f)
  | .f0 r supp mom σ, _ => (isRep_f0 r supp mom σ).contDiff
  | .f0u r supp mom dir σ, _ => (isRep_f0u r supp mom dir σ).contDiff
  | .fp r supp mom σ, _ => (isRep_fp r supp mom σ).contDiff
  | .fm r supp mom σ, _ => (isRep_fm r supp mom σ).contDiff
  | .f1 .torch supp mom σ, _ => (isRep_f1 supp mom σ).contDiff
  | .f1 .keops supp mom σ, h => by
    obtain ⟨V, hV⟩ := h
    cases hV fun _ => 0
  | .affine A x0 u, _ => by
    refine contDiff_pi.2 fun b => ?_
    simp only [fieldVal_affine]
    exact (ContDiff.sum fun k _ => ((contDiff_apply ℝ ℝ k).sub contDiff_const).mul contDiff_const).add contDiff_const
  | .const m, _ => (contDiff_const : ContDiff ℝ n fun _ : Vec d => m)
  | .null, _ => (isRep_null 1).contDiff
  | .sum fs, h => fieldSum_contDiff n fs h
theorem fieldSum_contDiff (n : WithTop ℕ∞) : (fs : List (FieldExpr d)) → Avail 0 (.sum fs) → ContDiff ℝ n (fieldVal (.sum fs))
  | [], _ => (contDiff_const : ContDiff ℝ n fun _ : Vec d => (0 : Vec d))
  | f :: fs, h => by
    obtain ⟨h1, h2⟩ := avail_sum_cons.1 h
    rw [show fieldVal (.sum (f :: fs)) = fun x => fieldVal f x + fieldVal (.sum fs) x from funext fun x => fieldVal_sum_cons h1 h2 x]
    exact (fieldVal_contDiff n f h1).add (fieldSum_contDiff n fs h2)
end

/-! ### Orientation -/

/-- The identity plus a map that shortens vectors has positive determinant. -/
theorem det_one_add_pos {A : Vec d →L[ℝ] Vec d} {q : ℝ} (hq : q < 1) (hA : ∀ v, euclid (A v) 0 ≤ q * euclid v 0) :
    0 < (ContinuousLinearMap.id ℝ (Vec d) + A).det := by
  let g : ℝ → ℝ := fun t => (ContinuousLinearMap.id ℝ (Vec d) + t • A).det
  have hg : Continuous g := by
    have : Continuous fun t : ℝ => ContinuousLinearMap.id ℝ (Vec d) + t • A := continuous_const.add (continuous_id.smul continuous_const)
    exact ContinuousLinearMap.continuous_det.comp this
  have hne : ∀ t ∈ Set.Icc (0 : ℝ) 1, g t ≠ 0 := fun t ht h0 => by
    have : ¬ Function.Injective (ContinuousLinearMap.id ℝ (Vec d) + t • A) := fun hi => by
      have h1 : LinearMap.ker ((ContinuousLinearMap.id ℝ (Vec d) + t • A : Vec d →L[ℝ] Vec d) : Vec d →ₗ[ℝ] Vec d) = ⊥ := LinearMap.ker_eq_bot.2 hi
      have h2 := LinearMap.bot_lt_ker_of_det_eq_zero h0
      rw [h1] at h2
      exact lt_irrefl _ h2
    apply this
    rw [injective_iff_map_eq_zero]
    intro v hv
    have e : v = -(t • A v) := by
      have : v + t • A v = 0 := hv
      exact eq_neg_of_add_eq_zero_left this
    have hn : euclid v 0 = t * euclid (A v) 0 := by
      have h1 : euclid (-(t • A v)) 0 = t * euclid (A v) 0 := by
        unfold euclid
        rw [dist_eq_norm, dist_eq_norm]
        have : (WithLp.toLp 2 (-(t • A v)) - WithLp.toLp 2 (0 : Vec d) : EuclideanSpace ℝ (Fin d)) = -(t • (WithLp.toLp 2 (A v) - WithLp.toLp 2 (0 : Vec d))) := by
          ext b; simp
        rw [this, norm_neg, norm_smul, Real.norm_eq_abs, abs_of_nonneg ht.1]
      rw [← h1, ← e]
    have h2 := hA v
    have h3 := euclid_nonneg (A v) 0
    have h4 := euclid_nonneg v 0
    have : euclid v 0 = 0 := by
      have : t * euclid (A v) 0 ≤ euclid (A v) 0 := by nlinarith [ht.2]
      nlinarith
    exact euclid_eq_zero.1 this
  have h0 : g 0 = 1 := by
    show (ContinuousLinearMap.id ℝ (Vec d) + (0 : ℝ) • A).det = 1
    rw [zero_smul, add_zero]
    exact LinearMap.det_id
  have h1 : g 1 = (ContinuousLinearMap.id ℝ (Vec d) + A).det := by
    show (ContinuousLinearMap.id ℝ (Vec d) + (1 : ℝ) • A).det = _
    rw [one_smul]
  rw [← h1]
  by_contra hn
  obtain ⟨t, ht, h2⟩ := intermediate_value_Icc' zero_le_one hg.continuousOn (show (0 : ℝ) ∈ Set.Icc (g 1) (g 0) from ⟨not_lt.1 hn, by rw [h0]; exact zero_le_one⟩)
  exact hne t ht h2

/-- The derivative of a flat field shortens vectors. -/
theorem fderiv_flat {V : Vec d → Vec d} {K : ℝ} (hV : ∀ x y, euclid (V x) (V y) ≤ K * euclid x y) (hd : Differentiable ℝ V) (x v : Vec d) :
    euclid (fderiv ℝ V x v) 0 ≤ K * euclid v 0 := by
  have h1 : HasDerivAt (fun t : ℝ => V (x + t • v)) (fderiv ℝ V x v) 0 := by
    have h2 : HasDerivAt (fun t : ℝ => x + t • v) v 0 := by
      have := ((hasDerivAt_id (0 : ℝ)).smul_const v).const_add x
      simpa using this
    have h3 : HasFDerivAt V (fderiv ℝ V x) (x + (0 : ℝ) • v) := by
      rw [zero_smul, add_zero]; exact (hd x).hasFDerivAt
    exact h3.comp_hasDerivAt 0 h2
  have h2 := (hasDerivAt_iff_tendsto_slope.1 h1)
  have hc : Continuous fun w : Vec d => euclid w 0 := by
    unfold euclid
    exact ((PiLp.continuous_toLp 2 _)).dist continuous_const
  refine le_of_tendsto ((hc.tendsto _).comp h2) ?_
  filter_upwards [self_mem_nhdsWithin] with t ht
  have ht : t ≠ 0 := ht
  have e : slope (fun t : ℝ => V (x + t • v)) 0 t = t⁻¹ • (V (x + t • v) - V x) := by
    rw [slope_def_module]; simp
  have sc : ∀ (c : ℝ) (w : Vec d), euclid (c • w) 0 = |c| * euclid w 0 := fun c w => by
    unfold euclid
    rw [dist_eq_norm, dist_eq_norm]
    have : (WithLp.toLp 2 (c • w) - WithLp.toLp 2 (0 : Vec d) : EuclideanSpace ℝ (Fin d)) = c • (WithLp.toLp 2 w - WithLp.toLp 2 (0 : Vec d)) := by
      ext b; simp
    rw [this, norm_smul, Real.norm_eq_abs]
  have sub : ∀ a b : Vec d, euclid (a - b) 0 = euclid a b := fun a b => by
    unfold euclid
    rw [dist_eq_norm, dist_eq_norm]
    congr 1
    ext b; simp
  show euclid (slope (fun t : ℝ => V (x + t • v)) 0 t) 0 ≤ K * euclid v 0
  rw [e, sc, sub]
  have h3 := hV (x + t • v) x
  rw [← sub (x + t • v) x, add_sub_cancel_left, sc] at h3
  rw [abs_inv]
  have hp : 0 < |t| := abs_pos.2 ht
  calc |t|⁻¹ * euclid (V (x + t • v)) (V x) ≤ |t|⁻¹ * (K * (|t| * euclid v 0)) := mul_le_mul_of_nonneg_left h3 (by positivity)
    _ = K * euclid v 0 := by field_simp

/-- One step along a flat field keeps orientation. -/
theorem det_step_pos {V : Vec d → Vec d} {K h : ℝ} (hV : ∀ x y, euclid (V x) (V y) ≤ K * euclid x y) (hd : Differentiable ℝ V)
    (hK : |h| * K < 1) (x : Vec d) : 0 < (fderiv ℝ (fun x : Vec d => x + h • V x) x).det := by
  have e : fderiv ℝ (fun x : Vec d => x + h • V x) x = ContinuousLinearMap.id ℝ (Vec d) + h • fderiv ℝ V x := by
    exact ((hasFDerivAt_id x).add ((hd x).hasFDerivAt.const_smul h)).fderiv
  rw [e]
  refine det_one_add_pos hK fun v => ?_
  have sc : ∀ (c : ℝ) (w : Vec d), euclid (c • w) 0 = |c| * euclid w 0 := fun c w => by
    unfold euclid
    rw [dist_eq_norm, dist_eq_norm]
    have : (WithLp.toLp 2 (c • w) - WithLp.toLp 2 (0 : Vec d) : EuclideanSpace ℝ (Fin d)) = c • (WithLp.toLp 2 w - WithLp.toLp 2 (0 : Vec d)) := by
      ext b; simp
    rw [this, norm_smul, Real.norm_eq_abs]
  rw [ContinuousLinearMap.smul_apply, sc, mul_assoc]
  exact mul_le_mul_of_nonneg_left (fderiv_flat hV hd x v) (abs_nonneg _)

end
end Imodal
