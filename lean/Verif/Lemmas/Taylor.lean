import Mathlib.Analysis.Calculus.ContDiff.RCLike
import Mathlib.Analysis.Calculus.MeanValue
import Mathlib.Analysis.Calculus.FDeriv.Symmetric
import Mathlib.Analysis.Asymptotics.Lemmas
import Mathlib.Topology.MetricSpace.Thickening
/-!
# Taylor expansions, uniformly on compact sets
-/
set_option autoImplicit false
namespace Imodal
noncomputable section
open Filter Topology Set Asymptotics

variable {E F : Type} [NormedAddCommGroup E] [NormedSpace ℝ E] [NormedAddCommGroup F] [NormedSpace ℝ F]

/-! ## Functions of one variable -/

theorem mv_bound {g g' : ℝ → F} {b C : ℝ} (h : ∀ s ∈ Icc 0 b, HasDerivWithinAt g (g' s) (Icc 0 b) s) (hb : ∀ s ∈ Icc 0 b, ‖g' s‖ ≤ C) (h0 : g 0 = 0)
    {s : ℝ} (hs : s ∈ Icc 0 b) : ‖g s‖ ≤ C * b := by
  have hC : 0 ≤ C := (norm_nonneg _).trans (hb s hs)
  have := (convex_Icc 0 b).norm_image_sub_le_of_norm_hasDerivWithin_le h hb (left_mem_Icc.2 (hs.1.trans hs.2)) hs
  rw [h0, sub_zero, sub_zero, Real.norm_of_nonneg hs.1] at this
  exact this.trans (mul_le_mul_of_nonneg_left hs.2 hC)

theorem monomial_deriv {b s : ℝ} (n : Nat) (c : F) :
    HasDerivWithinAt (fun s : ℝ => (s ^ (n + 1) / (n + 1).factorial) • c) ((s ^ n / n.factorial) • c) (Icc 0 b) s := by
  have h := ((hasDerivAt_pow (n + 1) s).div_const ((n + 1).factorial : ℝ)).smul_const c
  have e : (((n + 1 : Nat) : ℝ) * s ^ n) / ((n + 1).factorial : ℝ) = s ^ n / n.factorial := by
    rw [Nat.factorial_succ, Nat.cast_mul]
    have h1 : ((n + 1 : Nat) : ℝ) ≠ 0 := by positivity
    have h2 : ((n.factorial : Nat) : ℝ) ≠ 0 := by positivity
    field_simp
  rw [Nat.add_sub_cancel, e] at h
  exact h.hasDerivWithinAt

/-- One step of Taylor's formula: from the derivative to the function. -/
theorem taylor_up {g g' : ℝ → F} {b C : ℝ} (n : Nat) (c : Nat → F) (h : ∀ s ∈ Icc 0 b, HasDerivWithinAt g (g' s) (Icc 0 b) s) (h0 : g 0 = c 0)
    (hb : ∀ s ∈ Icc 0 b, ‖g' s - ∑ i ∈ Finset.range n, (s ^ i / i.factorial) • c (i + 1)‖ ≤ C) :
    ∀ s ∈ Icc 0 b, ‖g s - ∑ i ∈ Finset.range (n + 1), (s ^ i / i.factorial) • c i‖ ≤ C * b := by
  intro s hs
  refine mv_bound (g := fun s => g s - ∑ i ∈ Finset.range (n + 1), (s ^ i / i.factorial) • c i)
    (g' := fun s => g' s - ∑ i ∈ Finset.range n, (s ^ i / i.factorial) • c (i + 1)) (fun u hu => ?_) hb ?_ hs
  · refine (h u hu).sub ?_
    simp only [Finset.sum_range_succ' _ n]
    simp only [pow_zero, Nat.factorial_zero, Nat.cast_one, div_one, one_smul]
    refine HasDerivWithinAt.add_const _ ?_
    exact HasDerivWithinAt.fun_sum fun i _ => monomial_deriv i (c (i + 1))
  · simp [Finset.sum_range_succ', h0]

/-! ## Along rays -/

theorem ray_deriv {f : E → F} {f' : E →L[ℝ] F} {a v : E} {s : ℝ} (h : HasFDerivAt f f' (a + s • v)) :
    HasDerivAt (fun s : ℝ => f (a + s • v)) (f' v) s := by
  have h1 : HasDerivAt (fun s : ℝ => a + s • v) v s := by
    have := ((hasDerivAt_id s).smul_const v).const_add a
    simpa using this
  exact h.comp_hasDerivAt s h1

theorem ray_apply {g : ℝ → E →L[ℝ] F} {g' : E →L[ℝ] F} {s : ℝ} (h : HasDerivAt g g' s) (v : E) : HasDerivAt (fun s => g s v) (g' v) s := by
  have := h.clm_apply (hasDerivAt_const s v)
  simpa using this

theorem ray_deriv1 {f : E → E →L[ℝ] F} {f' : E →L[ℝ] E →L[ℝ] F} {a v : E} {s : ℝ} (h : HasFDerivAt f f' (a + s • v)) :
    HasDerivAt (fun s : ℝ => f (a + s • v) v) (f' v v) s := ray_apply (ray_deriv h) v

theorem ray_deriv2 {f : E → E →L[ℝ] E →L[ℝ] F} {f' : E →L[ℝ] E →L[ℝ] E →L[ℝ] F} {a v : E} {s : ℝ} (h : HasFDerivAt f f' (a + s • v)) :
    HasDerivAt (fun s : ℝ => f (a + s • v) v v) (f' v v v) s := by
  have h1 := ray_deriv1 h
  exact ray_apply h1 v

/-- Taylor's formula of order one. -/
theorem taylor_ray1 {f : E → F} {f1 : E → E →L[ℝ] F} {a v : E} {R : ℝ} (h0 : ∀ s ∈ Icc (0 : ℝ) 1, HasFDerivAt f (f1 (a + s • v)) (a + s • v))
    (hR : ∀ s ∈ Icc (0 : ℝ) 1, ‖f1 (a + s • v) v - f1 a v‖ ≤ R) : ‖f (a + v) - (f a + f1 a v)‖ ≤ R := by
  have t0 := taylor_up (b := 1) (C := R) 1 (fun i => if i = 0 then f a else f1 a v) (g := fun s => f (a + s • v)) (g' := fun s => f1 (a + s • v) v)
    (fun s hs => (ray_deriv (h0 s hs)).hasDerivWithinAt) (by simp) (by simpa using hR)
  have := t0 1 (right_mem_Icc.2 zero_le_one)
  simpa [Finset.sum_range_succ] using this

/-- Taylor's formula of order three. -/
theorem taylor_ray3 {f : E → F} {f1 : E → E →L[ℝ] F} {f2 : E → E →L[ℝ] E →L[ℝ] F} {f3 : E → E →L[ℝ] E →L[ℝ] E →L[ℝ] F} {a v : E} {R : ℝ}
    (h0 : ∀ s ∈ Icc (0 : ℝ) 1, HasFDerivAt f (f1 (a + s • v)) (a + s • v))
    (h1 : ∀ s ∈ Icc (0 : ℝ) 1, HasFDerivAt f1 (f2 (a + s • v)) (a + s • v))
    (h2 : ∀ s ∈ Icc (0 : ℝ) 1, HasFDerivAt f2 (f3 (a + s • v)) (a + s • v))
    (hR : ∀ s ∈ Icc (0 : ℝ) 1, ‖f3 (a + s • v) v v v - f3 a v v v‖ ≤ R) :
    ‖f (a + v) - (f a + f1 a v + (1 / 2 : ℝ) • f2 a v v + (1 / 6 : ℝ) • f3 a v v v)‖ ≤ R := by
  set c : Nat → F := fun i => if i = 0 then f a else if i = 1 then f1 a v else if i = 2 then f2 a v v else f3 a v v v with hc
  have t2 := taylor_up (b := 1) (C := R) 1 (fun i => c (i + 2)) (g := fun s => f2 (a + s • v) v v) (g' := fun s => f3 (a + s • v) v v v)
    (fun s hs => (ray_deriv2 (h2 s hs)).hasDerivWithinAt) (by simp [hc]) (by simpa [hc] using hR)
  have t1 := taylor_up (b := 1) 2 (fun i => c (i + 1)) (g := fun s => f1 (a + s • v) v) (g' := fun s => f2 (a + s • v) v v)
    (fun s hs => (ray_deriv1 (h1 s hs)).hasDerivWithinAt) (by simp [hc]) t2
  have t0 := taylor_up (b := 1) 3 c (g := fun s => f (a + s • v)) (g' := fun s => f1 (a + s • v) v)
    (fun s hs => (ray_deriv (h0 s hs)).hasDerivWithinAt) (by simp [hc]) t1
  have := t0 1 (right_mem_Icc.2 zero_le_one)
  simp [Finset.sum_range_succ, hc, Nat.factorial] at this
  norm_num at this ⊢
  exact this

end
end Imodal
