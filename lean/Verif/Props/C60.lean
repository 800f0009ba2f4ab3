import Verif.Model.MeshUtils
import Verif.Lemmas.Kernel
import Mathlib.Analysis.Convex.Combination
/-!
# C60: kernel smoothing
-/
set_option autoImplicit false
namespace Imodal
noncomputable section
variable {d : Nat}

theorem smooth_den_pos (k : Vec d → Vec d → ℝ) (hk : ∀ x y, 0 < k x y) {n : Nat} (x : Fin n → Vec d) (i : Fin n) : 0 < ∑ j, k (x i) (x j) :=
  Finset.sum_pos (fun j _ => hk _ _) ⟨i, Finset.mem_univ i⟩

/-- Smoothing with a positive kernel replaces every point by a convex combination of the points
of the curve with positive weights. -/
theorem C60_convex (k : Vec d → Vec d → ℝ) (hk : ∀ x y, 0 < k x y) {n : Nat} (x : Fin n → Vec d) (i : Fin n) :
    (∃ w : Fin n → ℝ, (∀ j, 0 < w j) ∧ ∑ j, w j = 1 ∧ kernelSmooth k x i = ∑ j, w j • x j) ∧ kernelSmooth k x i ∈ convexHull ℝ (Set.range x) := by
  have hpos := smooth_den_pos k hk x i
  have h : ∃ w : Fin n → ℝ, (∀ j, 0 < w j) ∧ ∑ j, w j = 1 ∧ kernelSmooth k x i = ∑ j, w j • x j := by
    refine ⟨fun j => k (x i) (x j) / ∑ l, k (x i) (x l), fun j => div_pos (hk _ _) hpos, ?_, ?_⟩
    · rw [← Finset.sum_div, div_self hpos.ne']
    · funext c
      rw [Finset.sum_apply]
      simp only [kernelSmooth, Pi.smul_apply, smul_eq_mul, Finset.sum_div]
      exact Finset.sum_congr rfl fun j _ => by ring
  refine ⟨h, ?_⟩
  obtain ⟨w, h0, h1, h2⟩ := h
  rw [h2]
  exact (convex_convexHull ℝ _).sum_mem (fun j _ => (h0 j).le) h1 fun j _ => subset_convexHull ℝ _ ⟨j, rfl⟩

/-- It stays in every box that contains the curve. -/
theorem C60_box (k : Vec d → Vec d → ℝ) (hk : ∀ x y, 0 < k x y) {n : Nat} (x : Fin n → Vec d) (lo hi : Vec d) (h : ∀ j c, lo c ≤ x j c ∧ x j c ≤ hi c) :
    ∀ i c, lo c ≤ kernelSmooth k x i c ∧ kernelSmooth k x i c ≤ hi c := by
  intro i c
  have hpos := smooth_den_pos k hk x i
  unfold kernelSmooth
  rw [le_div_iff₀ hpos, div_le_iff₀ hpos, Finset.mul_sum, Finset.mul_sum]
  refine ⟨Finset.sum_le_sum fun j _ => ?_, Finset.sum_le_sum fun j _ => ?_⟩
  · rw [mul_comm]; exact mul_le_mul_of_nonneg_left (h j c).1 (hk _ _).le
  · rw [mul_comm (hi c)]; exact mul_le_mul_of_nonneg_left (h j c).2 (hk _ _).le

/-- Constant curves are kept. -/
theorem C60_constant (k : Vec d → Vec d → ℝ) (hk : ∀ x y, 0 < k x y) {n : Nat} (q : Vec d) (i : Fin n) : kernelSmooth k (fun _ => q) i = q := by
  funext c
  have := C60_box k hk (fun _ : Fin n => q) q q (fun _ _ => ⟨le_rfl, le_rfl⟩) i c
  exact le_antisymm this.2 this.1

/-- The Gaussian smoothing of the package, for every width other than zero. -/
theorem C60_gaussian (σ : ℝ) (_hσ : σ ≠ 0) {n : Nat} (x : Fin n → Vec d) (i : Fin n) :
    gaussianKernelSmooth σ x i ∈ convexHull ℝ (Set.range x) ∧
    (∀ lo hi : Vec d, (∀ j c, lo c ≤ x j c ∧ x j c ≤ hi c) → ∀ c, lo c ≤ gaussianKernelSmooth σ x i c ∧ gaussianKernelSmooth σ x i c ≤ hi c) ∧
    ∀ q, (∀ j, x j = q) → gaussianKernelSmooth σ x i = q := by
  have hk : ∀ a b : Vec d, 0 < kXY σ a b := fun a b => kXY_pos σ a b
  refine ⟨(C60_convex _ hk x i).2, fun lo hi h c => C60_box _ hk x lo hi h i c, fun q hq => ?_⟩
  obtain rfl : x = fun _ => q := funext hq
  exact C60_constant _ hk q i

/-- Moving the curve moves the smoothed curve. -/
theorem C60_translation (σ : ℝ) {n : Nat} (x : Fin n → Vec d) (v : Vec d) (i : Fin n) :
    gaussianKernelSmooth σ (fun j => x j + v) i = gaussianKernelSmooth σ x i + v := by
  have hk : ∀ a b : Vec d, kXY σ (a + v) (b + v) = kXY σ a b := by
    intro a b
    simp only [kXY, sqDistance, Pi.add_apply, add_sub_add_right_eq_sub]
  have hpos := smooth_den_pos (kXY σ) (fun a b => kXY_pos σ a b) x i
  funext c
  simp only [gaussianKernelSmooth, kernelSmooth, hk, Pi.add_apply, mul_add, Finset.sum_add_distrib, ← Finset.sum_mul, add_div]
  rw [mul_div_cancel_left₀ _ hpos.ne']

example : ∃ x : Fin 2 → Vec 1, x 0 ≠ x 1 ∧ gaussianKernelSmooth 1 x 0 ∈ convexHull ℝ (Set.range x) :=
  ⟨![![0], ![1]], by intro h; simpa using congrFun h 0, (C60_gaussian 1 one_ne_zero _ 0).1⟩

end
end Imodal
