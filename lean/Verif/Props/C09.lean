import Verif.Lemmas.Kernel
import Verif.Spec.Euclid
/-!
# C09 Kernel derivatives are the derivatives

`gauss_kernel(x, 1, sigma)` lists the partial derivatives of `gauss_kernel(·, 0, sigma)`,
`gauss_kernel(x, 2, sigma)` those of `gauss_kernel(·, 1, sigma)`, in the sense of Fréchet.
Order 3 raises; higher orders return `None`.
-/
set_option autoImplicit false
namespace Imodal
open Spec
variable {d : Nat}

/-- Whenever the call of order `k` and the call of order `k+1` return tensors, the last index
of the second lists the partial derivatives of the first. -/
theorem C09_derivative (σ : ℝ) (k : Nat) (V : Vec d → Tens d k)
    (hV : ∀ y, gaussKernel σ k y = .ok (some (V y)))
    (x : Vec d) (W : Tens d (k + 1)) (hW : gaussKernel σ (k + 1) x = .ok (some W))
    (I : Fin k → Fin d) :
    HasGradient (fun y => V y I) (fun c => W (Fin.snoc I c)) x := by
  unfold HasGradient
  rcases k with _ | _ | k
  · have hV' : ∀ y, V y = fun _ => gauss0 σ y := fun y => by
      exact (Option.some.inj (Except.ok.inj ((gaussKernel_zero σ y).symm.trans (hV y)))).symm
    have h := Option.some.inj (Except.ok.inj ((gaussKernel_one σ x).symm.trans hW))
    subst h
    simp only [hV']
    exact hasFDerivAt_gauss0 σ x
  · have hV' : ∀ y, V y = fun I => -gauss0 σ y * y (I 0) / (σ * σ) := fun y => by
      exact (Option.some.inj (Except.ok.inj ((gaussKernel_one σ y).symm.trans (hV y)))).symm
    have h := Option.some.inj (Except.ok.inj ((gaussKernel_two σ x).symm.trans hW))
    subst h
    simp only [hV']
    exact hasFDerivAt_gauss1 σ x (I 0)
  · exfalso
    rcases k with _ | k
    · simp [gaussKernel] at hW
    · simp [gaussKernel] at hW

/-- Order 0 is the Gaussian of the norm, so the derivatives above are those of the Gaussian. -/
theorem C09_base (σ : ℝ) (x : Vec d) :
    gaussKernel σ 0 x = .ok (some fun _ => Real.exp (-(euclid x 0 ^ 2) / (2 * σ ^ 2))) := by
  have h : gauss0 σ x = Real.exp (-(euclid x 0 ^ 2) / (2 * σ ^ 2)) := by
    unfold gauss0 euclid
    rw [← sqDistance_eq_dist]
    congr 1
    unfold sqDistance
    by_cases hσ : σ = 0
    · simp [hσ]
    · simp; field_simp
  simp [gaussKernel, h]

/-- Exactly the orders 0, 1 and 2 return a tensor; 3 raises NotImplementedError and larger
orders return `None`. -/
theorem C09_orders (σ : ℝ) (k : Nat) (x : Vec d) :
    (k ≤ 2 ↔ ∃ t, gaussKernel σ k x = .ok (some t)) ∧
    (k = 3 ↔ gaussKernel σ k x = .error .notImplemented) ∧
    (4 ≤ k ↔ gaussKernel σ k x = .ok none) := by
  rcases k with _ | _ | _ | _ | k <;> simp [gaussKernel]

/-- The Hessian is symmetric. -/
theorem C09_hessian_symmetric (σ : ℝ) (x : Vec d) (H : Tens d 2)
    (hH : gaussKernel σ 2 x = .ok (some H)) (i j : Fin d) : H ![i, j] = H ![j, i] := by
  rw [gaussKernel_two] at hH
  injection hH with h; injection h with h
  subst h
  by_cases hij : i = j
  · subst hij; rfl
  · have h1 : ¬ (![i, j] 0 = ![i, j] 1) := hij
    have h2 : ¬ (![j, i] 0 = ![j, i] 1) := Ne.symm hij
    beta_reduce
    rw [if_neg h1, if_neg h2]
    simp only [Matrix.cons_val_zero, Matrix.cons_val_one]
    ring

-- the hypotheses of `C09_derivative` are met at orders 0 and 1, in every dimension
example (σ : ℝ) (x : Vec 3) : ∃ V : Vec 3 → Tens 3 1, (∀ y, gaussKernel σ 1 y = .ok (some (V y))) ∧
    ∃ W, gaussKernel σ 2 x = .ok (some W) :=
  ⟨fun y I => -gauss0 σ y * y (I 0) / (σ * σ), fun y => gaussKernel_one σ y, _, gaussKernel_two σ x⟩

end Imodal
