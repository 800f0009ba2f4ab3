import Verif.Lemmas.Kernel
import Verif.Spec.Euclid
/-! Closed forms of the field evaluations, and their derivatives. -/
set_option autoImplicit false
namespace Imodal
noncomputable section
open Spec
variable {d n : Nat}

/-- Gradient of the Gaussian, `gauss_kernel(·, 1, σ)`. -/
def g1 (σ : ℝ) (z : Vec d) (c : Fin d) : ℝ := -gauss0 σ z * z c / (σ * σ)
/-- Hessian of the Gaussian, `gauss_kernel(·, 2, σ)`. -/
def g2 (σ : ℝ) (z : Vec d) : Mat d := fun a c =>
  gauss0 σ z * (-(if a = c then 1 else 0) + z a * z c / (σ * σ)) / (σ * σ)

theorem g1_neg (σ : ℝ) (x y : Vec d) (c : Fin d) : g1 σ (relDiff x y) c = -g1 σ (relDiff y x) c := by
  unfold g1
  have : gauss0 σ (relDiff x y) = gauss0 σ (relDiff y x) := by
    rw [gauss0_relDiff, gauss0_relDiff, kXY_comm]
  rw [this]; unfold relDiff; ring

theorem g2_comm (σ : ℝ) (z : Vec d) (a c : Fin d) : g2 σ z a c = g2 σ z c a := by
  unfold g2
  by_cases h : a = c
  · subst h; rfl
  · rw [if_neg h, if_neg (Ne.symm h)]; ring

theorem g2_neg (σ : ℝ) (x y : Vec d) (a c : Fin d) :
    g2 σ (relDiff x y) a c = g2 σ (relDiff y x) a c := by
  unfold g2
  have : gauss0 σ (relDiff x y) = gauss0 σ (relDiff y x) := by
    rw [gauss0_relDiff, gauss0_relDiff, kXY_comm]
  rw [this]; unfold relDiff; ring

theorem kerRows_one (σ : ℝ) (rows : Fin n → Vec d) (e : PyErr) :
    kerRows σ 1 rows e = .ok fun j I => g1 σ (rows j) (I 0) := rfl
theorem kerRows_two (σ : ℝ) (rows : Fin n → Vec d) (e : PyErr) :
    kerRows σ 2 rows e = .ok fun j I => g2 σ (rows j) (I 0) (I 1) := rfl
theorem kerRows_three (σ : ℝ) (rows : Fin n → Vec d) (e : PyErr) :
    kerRows σ 3 rows e = .error .notImplemented := rfl
theorem kerRows_big (σ : ℝ) (k : Nat) (rows : Fin n → Vec d) (e : PyErr) :
    kerRows σ (k + 4) rows e = .error e := by
  unfold kerRows
  rw [if_neg (by omega), if_pos (by omega)]

theorem kerRows_ge_three (σ : ℝ) (k : Nat) (rows : Fin n → Vec d) (e : PyErr) :
    ∃ e', kerRows σ (k + 3) rows e = .error e' := by
  rcases k with _ | k
  · exact ⟨_, kerRows_three σ rows e⟩
  · exact ⟨_, kerRows_big σ k rows e⟩

theorem sum_eye (b : Fin d) (f : Fin d → ℝ) : ∑ a, eye a b * f a = f b := by
  simp [eye]

/-! ### Closed forms -/

section
variable (supp mom dir : Fin n → Vec d) (P : Fin n → Mat d) (m : Fin n → ℝ) (σ : ℝ) (x : Vec d)

theorem field0Torch_zero : field0Torch supp mom σ 0 x
    = .ok fun I => ∑ j, kXY σ x (supp j) * mom j (I 0) := rfl

theorem field0Torch_one : field0Torch supp mom σ 1 x
    = .ok fun I => ∑ j, g1 σ (relDiff x (supp j)) (I 1) * mom j (I 0) := by
  unfold field0Torch
  rw [if_neg (by decide), kerRows_one]
  refine congrArg Except.ok (funext fun I => ?_)
  have : ∀ a, ∑ j, eye a (I 0) * (fun j (I : Fin 1 → Fin d) => g1 σ (relDiff x (supp j)) (I 0)) j (Fin.tail I) * mom j a
      = eye a (I 0) * ∑ j, g1 σ (relDiff x (supp j)) (I 1) * mom j a := by
    intro a
    rw [Finset.mul_sum]
    exact Finset.sum_congr rfl fun j _ => mul_assoc _ _ _
  rw [Finset.sum_congr rfl fun a _ => this a, sum_eye]

theorem field0Torch_two : field0Torch supp mom σ 2 x
    = .ok fun I => ∑ j, g2 σ (relDiff x (supp j)) (I 1) (I 2) * mom j (I 0) := by
  unfold field0Torch
  rw [if_neg (by decide), kerRows_two]
  refine congrArg Except.ok (funext fun I => ?_)
  have : ∀ a, ∑ j, eye a (I 0) * (fun j (I : Fin 2 → Fin d) => g2 σ (relDiff x (supp j)) (I 0) (I 1)) j (Fin.tail I) * mom j a
      = eye a (I 0) * ∑ j, g2 σ (relDiff x (supp j)) (I 1) (I 2) * mom j a := by
    intro a
    rw [Finset.mul_sum]
    exact Finset.sum_congr rfl fun j _ => mul_assoc _ _ _
  rw [Finset.sum_congr rfl fun a _ => this a, sum_eye]

theorem field0Torch_big (k : Nat) : ∃ e, field0Torch supp mom σ (k + 3) x = .error e := by
  obtain ⟨e, he⟩ := kerRows_ge_three σ k (fun j => relDiff x (supp j)) .attribute
  refine ⟨e, ?_⟩
  unfold field0Torch
  rw [if_neg (by omega), he]

theorem keopsInv (σ : ℝ) : 1 / σ / σ = 1 / (σ * σ) := by rw [div_div]

theorem field0Keops_zero : field0Keops supp mom σ 0 x = field0Torch supp mom σ 0 x := by
  rw [field0Torch_zero]
  unfold field0Keops
  rw [if_pos rfl]
  simp only [keopsGauss_eq]

theorem field0Keops_one : field0Keops supp mom σ 1 x = field0Torch supp mom σ 1 x := by
  rw [field0Torch_one]
  unfold field0Keops
  rw [if_neg (by decide), dif_pos rfl]
  refine congrArg Except.ok (funext fun I => Finset.sum_congr rfl fun j _ => ?_)
  rw [keopsGauss_eq, keopsInv]
  unfold g1
  rw [gauss0_relDiff]
  unfold relDiff
  show -(1 / (σ * σ)) * kXY σ x (supp j) * (x (I 1) - supp j (I 1)) * mom j (I 0) = _
  ring

theorem field0Keops_big (k : Nat) : field0Keops supp mom σ (k + 2) x = .error .runtime := by
  unfold field0Keops
  rw [if_neg (by omega), dif_neg (by omega)]

theorem field0uTorch_zero : field0uTorch supp mom dir σ 0 x
    = .ok fun I => ∑ j, (∑ c, -g1 σ (relDiff x (supp j)) c * dir j c) * mom j (I 0) := rfl

theorem field0uTorch_succ (k : Nat) : field0uTorch supp mom dir σ (k + 1) x = .error .notImplemented := rfl

theorem fieldPmTorch_zero : fieldPmTorch supp P σ 0 x
    = .ok fun I => ∑ j, ∑ c, -g1 σ (relDiff x (supp j)) c * P j (I 0) c := by
  unfold fieldPmTorch
  rw [kerRows_one]
  refine congrArg Except.ok (funext fun I => ?_)
  have : ∀ a, ∑ j, ∑ c, eye a (I 0) * -(fun j (I : Fin 1 → Fin d) => g1 σ (relDiff x (supp j)) (I 0)) j (Fin.cons c (Fin.tail I)) * P j a c
      = eye a (I 0) * ∑ j, ∑ c, -g1 σ (relDiff x (supp j)) c * P j a c := by
    intro a
    rw [Finset.mul_sum]
    refine Finset.sum_congr rfl fun j _ => ?_
    rw [Finset.mul_sum]
    exact Finset.sum_congr rfl fun c _ => mul_assoc _ _ _
  exact (Finset.sum_congr rfl fun a _ => this a).trans (sum_eye _ _)

theorem fieldPmTorch_one : fieldPmTorch supp P σ 1 x
    = .ok fun I => ∑ j, ∑ c, -g2 σ (relDiff x (supp j)) c (I 1) * P j (I 0) c := by
  unfold fieldPmTorch
  rw [kerRows_two]
  refine congrArg Except.ok (funext fun I => ?_)
  have : ∀ a, ∑ j, ∑ c, eye a (I 0) * -(fun j (I : Fin 2 → Fin d) => g2 σ (relDiff x (supp j)) (I 0) (I 1)) j (Fin.cons c (Fin.tail I)) * P j a c
      = eye a (I 0) * ∑ j, ∑ c, -g2 σ (relDiff x (supp j)) c (I 1) * P j a c := by
    intro a
    rw [Finset.mul_sum]
    refine Finset.sum_congr rfl fun j _ => ?_
    rw [Finset.mul_sum]
    exact Finset.sum_congr rfl fun c _ => mul_assoc _ _ _
  exact (Finset.sum_congr rfl fun a _ => this a).trans (sum_eye _ _)

theorem fieldPmTorch_big (k : Nat) : ∃ e, fieldPmTorch supp P σ (k + 2) x = .error e := by
  obtain ⟨e, he⟩ := kerRows_ge_three σ k (fun j => relDiff x (supp j)) .type
  refine ⟨e, ?_⟩
  unfold fieldPmTorch
  rw [he]

theorem fieldPmKeops_zero : fieldPmKeops supp P σ 0 x = fieldPmTorch supp P σ 0 x := by
  rw [fieldPmTorch_zero]
  unfold fieldPmKeops
  rw [if_pos rfl]
  refine congrArg Except.ok (funext fun I => Finset.sum_congr rfl fun j _ => Finset.sum_congr rfl fun c _ => ?_)
  rw [keopsGauss_eq, keopsInv]
  unfold g1
  rw [gauss0_relDiff]
  unfold relDiff
  ring

theorem fieldPmKeops_one : fieldPmKeops supp P σ 1 x = fieldPmTorch supp P σ 1 x := by
  rw [fieldPmTorch_one]
  unfold fieldPmKeops
  rw [if_neg (by decide), dif_pos rfl]
  refine congrArg Except.ok (funext fun I => Finset.sum_congr rfl fun j _ => Finset.sum_congr rfl fun c _ => ?_)
  beta_reduce
  rw [keopsGauss_eq, keopsInv, g2_comm]
  unfold g2
  rw [gauss0_relDiff]
  unfold relDiff eye
  show -(1 / (σ * σ)) * kXY σ x (supp j) * (1 / (σ * σ) * ((x (I 1) - supp j (I 1)) * (x c - supp j c))
    - if I 1 = c then 1 else 0) * P j (I 0) c = _
  ring

theorem fieldPmKeops_big (k : Nat) : fieldPmKeops supp P σ (k + 2) x = .error .runtime := by
  unfold fieldPmKeops
  rw [if_neg (by omega), dif_neg (by omega)]

theorem field1Torch_zero : field1Torch supp m σ 0 x
    = .ok fun I => ∑ j, g1 σ (relDiff (supp j) x) (I 0) * m j := rfl

theorem field1Torch_one : field1Torch supp m σ 1 x
    = .ok fun I => ∑ j, -g2 σ (relDiff (supp j) x) (I 0) (I 1) * m j := by
  unfold field1Torch
  rw [if_neg (by decide), kerRows_two]
  refine congrArg Except.ok (funext fun I => Finset.sum_congr rfl fun j _ => ?_)
  show (-1) ^ 1 * g2 σ (relDiff (supp j) x) (I 0) (I 1) * m j = _
  ring

theorem field1Torch_big (k : Nat) : ∃ e, field1Torch supp m σ (k + 2) x = .error e := by
  obtain ⟨e, he⟩ := kerRows_ge_three σ k (fun j => relDiff (supp j) x) .type
  refine ⟨e, ?_⟩
  unfold field1Torch
  rw [if_neg (by omega), he]
end

/-! ### Derivatives -/

theorem hasGradient_const (a : ℝ) (x : Vec d) : HasGradient (fun _ => a) (fun _ => 0) x := by
  unfold HasGradient
  simpa using hasFDerivAt_const a x

theorem hasGradient_coord (b : Fin d) (x : Vec d) :
    HasGradient (fun y => y b) (fun c => if b = c then 1 else 0) x := by
  unfold HasGradient
  refine (hasFDerivAt_coord b x).congr_fderiv ?_
  simp

theorem Spec.HasGradient.add {f g : Vec d → ℝ} {f' g' : Vec d} {x : Vec d}
    (hf : HasGradient f f' x) (hg : HasGradient g g' x) :
    HasGradient (fun y => f y + g y) (fun c => f' c + g' c) x := by
  unfold HasGradient at *
  refine (HasFDerivAt.add hf hg).congr_fderiv ?_
  simp [add_smul, Finset.sum_add_distrib]

theorem Spec.HasGradient.mul_const {f : Vec d → ℝ} {f' : Vec d} {x : Vec d}
    (hf : HasGradient f f' x) (a : ℝ) : HasGradient (fun y => f y * a) (fun c => f' c * a) x := by
  unfold HasGradient at *
  refine (HasFDerivAt.mul_const hf a).congr_fderiv ?_
  simp [Finset.smul_sum, smul_smul, mul_comm]

theorem Spec.HasGradient.neg {f : Vec d → ℝ} {f' : Vec d} {x : Vec d}
    (hf : HasGradient f f' x) : HasGradient (fun y => -f y) (fun c => -f' c) x := by
  simpa using hf.mul_const (-1)

theorem Spec.HasGradient.sum {ι : Type*} {s : Finset ι} {f : ι → Vec d → ℝ} {f' : ι → Vec d} {x : Vec d}
    (hf : ∀ i ∈ s, HasGradient (f i) (f' i) x) :
    HasGradient (fun y => ∑ i ∈ s, f i y) (fun c => ∑ i ∈ s, f' i c) x := by
  unfold HasGradient at *
  refine (HasFDerivAt.fun_sum hf).congr_fderiv ?_
  rw [Finset.sum_comm]
  simp [Finset.sum_smul]

theorem Spec.HasGradient.shift {f : Vec d → ℝ} {f' : Vec d} {x s : Vec d}
    (hf : HasGradient f f' (relDiff x s)) : HasGradient (fun y => f (relDiff y s)) f' x := by
  unfold HasGradient at *
  have h : HasFDerivAt (fun y : Vec d => relDiff y s) (ContinuousLinearMap.id ℝ (Vec d)) x := by
    have := (hasFDerivAt_id (𝕜 := ℝ) x).sub_const s
    exact this
  have h2 := HasFDerivAt.comp x hf h
  exact h2.congr_fderiv (ContinuousLinearMap.comp_id _)

theorem Spec.HasGradient.shift' {f : Vec d → ℝ} {f' : Vec d} {x s : Vec d}
    (hf : HasGradient f f' (relDiff s x)) :
    HasGradient (fun y => f (relDiff s y)) (fun c => -f' c) x := by
  unfold HasGradient at *
  have h : HasFDerivAt (fun y : Vec d => relDiff s y) (-ContinuousLinearMap.id ℝ (Vec d)) x := by
    have := (hasFDerivAt_id (𝕜 := ℝ) x).const_sub s
    exact this
  have h2 := HasFDerivAt.comp x hf h
  refine h2.congr_fderiv ?_
  ext v
  simp [ContinuousLinearMap.sum_apply]

theorem hasGradient_gauss (σ : ℝ) (x : Vec d) : HasGradient (gauss0 σ) (g1 σ x) x :=
  hasFDerivAt_gauss0 σ x

theorem hasGradient_g1 (σ : ℝ) (x : Vec d) (a : Fin d) :
    HasGradient (fun y => g1 σ y a) (fun c => g2 σ x a c) x :=
  hasFDerivAt_gauss1 σ x a

end
end Imodal
