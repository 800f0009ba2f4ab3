import Verif.Lemmas.RigidMfd
import Verif.Lemmas.Sks
import Mathlib.LinearAlgebra.Determinant
import Mathlib.Data.Matrix.Block
/-!
# Linear systems under a change of coordinates, and strains under rotations
-/
set_option autoImplicit false
namespace Imodal
noncomputable section
open Matrix
variable {d : Nat}

/-! ## Solving in other coordinates -/
section
variable {ι κ : Type} [Fintype ι] [DecidableEq ι] [Fintype κ] [DecidableEq κ]

theorem det_conj {A A' : Matrix ι ι ℝ} (U : (ι → ℝ) ≃ₗ[ℝ] (ι → ℝ)) (h : ∀ x, A' *ᵥ U x = U (A *ᵥ x)) : A'.det = A.det := by
  rw [← LinearMap.det_toLin' A', ← LinearMap.det_toLin' A, ← LinearMap.det_conj (Matrix.toLin' A) U]
  congr 1
  refine LinearMap.ext fun x => ?_
  simp only [LinearMap.comp_apply, LinearEquiv.coe_coe, Matrix.toLin'_apply]
  rw [← h, LinearEquiv.apply_symm_apply]

theorem inv_conj {A A' : Matrix ι ι ℝ} (U : (ι → ℝ) ≃ₗ[ℝ] (ι → ℝ)) (h : ∀ x, A' *ᵥ U x = U (A *ᵥ x)) (hd : A.det ≠ 0) (b : ι → ℝ) :
    A'⁻¹ *ᵥ U b = U (A⁻¹ *ᵥ b) := by
  have hd' : A'.det ≠ 0 := by rw [det_conj U h]; exact hd
  have h1 : A * A⁻¹ = 1 := Matrix.mul_nonsing_inv A (isUnit_iff_ne_zero.2 hd)
  have h2 : A'⁻¹ * A' = 1 := Matrix.nonsing_inv_mul A' (isUnit_iff_ne_zero.2 hd')
  have h3 : A' *ᵥ U (A⁻¹ *ᵥ b) = U b := by rw [h, Matrix.mulVec_mulVec, h1, Matrix.one_mulVec]
  rw [← h3, Matrix.mulVec_mulVec, h2, Matrix.one_mulVec]

theorem linSolve_conj {A A' : Matrix ι ι ℝ} (U : (ι → ℝ) ≃ₗ[ℝ] (ι → ℝ)) (h : ∀ x, A' *ᵥ U x = U (A *ᵥ x)) (b : ι → ℝ) :
    linSolve A' (U b) = (linSolve A b).map U := by
  unfold linSolve
  by_cases hd : A.det = 0
  · rw [if_pos hd, if_pos (by rw [det_conj U h]; exact hd)]; rfl
  · rw [if_neg hd, if_neg (by rw [det_conj U h]; exact hd), inv_conj U h hd]; rfl

theorem keopsSolve_conj {A A' : Matrix ι ι ℝ} (U : (ι → ℝ) ≃ₗ[ℝ] (ι → ℝ)) (h : ∀ x, A' *ᵥ U x = U (A *ᵥ x)) (b : ι → ℝ) :
    keopsSolve A' (U b) = (keopsSolve A b).map U := by
  unfold keopsSolve
  by_cases hd : A.det = 0
  · rw [if_pos hd, if_pos (by rw [det_conj U h]; exact hd)]; rfl
  · rw [if_neg hd, if_neg (by rw [det_conj U h]; exact hd), inv_conj U h hd]; rfl

theorem conj_smul_one {A A' : Matrix ι ι ℝ} (U : (ι → ℝ) ≃ₗ[ℝ] (ι → ℝ)) (h : ∀ x, A' *ᵥ U x = U (A *ᵥ x)) (ν : ℝ) (x : ι → ℝ) :
    (A' + ν • (1 : Matrix ι ι ℝ)) *ᵥ U x = U ((A + ν • (1 : Matrix ι ι ℝ)) *ᵥ x) := by
  rw [Matrix.add_mulVec, Matrix.add_mulVec, h, Matrix.smul_mulVec, Matrix.smul_mulVec, Matrix.one_mulVec, Matrix.one_mulVec, map_add, map_smul]

/-- Acting on the two parts of a vector. -/
def sumEquiv (U : (κ → ℝ) ≃ₗ[ℝ] (κ → ℝ)) (V : (ι → ℝ) ≃ₗ[ℝ] (ι → ℝ)) : (κ ⊕ ι → ℝ) ≃ₗ[ℝ] (κ ⊕ ι → ℝ) where
  toFun x := Sum.elim (U (x ∘ Sum.inl)) (V (x ∘ Sum.inr))
  invFun x := Sum.elim (U.symm (x ∘ Sum.inl)) (V.symm (x ∘ Sum.inr))
  map_add' x y := by
    rw [show (x + y) ∘ Sum.inl = x ∘ Sum.inl + y ∘ Sum.inl from rfl, show (x + y) ∘ Sum.inr = x ∘ Sum.inr + y ∘ Sum.inr from rfl, map_add, map_add]
    funext a; cases a <;> rfl
  map_smul' a x := by
    rw [show (a • x) ∘ Sum.inl = a • (x ∘ Sum.inl) from rfl, show (a • x) ∘ Sum.inr = a • (x ∘ Sum.inr) from rfl, map_smul, map_smul]
    funext a; cases a <;> rfl
  left_inv x := by
    simp only [Sum.elim_comp_inl, Sum.elim_comp_inr, LinearEquiv.symm_apply_apply]
    exact Sum.elim_comp_inl_inr x
  right_inv x := by
    simp only [Sum.elim_comp_inl, Sum.elim_comp_inr, LinearEquiv.apply_symm_apply]
    exact Sum.elim_comp_inl_inr x

theorem sumEquiv_apply (U : (κ → ℝ) ≃ₗ[ℝ] (κ → ℝ)) (V : (ι → ℝ) ≃ₗ[ℝ] (ι → ℝ)) (x : κ ⊕ ι → ℝ) :
    sumEquiv U V x = Sum.elim (U (x ∘ Sum.inl)) (V (x ∘ Sum.inr)) := rfl

theorem fromBlocks_conj {U : (κ → ℝ) ≃ₗ[ℝ] (κ → ℝ)} {V : (ι → ℝ) ≃ₗ[ℝ] (ι → ℝ)} {A A' : Matrix κ κ ℝ} {B B' : Matrix κ ι ℝ}
    {C C' : Matrix ι κ ℝ} {D D' : Matrix ι ι ℝ} (hA : ∀ x, A' *ᵥ U x = U (A *ᵥ x)) (hB : ∀ x, B' *ᵥ V x = U (B *ᵥ x))
    (hC : ∀ x, C' *ᵥ U x = V (C *ᵥ x)) (hD : ∀ x, D' *ᵥ V x = V (D *ᵥ x)) (x : κ ⊕ ι → ℝ) :
    fromBlocks A' B' C' D' *ᵥ sumEquiv U V x = sumEquiv U V (fromBlocks A B C D *ᵥ x) := by
  rw [Matrix.fromBlocks_mulVec, Matrix.fromBlocks_mulVec, sumEquiv_apply, sumEquiv_apply]
  simp only [Sum.elim_comp_inl, Sum.elim_comp_inr, hA, hB, hC, hD, map_add]

theorem block_mulVec (S : Matrix (κ ⊕ ι) (κ ⊕ ι) ℝ) (x : κ → ℝ) : S *ᵥ Sum.elim x 0 = Sum.elim (S.toBlocks₁₁ *ᵥ x) (S.toBlocks₂₁ *ᵥ x) := by
  conv_lhs => rw [← fromBlocks_toBlocks S]
  rw [Matrix.fromBlocks_mulVec]
  simp [Matrix.mulVec_zero]

theorem block_conj {U : (κ → ℝ) ≃ₗ[ℝ] (κ → ℝ)} {V : (ι → ℝ) ≃ₗ[ℝ] (ι → ℝ)} {S S' : Matrix (κ ⊕ ι) (κ ⊕ ι) ℝ}
    (h : ∀ x, S' *ᵥ sumEquiv U V x = sumEquiv U V (S *ᵥ x)) (x : κ → ℝ) :
    S'.toBlocks₁₁ *ᵥ U x = U (S.toBlocks₁₁ *ᵥ x) ∧ S'.toBlocks₂₁ *ᵥ U x = V (S.toBlocks₂₁ *ᵥ x) := by
  have h1 := h (Sum.elim x 0)
  rw [block_mulVec, sumEquiv_apply, sumEquiv_apply] at h1
  simp only [Sum.elim_comp_inl, Sum.elim_comp_inr, map_zero, block_mulVec] at h1
  exact ⟨funext fun i => congrFun h1 (.inl i), funext fun i => congrFun h1 (.inr i)⟩
end

theorem linSolveCols_vec (g : Rigid d) {n : Nat} (A : Matrix (Fin n) (Fin n) ℝ) (B : Fin n → Vec d) :
    linSolveCols A (fun i => g.vec (B i)) = (linSolveCols A B).map fun X i => g.vec (X i) := by
  have h : ∀ (M : Matrix (Fin n) (Fin n) ℝ) i, (fun c => (M *ᵥ fun j => g.vec (B j) c) i) = g.vec fun c => (M *ᵥ fun j => B j c) i := by
    intro M i
    funext c
    simp only [Rigid.vec, Matrix.mulVec, dotProduct, Finset.mul_sum]
    rw [Finset.sum_comm]
    exact Finset.sum_congr rfl fun e _ => Finset.sum_congr rfl fun j _ => by ring
  unfold linSolveCols
  split
  · rfl
  · exact congrArg Except.ok (funext fun i => h _ i)

theorem keopsSolveCols_vec (g : Rigid d) {n : Nat} (A : Matrix (Fin n) (Fin n) ℝ) (B : Fin n → Vec d) :
    keopsSolveCols A (fun i => g.vec (B i)) = (keopsSolveCols A B).map fun X i => g.vec (X i) := by
  have h : ∀ (M : Matrix (Fin n) (Fin n) ℝ) i, (fun c => (M *ᵥ fun j => g.vec (B j) c) i) = g.vec fun c => (M *ᵥ fun j => B j c) i := by
    intro M i
    funext c
    simp only [Rigid.vec, Matrix.mulVec, dotProduct, Finset.mul_sum]
    rw [Finset.sum_comm]
    exact Finset.sum_congr rfl fun e _ => Finset.sum_congr rfl fun j _ => by ring
  unfold keopsSolveCols
  split
  · rfl
  · exact congrArg Except.ok (funext fun i => h _ i)

/-! ## Strains -/

theorem invSqrt2_sq : invSqrt2 * invSqrt2 = 1 / 2 := by
  unfold invSqrt2
  rw [div_mul_div_comm, Real.mul_self_sqrt (by norm_num)]; norm_num

private def e2 (i j : Fin 2) (t : Fin 3) : ℝ :=
  if i.val = 0 ∧ j.val = 0 then (if t.val = 0 then 1 else 0)
  else if i.val = 0 ∧ j.val = 1 then (if t.val = 1 then invSqrt2 else 0)
  else if i.val = 1 ∧ j.val = 0 then (if t.val = 1 then invSqrt2 else 0)
  else (if t.val = 2 then 1 else 0)

private def e3 (i j : Fin 3) (t : Fin 6) : ℝ :=
  if i.val = j.val ∧ t.val = i.val then 1
  else if i.val = 0 ∧ j.val = 1 ∧ t.val = 3 then invSqrt2
  else if i.val = 1 ∧ j.val = 0 ∧ t.val = 3 then invSqrt2
  else if i.val = 0 ∧ j.val = 2 ∧ t.val = 4 then invSqrt2
  else if i.val = 2 ∧ j.val = 0 ∧ t.val = 4 then invSqrt2
  else if i.val = 1 ∧ j.val = 2 ∧ t.val = 5 then invSqrt2
  else if i.val = 2 ∧ j.val = 1 ∧ t.val = 5 then invSqrt2
  else 0

private theorem e2_orth (t u : Fin 3) : ∑ b, ∑ c, e2 b c t * e2 b c u = if t = u then 1 else 0 := by
  have hs := invSqrt2_sq
  fin_cases t <;> fin_cases u <;> simp [Fin.sum_univ_succ, e2, hs] <;> norm_num
private theorem e3_orth (t u : Fin 6) : ∑ b, ∑ c, e3 b c t * e3 b c u = if t = u then 1 else 0 := by
  have hs := invSqrt2_sq
  fin_cases t <;> fin_cases u <;> simp [Fin.sum_univ_succ, e3, hs] <;> norm_num
private theorem e2_complete (b c e f : Fin 2) :
    ∑ t, e2 b c t * e2 e f t = ((if b = e ∧ c = f then 1 else 0) + (if b = f ∧ c = e then 1 else 0)) / 2 := by
  have hs := invSqrt2_sq
  fin_cases b <;> fin_cases c <;> fin_cases e <;> fin_cases f <;> simp [Fin.sum_univ_succ, e2, hs]
private theorem e3_complete (b c e f : Fin 3) :
    ∑ t, e3 b c t * e3 e f t = ((if b = e ∧ c = f then 1 else 0) + (if b = f ∧ c = e then 1 else 0)) / 2 := by
  have hs := invSqrt2_sq
  fin_cases b <;> fin_cases c <;> fin_cases e <;> fin_cases f <;> simp [Fin.sum_univ_succ, e3, hs]

theorem eta_orth (hd : d = 2 ∨ d = 3) (t u : Fin (symDim d)) : ∑ b, ∑ c, etaOf d b c t * etaOf d b c u = if t = u then 1 else 0 := by
  rcases hd with rfl | rfl
  · exact e2_orth t u
  · exact e3_orth t u

theorem eta_complete (hd : d = 2 ∨ d = 3) (b c e f : Fin d) :
    ∑ t, etaOf d b c t * etaOf d e f t = ((if b = e ∧ c = f then 1 else 0) + (if b = f ∧ c = e then 1 else 0)) / 2 := by
  rcases hd with rfl | rfl
  · exact e2_complete b c e f
  · exact e3_complete b c e f

/-! ### Coordinates and matrices -/

theorem strainCoord_add (M N : Mat d) : strainCoord (M + N) = strainCoord M + strainCoord N := by
  funext t
  simp only [strainCoord, Matrix.add_apply, Pi.add_apply, add_mul, Finset.sum_add_distrib]
theorem strainCoord_smul (a : ℝ) (M : Mat d) : strainCoord (a • M) = a • strainCoord M := by
  funext t
  simp only [strainCoord, Matrix.smul_apply, Pi.smul_apply, smul_eq_mul, Finset.mul_sum, mul_assoc]
theorem strainCoord_zero : strainCoord (0 : Mat d) = 0 := by
  funext t
  simp [strainCoord]
theorem strainCoord_sum {ι : Type} (s : Finset ι) (M : ι → Mat d) : strainCoord (∑ i ∈ s, M i) = ∑ i ∈ s, strainCoord (M i) := by
  classical
  induction s using Finset.induction_on with
  | empty => simp [strainCoord_zero]
  | insert a s ha ih => rw [Finset.sum_insert ha, Finset.sum_insert ha, strainCoord_add, ih]
theorem strainCoord_transpose (M : Mat d) : strainCoord Mᵀ = strainCoord M := by
  funext t
  unfold strainCoord
  rw [Finset.sum_comm]
  exact Finset.sum_congr rfl fun b _ => Finset.sum_congr rfl fun c _ => by rw [Matrix.transpose_apply, etaOf_symm]
theorem strainMat_add (l l' : Fin (symDim d) → ℝ) : strainMat (l + l') = strainMat l + strainMat l' := by
  ext b c
  simp only [strainMat, Matrix.of_apply, Matrix.add_apply, Pi.add_apply, add_mul, Finset.sum_add_distrib]
theorem strainMat_smul (a : ℝ) (l : Fin (symDim d) → ℝ) : strainMat (a • l) = a • strainMat l := by
  ext b c
  simp only [strainMat, Matrix.of_apply, Matrix.smul_apply, Pi.smul_apply, smul_eq_mul, Finset.mul_sum, mul_assoc]
theorem strainMat_transpose (l : Fin (symDim d) → ℝ) : (strainMat l)ᵀ = strainMat l := by
  ext b c
  simp only [strainMat, Matrix.of_apply, Matrix.transpose_apply]
  exact Finset.sum_congr rfl fun t _ => by rw [etaOf_symm]

theorem strainMat_coord (hd : d = 2 ∨ d = 3) (M : Mat d) : strainMat (strainCoord M) = (1 / 2 : ℝ) • (M + Mᵀ) := by
  ext b c
  have h : ∑ t, strainCoord M t * etaOf d b c t = ∑ e, ∑ f, M e f * ∑ t, etaOf d e f t * etaOf d b c t := by
    simp only [strainCoord, Finset.sum_mul, Finset.mul_sum]
    rw [Finset.sum_comm]
    refine Finset.sum_congr rfl fun e _ => ?_
    rw [Finset.sum_comm]
    exact Finset.sum_congr rfl fun f _ => Finset.sum_congr rfl fun t _ => by ring
  simp only [strainMat, Matrix.of_apply]
  rw [h]
  simp only [eta_complete hd, Matrix.smul_apply, Matrix.add_apply, Matrix.transpose_apply, smul_eq_mul]
  have h1 : ∀ a b' : Fin d, ∑ e, ∑ f, M e f * (if e = a ∧ f = b' then (1 : ℝ) else 0) = M a b' := by
    intro a b'
    rw [Finset.sum_eq_single a]
    · rw [Finset.sum_eq_single b']
      · simp
      · intro f _ hf; simp [hf]
      · simp
    · intro e _ he; simp [he]
    · simp
  have h2 : ∀ e f, M e f * (((if e = b ∧ f = c then (1 : ℝ) else 0) + if e = c ∧ f = b then 1 else 0) / 2)
      = 1 / 2 * (M e f * (if e = b ∧ f = c then (1 : ℝ) else 0)) + 1 / 2 * (M e f * (if e = c ∧ f = b then (1 : ℝ) else 0)) := fun e f => by ring
  simp only [h2, Finset.sum_add_distrib, ← Finset.mul_sum, h1]
  ring

theorem strainCoord_mat (hd : d = 2 ∨ d = 3) (l : Fin (symDim d) → ℝ) : strainCoord (strainMat l) = l := by
  funext u
  have h : strainCoord (strainMat l) u = ∑ t, l t * ∑ b, ∑ c, etaOf d b c t * etaOf d b c u := by
    simp only [strainCoord, strainMat, Matrix.of_apply, Finset.sum_mul, Finset.mul_sum]
    have : ∀ b : Fin d, ∑ c, ∑ t, l t * etaOf d b c t * etaOf d b c u = ∑ t, ∑ c, l t * etaOf d b c t * etaOf d b c u := fun b => Finset.sum_comm
    simp only [this]
    rw [Finset.sum_comm]
    exact Finset.sum_congr rfl fun t _ => Finset.sum_congr rfl fun b _ => Finset.sum_congr rfl fun c _ => by ring
  rw [h]
  simp [eta_orth hd]

theorem strain_frob (hd : d = 2 ∨ d = 3) (l l' : Fin (symDim d) → ℝ) :
    ∑ t, l t * l' t = ∑ b, ∑ c, strainMat l b c * strainMat l' b c := by
  conv_lhs => rw [← strainCoord_mat hd l]
  simp only [strainCoord, Finset.sum_mul]
  rw [Finset.sum_comm]
  refine Finset.sum_congr rfl fun b _ => ?_
  rw [Finset.sum_comm]
  refine Finset.sum_congr rfl fun c _ => ?_
  conv_rhs => rw [show strainMat l' b c = ∑ t, l' t * etaOf d b c t from rfl, Finset.mul_sum]
  exact Finset.sum_congr rfl fun t _ => by ring

namespace Rigid
variable (g : Rigid d)

theorem strain_add (l l' : Fin (symDim d) → ℝ) : g.strain (l + l') = g.strain l + g.strain l' := by
  unfold strain; rw [strainMat_add, g.mat_add, strainCoord_add]
theorem strain_smul (a : ℝ) (l : Fin (symDim d) → ℝ) : g.strain (a • l) = a • g.strain l := by
  unfold strain; rw [strainMat_smul, g.mat_smul, strainCoord_smul]
theorem strain_zero : g.strain 0 = 0 := by
  have := g.strain_smul 0 0
  simpa using this
theorem strain_sum {ι : Type} (s : Finset ι) (l : ι → Fin (symDim d) → ℝ) : g.strain (∑ i ∈ s, l i) = ∑ i ∈ s, g.strain (l i) := by
  classical
  induction s using Finset.induction_on with
  | empty => simp [strain_zero]
  | insert a s ha ih => rw [Finset.sum_insert ha, Finset.sum_insert ha, strain_add, ih]
theorem strainMat_strain (hd : d = 2 ∨ d = 3) (l : Fin (symDim d) → ℝ) : strainMat (g.strain l) = g.mat (strainMat l) := by
  unfold strain
  rw [strainMat_coord hd, g.mat_transpose, strainMat_transpose]
  module
theorem strainCoord_move (hd : d = 2 ∨ d = 3) (M : Mat d) : strainCoord (g.mat M) = g.strain (strainCoord M) := by
  unfold strain
  rw [strainMat_coord hd, g.mat_smul, g.mat_add, ← g.mat_transpose, strainCoord_smul, strainCoord_add, strainCoord_transpose]
  module
theorem strain_dot (hd : d = 2 ∨ d = 3) (l l' : Fin (symDim d) → ℝ) : ∑ t, g.strain l t * g.strain l' t = ∑ t, l t * l' t := by
  rw [strain_frob hd, strain_frob hd, g.strainMat_strain hd, g.strainMat_strain hd, g.mat_frob]

/-- Turning back. -/
def back : Rigid d := ⟨g.Qᵀ, 0, by
  rw [Matrix.mem_orthogonalGroup_iff]
  show g.Qᵀ * (g.Qᵀ)ᵀ = 1
  rw [Matrix.transpose_transpose, g.tmul]⟩

theorem back_vec (v : Vec d) : g.back.vec (g.vec v) = v := by
  unfold vec back; rw [Matrix.mulVec_mulVec, g.tmul, Matrix.one_mulVec]
theorem vec_back (v : Vec d) : g.vec (g.back.vec v) = v := by
  unfold vec back; rw [Matrix.mulVec_mulVec, g.mult, Matrix.one_mulVec]
theorem back_mat (M : Mat d) : g.back.mat (g.mat M) = M := by
  unfold mat back
  calc g.Qᵀ * (g.Q * M * g.Qᵀ) * (g.Qᵀ)ᵀ = (g.Qᵀ * g.Q) * M * (g.Qᵀ * g.Q) := by rw [Matrix.transpose_transpose]; simp only [Matrix.mul_assoc]
    _ = M := by rw [g.tmul, Matrix.one_mul, Matrix.mul_one]
theorem mat_back (M : Mat d) : g.mat (g.back.mat M) = M := by
  unfold mat back
  calc g.Q * (g.Qᵀ * M * (g.Qᵀ)ᵀ) * g.Qᵀ = (g.Q * g.Qᵀ) * M * (g.Q * g.Qᵀ) := by rw [Matrix.transpose_transpose]; simp only [Matrix.mul_assoc]
    _ = M := by rw [g.mult, Matrix.one_mul, Matrix.mul_one]
theorem back_strain (hd : d = 2 ∨ d = 3) (l : Fin (symDim d) → ℝ) : g.back.strain (g.strain l) = l := by
  rw [strain, g.strainMat_strain hd, g.back_mat, strainCoord_mat hd]
theorem strain_back (hd : d = 2 ∨ d = 3) (l : Fin (symDim d) → ℝ) : g.strain (g.back.strain l) = l := by
  rw [strain, g.back.strainMat_strain hd, g.mat_back, strainCoord_mat hd]
theorem mat_vecMulVec (v w : Vec d) : g.mat (Matrix.vecMulVec v w) = Matrix.vecMulVec (g.vec v) (g.vec w) := by
  unfold mat vec
  rw [Matrix.mul_vecMulVec, Matrix.vecMulVec_mul, Matrix.vecMul_transpose]
theorem mat_sum {ι : Type} (s : Finset ι) (M : ι → Mat d) : g.mat (∑ i ∈ s, M i) = ∑ i ∈ s, g.mat (M i) := by
  unfold mat; rw [Matrix.mul_sum, Matrix.sum_mul]

/-- Turning an array of vectors. -/
def vecEquiv (n : Nat) : (Fin n × Fin d → ℝ) ≃ₗ[ℝ] (Fin n × Fin d → ℝ) where
  toFun l q := g.vec (fun c => l (q.1, c)) q.2
  invFun l q := g.back.vec (fun c => l (q.1, c)) q.2
  map_add' l l' := funext fun q => congrFun (g.vec_add (fun c => l (q.1, c)) fun c => l' (q.1, c)) q.2
  map_smul' a l := funext fun q => congrFun (g.vec_smul a fun c => l (q.1, c)) q.2
  left_inv l := funext fun q => congrFun (g.back_vec fun c => l (q.1, c)) q.2
  right_inv l := funext fun q => congrFun (g.vec_back fun c => l (q.1, c)) q.2

/-- Turning an array of strains. -/
def strainEquiv (hd : d = 2 ∨ d = 3) (n : Nat) : (Fin n × Fin (symDim d) → ℝ) ≃ₗ[ℝ] (Fin n × Fin (symDim d) → ℝ) where
  toFun l q := g.strain (fun c => l (q.1, c)) q.2
  invFun l q := g.back.strain (fun c => l (q.1, c)) q.2
  map_add' l l' := funext fun q => congrFun (g.strain_add (fun c => l (q.1, c)) fun c => l' (q.1, c)) q.2
  map_smul' a l := funext fun q => congrFun (g.strain_smul a fun c => l (q.1, c)) q.2
  left_inv l := funext fun q => congrFun (g.back_strain hd fun c => l (q.1, c)) q.2
  right_inv l := funext fun q => congrFun (g.strain_back hd fun c => l (q.1, c)) q.2

theorem vecEquiv_apply {n : Nat} (l : Fin n × Fin d → ℝ) : g.vecEquiv n l = fun q => g.vec (fun c => l (q.1, c)) q.2 := rfl
theorem strainEquiv_apply (hd : d = 2 ∨ d = 3) {n : Nat} (l : Fin n × Fin (symDim d) → ℝ) :
    g.strainEquiv hd n l = fun q => g.strain (fun c => l (q.1, c)) q.2 := rfl

theorem vecEquiv_dot {n : Nat} (l l' : Fin n × Fin d → ℝ) : ∑ q, g.vecEquiv n l q * g.vecEquiv n l' q = ∑ q, l q * l' q := by
  rw [Fintype.sum_prod_type, Fintype.sum_prod_type]
  exact Finset.sum_congr rfl fun i _ => g.vec_dot' (fun c => l (i, c)) fun c => l' (i, c)
theorem strainEquiv_dot (hd : d = 2 ∨ d = 3) {n : Nat} (l l' : Fin n × Fin (symDim d) → ℝ) :
    ∑ q, g.strainEquiv hd n l q * g.strainEquiv hd n l' q = ∑ q, l q * l' q := by
  rw [Fintype.sum_prod_type, Fintype.sum_prod_type]
  exact Finset.sum_congr rfl fun i _ => g.strain_dot hd (fun c => l (i, c)) fun c => l' (i, c)
end Rigid

/-! ### The constraint matrices -/

theorem sks_mulVec {n : Nat} (σ : ℝ) (x : Fin n → Vec d) (l : Fin n × Fin (symDim d) → ℝ) (i : Fin n) :
    (fun t => (computeSks1 σ x *ᵥ l) (i, t))
      = strainCoord (∑ j, -((g2 σ (relDiff (x i) (x j)) : Mat d)ᵀ * strainMat fun u => l (j, u))) := by
  funext t
  rw [strainCoord_sum, Finset.sum_apply]
  show ∑ q, computeSks1 σ x (i, t) q * l q = _
  rw [Fintype.sum_prod_type]
  refine Finset.sum_congr rfl fun j _ => ?_
  simp only [computeSks1, strainCoord, Matrix.neg_apply, Matrix.mul_apply, Matrix.transpose_apply, strainMat, Matrix.of_apply, sksU_eq, gaussRow2_eq]
  generalize (g2 σ (relDiff (x i) (x j)) : Mat d) = G
  have h1 : ∀ u, (∑ m, ∑ k, (∑ r, etaOf d k r t * etaOf d m r u) * -G m k) * l (j, u)
      = ∑ k, ∑ r, ∑ m, -(G m k * (l (j, u) * etaOf d m r u) * etaOf d k r t) := by
    intro u
    simp only [Finset.sum_mul]
    rw [Finset.sum_comm]
    refine Finset.sum_congr rfl fun k _ => ?_
    rw [Finset.sum_comm]
    exact Finset.sum_congr rfl fun r _ => Finset.sum_congr rfl fun m _ => by ring
  simp only [h1]
  rw [Finset.sum_comm]
  refine Finset.sum_congr rfl fun k _ => ?_
  rw [Finset.sum_comm]
  refine Finset.sum_congr rfl fun r _ => ?_
  rw [Finset.sum_comm, neg_mul, Finset.sum_mul, ← Finset.sum_neg_distrib]
  refine Finset.sum_congr rfl fun m _ => ?_
  rw [Finset.mul_sum, Finset.sum_mul, ← Finset.sum_neg_distrib]

theorem sks_conj (g : Rigid d) (hd : d = 2 ∨ d = 3) {n : Nat} (σ : ℝ) (x : Fin n → Vec d) (l : Fin n × Fin (symDim d) → ℝ) :
    computeSks1 σ (fun i => g.point (x i)) *ᵥ g.strainEquiv hd n l = g.strainEquiv hd n (computeSks1 σ x *ᵥ l) := by
  funext q
  obtain ⟨i, t⟩ := q
  rw [g.strainEquiv_apply hd (computeSks1 σ x *ᵥ l)]
  dsimp only
  rw [sks_mulVec, ← g.strainCoord_move hd, g.mat_sum]
  refine (congrFun (sks_mulVec σ _ _ i) t).trans ?_
  refine congrFun (congrArg strainCoord (Finset.sum_congr rfl fun j _ => ?_)) t
  rw [g.mat_neg, g.mat_mul, ← g.mat_transpose, ← g.g2_point]
  exact congrArg (fun M : Mat d => -((g2 σ (relDiff (g.point (x i)) (g.point (x j))) : Mat d)ᵀ * M)) (g.strainMat_strain hd fun u => l (j, u))

end
end Imodal
