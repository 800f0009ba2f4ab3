import Verif.Lemmas.Repr
import Verif.Model.Sks
import Mathlib.LinearAlgebra.Matrix.DotProduct
import Mathlib.Data.Matrix.Basic
import Mathlib.LinearAlgebra.Matrix.NonsingularInverse
import Mathlib.LinearAlgebra.Matrix.PosDef
/-! Quadratic forms, Gram matrices of families of atoms, and linear solves. -/
set_option autoImplicit false
namespace Imodal
noncomputable section
open Matrix
variable {d : Nat} {ι : Type} [Fintype ι]

/-- A concave quadratic is largest where its gradient vanishes. -/
theorem quad_max (Q : Matrix ι ι ℝ) (hsym : Qᵀ = Q) (hpsd : ∀ l, 0 ≤ l ⬝ᵥ Q *ᵥ l) {h₀ s : ι → ℝ}
    (hs : Q *ᵥ h₀ = s) (h : ι → ℝ) :
    h ⬝ᵥ s - 1 / 2 * (h ⬝ᵥ Q *ᵥ h) ≤ h₀ ⬝ᵥ s - 1 / 2 * (h₀ ⬝ᵥ Q *ᵥ h₀) := by
  have h1 := hpsd (h - h₀)
  have h2 : h₀ ⬝ᵥ Q *ᵥ h = h ⬝ᵥ Q *ᵥ h₀ := by
    rw [dotProduct_mulVec, ← Matrix.mulVec_transpose, hsym, dotProduct_comm]
  rw [mulVec_sub, sub_dotProduct, dotProduct_sub, dotProduct_sub, h2, hs] at h1
  rw [hs]
  linarith

/-- Gram matrix of a family of atoms. -/
def gramMat (σ : ℝ) (a : ι → Atom d) : Matrix ι ι ℝ :=
  Matrix.of fun q r => (a q).pair ((a r).rep σ) ((a r).repJ σ)

/-- The list `A` is the combination of the family `a` with coefficients `l`. -/
def Comb (A : List (Atom d)) (a : ι → Atom d) (l : ι → ℝ) : Prop :=
  ∀ v J, pair A v J = ∑ q, l q * (a q).pair v J

theorem gramMat_symm (σ : ℝ) (a : ι → Atom d) : (gramMat σ a)ᵀ = gramMat σ a := by
  ext q r
  exact atom_gram_symm σ (a r) (a q)

theorem comb_exists (a : ι → Atom d) (l : ι → ℝ) : ∃ A, Comb A a l := by
  refine ⟨(Finset.univ : Finset ι).toList.map fun q => ⟨(a q).x, l q • (a q).α, l q • (a q).M⟩, fun v J => ?_⟩
  unfold pair
  rw [List.map_map, Finset.sum_map_toList]
  refine Finset.sum_congr rfl fun q _ => ?_
  simp only [Function.comp, Atom.pair, Pi.smul_apply, Matrix.smul_apply, smul_eq_mul, mul_add, Finset.mul_sum]
  congr 1
  · exact Finset.sum_congr rfl fun b _ => by ring
  · exact Finset.sum_congr rfl fun b _ => Finset.sum_congr rfl fun c _ => by ring

theorem comb_gram {σ : ℝ} {a : ι → Atom d} {A B : List (Atom d)} {l l' : ι → ℝ} (hA : Comb A a l)
    (hB : Comb B a l') : gram σ A B = l ⬝ᵥ gramMat σ a *ᵥ l' := by
  unfold gram
  rw [hA, dotProduct]
  refine Finset.sum_congr rfl fun q _ => ?_
  rw [gram_atom, hB, mulVec, dotProduct]
  congr 1
  refine Finset.sum_congr rfl fun r _ => ?_
  rw [atom_gram_symm, mul_comm]
  rfl

theorem gramMat_psd (σ : ℝ) (a : ι → Atom d) (l : ι → ℝ) : 0 ≤ l ⬝ᵥ gramMat σ a *ᵥ l := by
  obtain ⟨A, hA⟩ := comb_exists a l
  rw [← comb_gram hA hA]
  exact gram_nonneg σ A

/-- The values of the functionals `a` on the field representing `M`. -/
def dualVec (σ : ℝ) (a : ι → Atom d) (M : List (Atom d)) (q : ι) : ℝ := (a q).pair (rep σ M) (repJ σ M)

theorem comb_dual {σ : ℝ} {a : ι → Atom d} {A : List (Atom d)} {l : ι → ℝ} (hA : Comb A a l)
    (M : List (Atom d)) : gram σ M A = l ⬝ᵥ dualVec σ a M := by
  rw [gram_symm]
  exact hA _ _

/-! ### Solves -/

variable [DecidableEq ι]

theorem linSolve_ok {A : Matrix ι ι ℝ} {b x : ι → ℝ} (h : linSolve A b = .ok x) :
    A.det ≠ 0 ∧ x = A⁻¹ *ᵥ b ∧ A *ᵥ x = b := by
  unfold linSolve at h
  split at h
  · cases h
  · rename_i hd
    have hx := (Except.ok.inj h).symm
    refine ⟨hd, hx, ?_⟩
    rw [hx, mulVec_mulVec, mul_nonsing_inv A (Ne.isUnit hd), one_mulVec]

theorem keopsSolve_ok {A : Matrix ι ι ℝ} {b x : ι → ℝ} (h : keopsSolve A b = .ok x) :
    A.det ≠ 0 ∧ x = A⁻¹ *ᵥ b ∧ A *ᵥ x = b := by
  unfold keopsSolve at h
  split at h
  · cases h
  · rename_i hd
    have hx := (Except.ok.inj h).symm
    refine ⟨hd, hx, ?_⟩
    rw [hx, mulVec_mulVec, mul_nonsing_inv A (Ne.isUnit hd), one_mulVec]

theorem linSolve_of_det {A : Matrix ι ι ℝ} (hd : A.det ≠ 0) (b : ι → ℝ) : linSolve A b = .ok (A⁻¹ *ᵥ b) := by
  unfold linSolve; rw [if_neg hd]
theorem keopsSolve_of_det {A : Matrix ι ι ℝ} (hd : A.det ≠ 0) (b : ι → ℝ) : keopsSolve A b = .ok (A⁻¹ *ᵥ b) := by
  unfold keopsSolve; rw [if_neg hd]

theorem linSolveCols_ok {n : Nat} {A : Matrix (Fin n) (Fin n) ℝ} {B X : Fin n → Vec d}
    (h : linSolveCols A B = .ok X) : A.det ≠ 0 ∧ ∀ i c, ∑ j, A i j * X j c = B i c := by
  unfold linSolveCols at h
  split at h
  · cases h
  · rename_i hd
    refine ⟨hd, fun i c => ?_⟩
    rw [← Except.ok.inj h]
    have : A *ᵥ (A⁻¹ *ᵥ fun j => B j c) = fun j => B j c := by
      rw [mulVec_mulVec, mul_nonsing_inv A (Ne.isUnit hd), one_mulVec]
    exact congrFun this i

theorem keopsSolveCols_ok {n : Nat} {A : Matrix (Fin n) (Fin n) ℝ} {B X : Fin n → Vec d}
    (h : keopsSolveCols A B = .ok X) : A.det ≠ 0 ∧ ∀ i c, ∑ j, A i j * X j c = B i c := by
  unfold keopsSolveCols at h
  split at h
  · cases h
  · rename_i hd
    refine ⟨hd, fun i c => ?_⟩
    rw [← Except.ok.inj h]
    have : A *ᵥ (A⁻¹ *ᵥ fun j => B j c) = fun j => B j c := by
      rw [mulVec_mulVec, mul_nonsing_inv A (Ne.isUnit hd), one_mulVec]
    exact congrFun this i

theorem tdiv_ok {a c x : ℝ} (h : tdiv a c = .ok x) : c ≠ 0 ∧ x = a / c := by
  unfold tdiv at h
  split at h
  · cases h
  · rename_i hc
    exact ⟨hc, (Except.ok.inj h).symm⟩

theorem tdiv_of_ne {a c : ℝ} (h : c ≠ 0) : tdiv a c = .ok (a / c) := by
  unfold tdiv; rw [if_neg h]

/-- A matrix that is strictly positive as a quadratic form is not singular. -/
theorem det_ne_zero_of_pos {A : Matrix ι ι ℝ} (h : ∀ l, l ≠ 0 → 0 < l ⬝ᵥ A *ᵥ l) : A.det ≠ 0 := by
  intro hd
  obtain ⟨v, hv, h0⟩ := Matrix.exists_mulVec_eq_zero_iff.mpr hd
  have := h v hv
  rw [h0, dotProduct_zero] at this
  exact lt_irrefl _ this

/-- The inverse of a symmetric positive matrix is symmetric and positive. -/
theorem inv_symm {S : Matrix ι ι ℝ} (h : Sᵀ = S) : (S⁻¹)ᵀ = S⁻¹ := by
  rw [transpose_nonsing_inv, h]

theorem inv_psd {S : Matrix ι ι ℝ} (hsym : Sᵀ = S) (hpsd : ∀ l, 0 ≤ l ⬝ᵥ S *ᵥ l) (hd : S.det ≠ 0) (l : ι → ℝ) :
    0 ≤ l ⬝ᵥ S⁻¹ *ᵥ l := by
  have h := hpsd (S⁻¹ *ᵥ l)
  rw [mulVec_mulVec, mul_nonsing_inv S (Ne.isUnit hd), one_mulVec, dotProduct_comm] at h
  exact h

theorem smul_one_psd {S : Matrix ι ι ℝ} (hpsd : ∀ l, 0 ≤ l ⬝ᵥ S *ᵥ l) {ν : ℝ} (hν : 0 ≤ ν) (l : ι → ℝ) :
    0 ≤ l ⬝ᵥ (S + ν • (1 : Matrix ι ι ℝ)) *ᵥ l := by
  rw [add_mulVec, smul_mulVec, one_mulVec, dotProduct_add, dotProduct_smul]
  have h1 := hpsd l
  have h2 : 0 ≤ l ⬝ᵥ l := Finset.sum_nonneg fun i _ => mul_self_nonneg _
  have := mul_nonneg hν h2
  simp only [smul_eq_mul]
  linarith

theorem smul_one_pos {S : Matrix ι ι ℝ} (hpsd : ∀ l, 0 ≤ l ⬝ᵥ S *ᵥ l) {ν : ℝ} (hν : 0 < ν) (l : ι → ℝ) (hl : l ≠ 0) :
    0 < l ⬝ᵥ (S + ν • (1 : Matrix ι ι ℝ)) *ᵥ l := by
  rw [add_mulVec, smul_mulVec, one_mulVec, dotProduct_add, dotProduct_smul]
  have h1 := hpsd l
  have h2 : 0 < l ⬝ᵥ l := by
    have h0 : 0 ≤ l ⬝ᵥ l := Finset.sum_nonneg fun i _ => mul_self_nonneg _
    rcases h0.lt_or_eq with h | h
    · exact h
    · exact absurd (dotProduct_self_eq_zero.mp h.symm) hl
  have := mul_pos hν h2
  simp only [smul_eq_mul]
  linarith

theorem smul_one_symm {S : Matrix ι ι ℝ} (h : Sᵀ = S) (ν : ℝ) :
    (S + ν • (1 : Matrix ι ι ℝ))ᵀ = S + ν • (1 : Matrix ι ι ℝ) := by
  rw [transpose_add, transpose_smul, transpose_one, h]

end
end Imodal
