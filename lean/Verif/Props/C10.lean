import Verif.Lemmas.Hermite
import Mathlib.LinearAlgebra.Matrix.PosDef
import Mathlib.LinearAlgebra.Matrix.NonsingularInverse
/-!
# C10 Kernel matrices are positive semi-definite, and definite for distinct points

`Matrix.PosSemidef` and `Matrix.PosDef` are Mathlib's. `computeSks0` and `computeSks1` are
`compute_sks` for orders 0 and 1; the latter is the matrix of the strain constraints.
-/
set_option autoImplicit false
namespace Imodal
variable {d n : Nat}

theorem C10_posSemidef (σ : ℝ) (x : Fin n → Vec d) : (Matrix.of (kXX σ x)).PosSemidef := by
  refine Matrix.PosSemidef.of_dotProduct_mulVec_nonneg ?_ fun a => ?_
  · ext i j
    simp [kXX_eq, kXY_comm σ (x i) (x j)]
  · have h := gaussian_psd σ x a
    simp only [dotProduct, Matrix.mulVec, Matrix.of_apply, Pi.star_apply, star_trivial,
      Finset.mul_sum]
    refine h.trans_eq (Finset.sum_congr rfl fun i _ => Finset.sum_congr rfl fun j _ => ?_)
    rw [kXX_eq]; ring

/-- Distinct points give a positive definite matrix. -/
theorem C10_posDef {σ : ℝ} (hσ : σ ≠ 0) (x : Fin n → Vec d) (hx : Function.Injective x) :
    (Matrix.of (kXX σ x)).PosDef := by
  refine Matrix.PosDef.of_dotProduct_mulVec_pos (C10_posSemidef σ x).1 fun a ha => ?_
  refine lt_of_le_of_ne ((C10_posSemidef σ x).dotProduct_mulVec_nonneg a) fun h => ha ?_
  apply gaussian_pd hσ x hx a
  rw [h]
  simp only [dotProduct, Matrix.mulVec, Matrix.of_apply, Pi.star_apply, star_trivial,
    Finset.mul_sum]
  refine Finset.sum_congr rfl fun i _ => Finset.sum_congr rfl fun j _ => ?_
  rw [kXX_eq]; ring

/-- The kernel matrix is invertible exactly when the points are pairwise distinct. -/
theorem C10_invertible_iff {σ : ℝ} (hσ : σ ≠ 0) (x : Fin n → Vec d) :
    IsUnit (Matrix.of (kXX σ x)) ↔ Function.Injective x := by
  constructor
  · intro hu i j hij
    by_contra hne
    rw [Matrix.isUnit_iff_isUnit_det, isUnit_iff_ne_zero] at hu
    apply hu
    refine Matrix.det_zero_of_row_eq hne ?_
    funext k
    simp [kXX_eq, hij]
  · intro hx
    exact (C10_posDef hσ x hx).isUnit

/-- The matrix of order 0 takes moments to the velocities they generate at the points. -/
theorem C10_sks0_field (σ : ℝ) (x p : Fin n → Vec d) :
    ∃ V, (FieldExpr.f0 .torch x p σ).values x = .ok V ∧
      ∀ i c, ((computeSks0 σ x).mulVec fun q => p q.1 q.2) (i, c) = V i c := by
  refine ⟨_, (isRep_f0 .torch x p σ).avail.values _, fun i c => ?_⟩
  rw [(isRep_f0 .torch x p σ).val, rep_ofFn, Matrix.mulVec, dotProduct, Fintype.sum_prod_type]
  refine Finset.sum_congr rfl fun j _ => ?_
  rw [Finset.sum_eq_single c]
  · simp [computeSks0, eye, gauss0_relDiff, Atom.rep, atom0]
  · intro e _ he; simp [computeSks0, eye, Ne.symm he]
  · simp

theorem computeSks0_eq (σ : ℝ) (x : Fin n → Vec d) : computeSks0 σ x = gramMat σ (pointAtom x) := by
  funext q r
  rw [gramMat_point]
  unfold computeSks0 eye
  rw [gauss0_relDiff]

theorem gramMat_posSemidef {ι : Type} [Fintype ι] (σ : ℝ) (a : ι → Atom d) : (gramMat σ a).PosSemidef :=
  Matrix.PosSemidef.of_dotProduct_mulVec_nonneg (by rw [Matrix.IsHermitian, Matrix.conjTranspose_eq_transpose_of_trivial]; exact gramMat_symm σ a)
    fun l => gramMat_psd σ a l

theorem C10_sks0_posSemidef (σ : ℝ) (x : Fin n → Vec d) : (computeSks0 σ x).PosSemidef := by
  rw [computeSks0_eq]; exact gramMat_posSemidef σ _

theorem C10_sks0_posDef {σ : ℝ} (hσ : σ ≠ 0) (x : Fin n → Vec d) (hx : Function.Injective x) :
    (computeSks0 σ x).PosDef := by
  classical
  refine Matrix.PosDef.of_dotProduct_mulVec_pos (C10_sks0_posSemidef σ x).1 fun l hl => ?_
  rw [computeSks0_eq]
  refine lt_of_le_of_ne (gramMat_psd σ _ l) fun h => hl ?_
  funext ⟨i, c⟩
  have := (rep_zero_places hσ _ l (rep_zero_of_gram σ _ l h.symm) (x i) c).1
  rw [Fintype.sum_prod_type, Finset.sum_eq_single i] at this
  · simpa [pointAtom, atom0, Pi.single_apply] using this
  · intro j _ hj
    exact Finset.sum_eq_zero fun u _ => if_neg fun e => hj (hx e)
  · simp

theorem C10_sks1_posSemidef (σ : ℝ) (x : Fin n → Vec d) : (computeSks1 σ x).PosSemidef := by
  rw [computeSks1_eq]; exact gramMat_posSemidef σ _

/-- Distinct points give a positive definite matrix of strain constraints. -/
theorem C10_sks1_posDef {σ : ℝ} (hσ : σ ≠ 0) (hd : d = 2 ∨ d = 3) (x : Fin n → Vec d) (hx : Function.Injective x) :
    (computeSks1 σ x).PosDef := by
  refine Matrix.PosDef.of_dotProduct_mulVec_pos (C10_sks1_posSemidef σ x).1 fun l hl => ?_
  rw [computeSks1_eq]
  exact strain_pos hσ hd x hx l hl

-- distinct points exist in every number: three points on a line
example : Function.Injective (fun (i : Fin 3) (_ : Fin 1) => ((i : ℕ) : ℝ)) := by
  intro i j h
  have := congrFun h 0
  simp only [Nat.cast_inj] at this
  exact Fin.ext this

end Imodal
