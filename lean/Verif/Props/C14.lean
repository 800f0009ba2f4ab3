import Verif.Lemmas.Field
import Verif.Props.C11
import Mathlib.LinearAlgebra.Matrix.Notation
import Mathlib.LinearAlgebra.UnitaryGroup
/-!
# C14 Kernel fields commute with translations and rotations

Stated for every field of the library and every sum of fields. `translate` and `rotate`
move the data of a field; `Q` is an orthogonal matrix in Mathlib's sense.
-/
set_option autoImplicit false
namespace Imodal
noncomputable section
open Matrix
variable {d : Nat}

mutual
/-- The field with supports and centres shifted by `τ`; moments and directions kept. -/
def FieldExpr.translate (τ : Vec d) : FieldExpr d → FieldExpr d
  | .f0 r supp mom σ => .f0 r (fun j => supp j + τ) mom σ
  | .f0u r supp mom dir σ => .f0u r (fun j => supp j + τ) mom dir σ
  | .fp r supp M σ => .fp r (fun j => supp j + τ) M σ
  | .fm r supp M σ => .fm r (fun j => supp j + τ) M σ
  | .f1 r supp m σ => .f1 r (fun j => supp j + τ) m σ
  | .affine A x0 u => .affine A (x0 + τ) u
  | .const m => .const m
  | .null => .null
  | .sum fs => .sum (FieldExpr.translateAll τ fs)
/-- Member by member. -/
def FieldExpr.translateAll (τ : Vec d) : List (FieldExpr d) → List (FieldExpr d)
  | [] => []
  | f :: fs => FieldExpr.translate τ f :: FieldExpr.translateAll τ fs
end

theorem relDiff_shift (x y τ : Vec d) : relDiff (x + τ) (y + τ) = relDiff x y := by
  funext c; simp [relDiff]

theorem kXY_shift (σ : ℝ) (x y τ : Vec d) : kXY σ (x + τ) (y + τ) = kXY σ x y := by
  rw [← gauss0_relDiff, ← gauss0_relDiff, relDiff_shift]

theorem keopsGauss_shift (σ : ℝ) (x y τ : Vec d) : keopsGauss σ (x + τ) (y + τ) = keopsGauss σ x y := by
  rw [keopsGauss_eq, keopsGauss_eq, kXY_shift]

theorem coord_shift (x y τ : Vec d) (c : Fin d) : (x + τ) c - (y + τ) c = x c - y c := by simp

mutual
theorem translate_eval (τ : Vec d) (k : Nat) (x : Vec d) :
    (f : FieldExpr d) → (f.translate τ).eval k (x + τ) = f.eval k x
  | .f0 .torch supp mom σ => by
    simp only [FieldExpr.translate, FieldExpr.eval, field0Torch, kXY_shift, relDiff_shift]
  | .f0 .keops supp mom σ => by
    simp only [FieldExpr.translate, FieldExpr.eval, field0Keops, keopsGauss_shift, coord_shift]
  | .f0u _ supp mom dir σ => by
    simp only [FieldExpr.translate, FieldExpr.eval, field0uTorch, relDiff_shift]
  | .fp .torch supp mom σ => by
    simp only [FieldExpr.translate, FieldExpr.eval, fieldPmTorch, relDiff_shift]
  | .fp .keops supp mom σ => by
    simp only [FieldExpr.translate, FieldExpr.eval, fieldPmKeops, keopsGauss_shift, coord_shift]
  | .fm .torch supp mom σ => by
    simp only [FieldExpr.translate, FieldExpr.eval, fieldPmTorch, relDiff_shift]
  | .fm .keops supp mom σ => by
    simp only [FieldExpr.translate, FieldExpr.eval, fieldPmKeops, keopsGauss_shift, coord_shift]
  | .f1 .torch supp mom σ => by
    simp only [FieldExpr.translate, FieldExpr.eval, field1Torch, relDiff_shift]
  | .f1 .keops supp mom σ => by simp only [FieldExpr.translate, FieldExpr.eval]
  | .affine A x0 u => by
    simp only [FieldExpr.translate, FieldExpr.eval, fieldAffine, coord_shift]
  | .const m => by simp only [FieldExpr.translate, FieldExpr.eval, fieldConst]
  | .null => by simp only [FieldExpr.translate, FieldExpr.eval]
  | .sum fs => by
    simp only [FieldExpr.translate, FieldExpr.eval]
    exact translate_evalSum τ k x fs
theorem translate_evalSum (τ : Vec d) (k : Nat) (x : Vec d) :
    (fs : List (FieldExpr d)) →
    FieldExpr.evalSum k (FieldExpr.translateAll τ fs) (x + τ) = FieldExpr.evalSum k fs x
  | [] => by simp only [FieldExpr.translateAll, FieldExpr.evalSum]
  | f :: fs => by
    simp only [FieldExpr.translateAll, FieldExpr.evalSum, translate_eval τ k x f,
      translate_evalSum τ k x fs]
end

/-- Translating support and evaluation point together changes nothing, at any order, for any
field, exceptions included. -/
theorem C14_translation (f : FieldExpr d) (τ : Vec d) (k : Nat) (x : Vec d) :
    (f.translate τ).eval k (x + τ) = f.eval k x := translate_eval τ k x f

mutual
/-- The field with all its data rotated: points and vectors by `Q`, matrices by conjugation. -/
def FieldExpr.rotate (Q : Mat d) : FieldExpr d → FieldExpr d
  | .f0 r supp mom σ => .f0 r (fun j => Q *ᵥ supp j) (fun j => Q *ᵥ mom j) σ
  | .f0u r supp mom dir σ => .f0u r (fun j => Q *ᵥ supp j) (fun j => Q *ᵥ mom j) (fun j => Q *ᵥ dir j) σ
  | .fp r supp M σ => .fp r (fun j => Q *ᵥ supp j) (fun j => Q * (M j) * Qᵀ) σ
  | .fm r supp M σ => .fm r (fun j => Q *ᵥ supp j) (fun j => Q * (M j) * Qᵀ) σ
  | .f1 r supp m σ => .f1 r (fun j => Q *ᵥ supp j) m σ
  | .affine A x0 u => .affine (Q * (A : Mat d) * Qᵀ) (Q *ᵥ x0) (Q *ᵥ u)
  | .const m => .const (Q *ᵥ m)
  | .null => .null
  | .sum fs => .sum (FieldExpr.rotateAll Q fs)
/-- Member by member. -/
def FieldExpr.rotateAll (Q : Mat d) : List (FieldExpr d) → List (FieldExpr d)
  | [] => []
  | f :: fs => FieldExpr.rotate Q f :: FieldExpr.rotateAll Q fs
end

section
variable {Q : Mat d}

theorem relDiff_rot (Q : Mat d) (x y : Vec d) :
    relDiff (Q *ᵥ x) (Q *ᵥ y) = Q *ᵥ relDiff x y := by
  have : relDiff x y = x - y := rfl
  rw [this, Matrix.mulVec_sub]; rfl

theorem gauss0_rot (hQ : Qᵀ * Q = 1) (σ : ℝ) (z : Vec d) : gauss0 σ (Q *ᵥ z) = gauss0 σ z := by
  have h : ∑ c, (Q *ᵥ z) c ^ 2 = ∑ c, z c ^ 2 := by
    have h1 : (Q *ᵥ z) ⬝ᵥ (Q *ᵥ z) = z ⬝ᵥ z := by
      rw [Matrix.dotProduct_mulVec, Matrix.vecMul_mulVec, ← Matrix.dotProduct_mulVec]
      rw [hQ, Matrix.one_mulVec]
    simpa [dotProduct, sq] using h1
  unfold gauss0; rw [h]

/-- Gradient as a vector, Hessian as a matrix. -/
theorem g1_rot (hQ : Qᵀ * Q = 1) (σ : ℝ) (z : Vec d) : g1 σ (Q *ᵥ z) = Q *ᵥ g1 σ z := by
  have e : ∀ w : Vec d, g1 σ w = (-gauss0 σ w / (σ * σ)) • w := by
    intro w; funext c; simp [g1]; ring
  rw [e, e, gauss0_rot hQ, Matrix.mulVec_smul]

theorem g2_rot (hQ : Qᵀ * Q = 1) (σ : ℝ) (z : Vec d) :
    (g2 σ (Q *ᵥ z)) = Q * (g2 σ z : Mat d) * Qᵀ := by
  have hQ' : Q * Qᵀ = 1 := mul_eq_one_comm.mp hQ
  have e : ∀ w : Vec d, (g2 σ w : Mat d)
      = (-gauss0 σ w / (σ * σ)) • (1 : Mat d)
        + (gauss0 σ w / (σ * σ) / (σ * σ)) • Matrix.vecMulVec w w := by
    intro w; ext a c
    simp only [g2, Matrix.add_apply, Matrix.smul_apply, Matrix.one_apply, Matrix.vecMulVec_apply, smul_eq_mul]
    ring
  rw [e, e, gauss0_rot hQ, Matrix.mul_add, Matrix.add_mul, Matrix.mul_smul, Matrix.mul_smul,
    Matrix.smul_mul, Matrix.smul_mul, Matrix.mul_one, hQ']
  congr 2
  rw [Matrix.mul_vecMulVec, Matrix.vecMulVec_mul, Matrix.vecMul_transpose]

theorem symPart_rot (M : Mat d) :
    (symPart (Q * M * Qᵀ)) = Q * (symPart M) * Qᵀ := by
  have e : ∀ N : Mat d, (symPart N) = (1 / 2 : ℝ) • (N + Nᵀ) := by
    intro N; ext a c
    simp [symPart]; ring
  rw [e, e]
  simp only [Matrix.transpose_mul, Matrix.transpose_transpose, Matrix.mul_smul, Matrix.smul_mul,
    Matrix.mul_add, Matrix.add_mul, Matrix.mul_assoc]

theorem skewPart_rot (M : Mat d) :
    (skewPart (Q * M * Qᵀ)) = Q * (skewPart M) * Qᵀ := by
  have e : ∀ N : Mat d, (skewPart N) = (1 / 2 : ℝ) • (N - Nᵀ) := by
    intro N; ext a c
    simp [skewPart]; ring
  rw [e, e]
  simp only [Matrix.transpose_mul, Matrix.transpose_transpose, Matrix.mul_smul, Matrix.smul_mul,
    Matrix.mul_sub, Matrix.sub_mul, Matrix.mul_assoc]

/-! Closed forms in matrix notation. -/

/-- Value as a vector. -/
def val0 (v : Vec d) : Tens d 1 := fun I => v (I 0)
/-- Jacobian as a matrix. -/
def val1 (J : Mat d) : Tens d 2 := fun I => J (I 0) (I 1)

theorem val0_surj (t : Tens d 1) : ∃ v, t = val0 v :=
  ⟨fun b => t fun _ => b, by
    funext I; unfold val0; congr 1; funext i; rw [Fin.fin_one_eq_zero i]⟩

theorem val1_surj (t : Tens d 2) : ∃ J, t = val1 J :=
  ⟨fun b c => t ![b, c], by
    funext I; unfold val1; congr 1; funext i; fin_cases i <;> rfl⟩

theorem val0_inj {v w : Vec d} (h : val0 v = val0 w) : v = w := by
  funext b; exact congrFun h fun _ => b

theorem val1_inj {v w : Mat d} (h : val1 v = val1 w) : v = w := by
  ext b c; exact congrFun h ![b, c]

variable {n : Nat} (supp mom dir : Fin n → Vec d) (P : Fin n → Mat d) (m : Fin n → ℝ)
  (σ : ℝ) (x : Vec d)

theorem field0_form0 : field0Torch supp mom σ 0 x = .ok (val0 (∑ j, kXY σ x (supp j) • mom j)) := by
  rw [field0Torch_zero]
  refine congrArg Except.ok (funext fun I => ?_)
  simp [val0, Finset.sum_apply]

theorem field0_form1 : field0Torch supp mom σ 1 x
    = .ok (val1 (∑ j, Matrix.vecMulVec (mom j) (g1 σ (relDiff x (supp j))))) := by
  rw [field0Torch_one]
  refine congrArg Except.ok (funext fun I => ?_)
  simp only [val1, Matrix.sum_apply, Matrix.vecMulVec_apply]
  exact Finset.sum_congr rfl fun j _ => mul_comm _ _

theorem field0u_form0 : field0uTorch supp mom dir σ 0 x
    = .ok (val0 (∑ j, (-(g1 σ (relDiff x (supp j)) ⬝ᵥ dir j)) • mom j)) := by
  rw [field0uTorch_zero]
  refine congrArg Except.ok (funext fun I => ?_)
  simp [val0, Finset.sum_apply, dotProduct]

theorem fieldPm_form0 : fieldPmTorch supp P σ 0 x
    = .ok (val0 (∑ j, -(P j *ᵥ g1 σ (relDiff x (supp j))))) := by
  rw [fieldPmTorch_zero]
  refine congrArg Except.ok (funext fun I => ?_)
  simp only [val0, Finset.sum_apply, Matrix.mulVec, dotProduct, Pi.neg_apply, ← Finset.sum_neg_distrib]
  exact Finset.sum_congr rfl fun j _ => Finset.sum_congr rfl fun c _ => by ring

theorem fieldPm_form1 : fieldPmTorch supp P σ 1 x
    = .ok (val1 (∑ j, -(P j * (g2 σ (relDiff x (supp j)))))) := by
  rw [fieldPmTorch_one]
  refine congrArg Except.ok (funext fun I => ?_)
  simp only [val1, Matrix.sum_apply, Matrix.neg_apply, Matrix.mul_apply, ← Finset.sum_neg_distrib]
  exact Finset.sum_congr rfl fun j _ => Finset.sum_congr rfl fun c _ => by ring

theorem field1_form0 : field1Torch supp m σ 0 x = .ok (val0 (∑ j, m j • g1 σ (relDiff (supp j) x))) := by
  rw [field1Torch_zero]
  refine congrArg Except.ok (funext fun I => ?_)
  simp only [val0, Finset.sum_apply, Pi.smul_apply, smul_eq_mul]
  exact Finset.sum_congr rfl fun j _ => mul_comm _ _

theorem field1_form1 : field1Torch supp m σ 1 x
    = .ok (val1 (∑ j, (-m j) • (g2 σ (relDiff (supp j) x)))) := by
  rw [field1Torch_one]
  refine congrArg Except.ok (funext fun I => ?_)
  simp only [val1, Matrix.sum_apply, Matrix.smul_apply, smul_eq_mul]
  exact Finset.sum_congr rfl fun j _ => by ring

theorem fieldAffine_form0 (A : Mat d) (x0 u : Vec d) :
    fieldAffine A x0 u 0 x = val0 (A *ᵥ (x - x0) + u) := by
  funext I
  show (∑ c, (x c - x0 c) * A (I 0) c) + u (I 0) = _
  simp only [val0, Pi.add_apply, Matrix.mulVec, dotProduct, Pi.sub_apply]
  congr 1
  exact Finset.sum_congr rfl fun c _ => mul_comm _ _
end

theorem rotate_torch0 {Q : Mat d} (hQ : Qᵀ * Q = 1) {n : Nat} (supp mom : Fin n → Vec d)
    (σ : ℝ) (x v : Vec d) (h : field0Torch supp mom σ 0 x = .ok (val0 v)) :
    field0Torch (fun j => Q *ᵥ supp j) (fun j => Q *ᵥ mom j) σ 0 (Q *ᵥ x) = .ok (val0 (Q *ᵥ v)) := by
  rw [field0_form0] at h ⊢
  rw [← val0_inj (Except.ok.inj h)]
  congr 2
  rw [Matrix.mulVec_sum]
  refine Finset.sum_congr rfl fun j _ => ?_
  rw [← gauss0_relDiff, relDiff_rot, gauss0_rot hQ, gauss0_relDiff, Matrix.mulVec_smul]

theorem rotate_torch1 {Q : Mat d} (hQ : Qᵀ * Q = 1) {n : Nat} (supp mom : Fin n → Vec d)
    (σ : ℝ) (x : Vec d) (J : Mat d) (h : field0Torch supp mom σ 1 x = .ok (val1 J)) :
    field0Torch (fun j => Q *ᵥ supp j) (fun j => Q *ᵥ mom j) σ 1 (Q *ᵥ x) = .ok (val1 (Q * J * Qᵀ)) := by
  rw [field0_form1] at h ⊢
  rw [← val1_inj (Except.ok.inj h)]
  congr 2
  rw [Matrix.mul_sum, Matrix.sum_mul]
  refine Finset.sum_congr rfl fun j _ => ?_
  rw [relDiff_rot, g1_rot hQ, Matrix.mul_vecMulVec, Matrix.vecMulVec_mul, Matrix.vecMul_transpose]

theorem rotate_pm0 {Q : Mat d} (hQ : Qᵀ * Q = 1) {n : Nat} (supp : Fin n → Vec d)
    (P : Fin n → Mat d) (σ : ℝ) (x v : Vec d)
    (h : fieldPmTorch supp P σ 0 x = .ok (val0 v)) :
    fieldPmTorch (fun j => Q *ᵥ supp j) (fun j => Q * P j * Qᵀ) σ 0 (Q *ᵥ x) = .ok (val0 (Q *ᵥ v)) := by
  rw [fieldPm_form0] at h
  rw [← val0_inj (Except.ok.inj h)]
  refine (fieldPm_form0 _ _ σ _).trans ?_
  congr 2
  rw [Matrix.mulVec_sum]
  refine Finset.sum_congr rfl fun j _ => ?_
  rw [relDiff_rot, g1_rot hQ, Matrix.mulVec_mulVec, Matrix.mul_assoc, hQ, Matrix.mul_one, Matrix.mulVec_neg,
    Matrix.mulVec_mulVec]

theorem rotate_pm1 {Q : Mat d} (hQ : Qᵀ * Q = 1) {n : Nat} (supp : Fin n → Vec d)
    (P : Fin n → Mat d) (σ : ℝ) (x : Vec d) (J : Mat d)
    (h : fieldPmTorch supp P σ 1 x = .ok (val1 J)) :
    fieldPmTorch (fun j => Q *ᵥ supp j) (fun j => Q * P j * Qᵀ) σ 1 (Q *ᵥ x) = .ok (val1 (Q * J * Qᵀ)) := by
  rw [fieldPm_form1] at h
  rw [← val1_inj (Except.ok.inj h)]
  refine (fieldPm_form1 _ _ σ _).trans ?_
  congr 2
  rw [Matrix.mul_sum, Matrix.sum_mul]
  refine Finset.sum_congr rfl fun j _ => ?_
  rw [relDiff_rot, g2_rot hQ, Matrix.mul_neg, Matrix.neg_mul]
  congr 1
  calc Q * P j * Qᵀ * (Q * (g2 σ (relDiff x (supp j))) * Qᵀ)
      = Q * P j * (Qᵀ * Q) * (g2 σ (relDiff x (supp j))) * Qᵀ := by
        simp only [Matrix.mul_assoc]
    _ = _ := by rw [hQ, Matrix.mul_one]; simp only [Matrix.mul_assoc]

mutual
theorem rotate_eval0 {Q : Mat d} (hQ : Qᵀ * Q = 1) (x : Vec d) :
    (f : FieldExpr d) → ∀ v, f.eval 0 x = .ok (val0 v) → (f.rotate Q).eval 0 (Q *ᵥ x) = .ok (val0 (Q *ᵥ v))
  | .f0 .torch supp mom σ, v, h => by
    simp only [FieldExpr.rotate, FieldExpr.eval] at *
    exact rotate_torch0 hQ supp mom σ x v h
  | .f0 .keops supp mom σ, v, h => by
    simp only [FieldExpr.rotate, FieldExpr.eval] at *
    rw [field0Keops_zero] at *
    exact rotate_torch0 hQ supp mom σ x v h
  | .f0u _ supp mom dir σ, v, h => by
    simp only [FieldExpr.rotate, FieldExpr.eval] at *
    rw [field0u_form0] at h ⊢
    rw [← val0_inj (Except.ok.inj h)]
    congr 2
    rw [Matrix.mulVec_sum]
    refine Finset.sum_congr rfl fun j _ => ?_
    rw [relDiff_rot, g1_rot hQ, Matrix.mulVec_smul, Matrix.dotProduct_mulVec, Matrix.vecMul_mulVec, hQ,
      Matrix.vecMul_one]
  | .fp .torch supp M σ, v, h => by
    simp only [FieldExpr.rotate, FieldExpr.eval, symPart_rot] at *
    exact rotate_pm0 hQ supp _ σ x v h
  | .fp .keops supp M σ, v, h => by
    simp only [FieldExpr.rotate, FieldExpr.eval, symPart_rot] at *
    rw [fieldPmKeops_zero] at *
    exact rotate_pm0 hQ supp _ σ x v h
  | .fm .torch supp M σ, v, h => by
    simp only [FieldExpr.rotate, FieldExpr.eval, skewPart_rot] at *
    exact rotate_pm0 hQ supp _ σ x v h
  | .fm .keops supp M σ, v, h => by
    simp only [FieldExpr.rotate, FieldExpr.eval, skewPart_rot] at *
    rw [fieldPmKeops_zero] at *
    exact rotate_pm0 hQ supp _ σ x v h
  | .f1 .torch supp m σ, v, h => by
    simp only [FieldExpr.rotate, FieldExpr.eval] at *
    rw [field1_form0] at h ⊢
    rw [← val0_inj (Except.ok.inj h)]
    congr 2
    rw [Matrix.mulVec_sum]
    refine Finset.sum_congr rfl fun j _ => ?_
    rw [relDiff_rot, g1_rot hQ, Matrix.mulVec_smul]
  | .f1 .keops supp m σ, v, h => by simp only [FieldExpr.eval] at h; cases h
  | .affine A x0 u, v, h => by
    simp only [FieldExpr.rotate, FieldExpr.eval] at *
    have h := Except.ok.inj h
    rw [fieldAffine_form0] at h
    rw [← val0_inj h, fieldAffine_form0]
    congr 2
    rw [← Matrix.mulVec_sub, Matrix.mulVec_mulVec, Matrix.mul_assoc, hQ, Matrix.mul_one, Matrix.mulVec_add,
      Matrix.mulVec_mulVec]
  | .const m, v, h => by
    simp only [FieldExpr.rotate, FieldExpr.eval] at *
    have h := Except.ok.inj h
    have : m = v := val0_inj h
    subst this
    rfl
  | .null, v, h => by
    simp only [FieldExpr.rotate, FieldExpr.eval] at *
    have h := Except.ok.inj h
    have : (0 : Vec d) = v := val0_inj h
    subst this
    rw [Matrix.mulVec_zero]; rfl
  | .sum fs, v, h => by
    simp only [FieldExpr.rotate, FieldExpr.eval] at *
    exact rotate_evalSum0 hQ x fs v h
theorem rotate_evalSum0 {Q : Mat d} (hQ : Qᵀ * Q = 1) (x : Vec d) :
    (fs : List (FieldExpr d)) → ∀ v, FieldExpr.evalSum 0 fs x = .ok (val0 v) →
      FieldExpr.evalSum 0 (FieldExpr.rotateAll Q fs) (Q *ᵥ x) = .ok (val0 (Q *ᵥ v))
  | [], v, h => by
    have h := Except.ok.inj h
    have : (0 : Vec d) = v := val0_inj h
    subst this
    rw [Matrix.mulVec_zero]; rfl
  | f :: fs, v, h => by
    obtain ⟨a, b, ha, hb, hab⟩ := evalSum_cons_ok h
    obtain ⟨va, rfl⟩ := val0_surj a
    obtain ⟨vb, rfl⟩ := val0_surj b
    have hv : v = va + vb := val0_inj hab
    subst hv
    rw [FieldExpr.rotateAll, FieldExpr.evalSum, rotate_eval0 hQ x f va ha, rotate_evalSum0 hQ x fs vb hb,
      Matrix.mulVec_add]
    rfl
end

mutual
theorem rotate_eval1 {Q : Mat d} (hQ : Qᵀ * Q = 1) (x : Vec d) :
    (f : FieldExpr d) → ∀ J, f.eval 1 x = .ok (val1 J) → (f.rotate Q).eval 1 (Q *ᵥ x) = .ok (val1 (Q * J * Qᵀ))
  | .f0 .torch supp mom σ, v, h => by
    simp only [FieldExpr.rotate, FieldExpr.eval] at *
    exact rotate_torch1 hQ supp mom σ x v h
  | .f0 .keops supp mom σ, v, h => by
    simp only [FieldExpr.rotate, FieldExpr.eval] at *
    rw [field0Keops_one] at *
    exact rotate_torch1 hQ supp mom σ x v h
  | .f0u _ supp mom dir σ, v, h => by
    simp only [FieldExpr.eval] at h
    cases (field0uTorch_succ supp mom dir σ x 0).symm.trans h
  | .fp .torch supp M σ, v, h => by
    simp only [FieldExpr.rotate, FieldExpr.eval, symPart_rot] at *
    exact rotate_pm1 hQ supp _ σ x v h
  | .fp .keops supp M σ, v, h => by
    simp only [FieldExpr.rotate, FieldExpr.eval, symPart_rot] at *
    rw [fieldPmKeops_one] at *
    exact rotate_pm1 hQ supp _ σ x v h
  | .fm .torch supp M σ, v, h => by
    simp only [FieldExpr.rotate, FieldExpr.eval, skewPart_rot] at *
    exact rotate_pm1 hQ supp _ σ x v h
  | .fm .keops supp M σ, v, h => by
    simp only [FieldExpr.rotate, FieldExpr.eval, skewPart_rot] at *
    rw [fieldPmKeops_one] at *
    exact rotate_pm1 hQ supp _ σ x v h
  | .f1 .torch supp m σ, v, h => by
    simp only [FieldExpr.rotate, FieldExpr.eval] at *
    rw [field1_form1] at h ⊢
    rw [← val1_inj (Except.ok.inj h)]
    congr 2
    rw [Matrix.mul_sum, Matrix.sum_mul]
    refine Finset.sum_congr rfl fun j _ => ?_
    rw [relDiff_rot, g2_rot hQ, Matrix.mul_smul, Matrix.smul_mul]
  | .f1 .keops supp m σ, v, h => by simp only [FieldExpr.eval] at h; cases h
  | .affine A x0 u, J, h => by
    simp only [FieldExpr.rotate, FieldExpr.eval] at *
    have h := Except.ok.inj h
    have : (A : Mat d) = J := val1_inj h
    subst this
    rfl
  | .const m, J, h => by
    simp only [FieldExpr.rotate, FieldExpr.eval] at *
    have h := Except.ok.inj h
    have : (0 : Mat d) = J := val1_inj h
    subst this
    rw [Matrix.mul_zero, Matrix.zero_mul]; rfl
  | .null, J, h => by
    simp only [FieldExpr.rotate, FieldExpr.eval] at *
    have h := Except.ok.inj h
    have : (0 : Mat d) = J := val1_inj h
    subst this
    rw [Matrix.mul_zero, Matrix.zero_mul]; rfl
  | .sum fs, v, h => by
    simp only [FieldExpr.rotate, FieldExpr.eval] at *
    exact rotate_evalSum1 hQ x fs v h
theorem rotate_evalSum1 {Q : Mat d} (hQ : Qᵀ * Q = 1) (x : Vec d) :
    (fs : List (FieldExpr d)) → ∀ J, FieldExpr.evalSum 1 fs x = .ok (val1 J) →
      FieldExpr.evalSum 1 (FieldExpr.rotateAll Q fs) (Q *ᵥ x) = .ok (val1 (Q * J * Qᵀ))
  | [], J, h => by
    have h := Except.ok.inj h
    have : (0 : Mat d) = J := val1_inj h
    subst this
    rw [Matrix.mul_zero, Matrix.zero_mul]; rfl
  | f :: fs, v, h => by
    obtain ⟨a, b, ha, hb, hab⟩ := evalSum_cons_ok h
    obtain ⟨va, rfl⟩ := val1_surj a
    obtain ⟨vb, rfl⟩ := val1_surj b
    have hv : v = va + vb := val1_inj hab
    subst hv
    rw [FieldExpr.rotateAll, FieldExpr.evalSum, rotate_eval1 hQ x f va ha, rotate_evalSum1 hQ x fs vb hb,
      Matrix.mul_add, Matrix.add_mul]
    rfl
end

/-- Rotating support, moments and point rotates the value. -/
theorem C14_rotation_value (f : FieldExpr d) (Q : Mat d)
    (hQ : Q ∈ Matrix.orthogonalGroup (Fin d) ℝ) (x v : Vec d)
    (h : f.eval 0 x = .ok fun I => v (I 0)) :
    (f.rotate Q).eval 0 (Q *ᵥ x) = .ok fun I => (Q *ᵥ v) (I 0) :=
  rotate_eval0 ((Matrix.mem_orthogonalGroup_iff' (Fin d) ℝ).mp hQ) x f v h

/-- And conjugates the Jacobian. -/
theorem C14_rotation_jacobian (f : FieldExpr d) (Q : Mat d)
    (hQ : Q ∈ Matrix.orthogonalGroup (Fin d) ℝ) (x : Vec d) (J : Mat d)
    (h : f.eval 1 x = .ok fun I => J (I 0) (I 1)) :
    (f.rotate Q).eval 1 (Q *ᵥ x) = .ok fun I => (Q * J * Qᵀ) (I 0) (I 1) :=
  rotate_eval1 ((Matrix.mem_orthogonalGroup_iff' (Fin d) ℝ).mp hQ) x f J h

-- the quarter turn is orthogonal, so the hypotheses can be met
example : !![0, -1; 1, 0] ∈ Matrix.orthogonalGroup (Fin 2) ℝ := by
  rw [Matrix.mem_orthogonalGroup_iff']
  ext i j
  fin_cases i <;> fin_cases j <;> simp [Matrix.mul_apply, Fin.sum_univ_two, Matrix.star_eq_conjTranspose]

end
end Imodal
