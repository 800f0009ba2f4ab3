import Verif.Spec.Dilate
import Verif.Lemmas.ScaleMod
/-!
# Fields, pairings and dual fields in another unit of length
-/
set_option autoImplicit false
namespace Imodal
noncomputable section
open Matrix
variable {d : Nat} {s : ℝ}

/-! ## Kernels -/

theorem relDiff_dil (x y : Vec d) : relDiff (scR s x) (scR s y) = scR s (relDiff x y) := funext fun c => (mul_sub s _ _).symm
theorem sqDistance_dil (x y : Vec d) : sqDistance (scR s x) (scR s y) = s ^ 2 * sqDistance x y := by
  unfold sqDistance scR
  rw [Finset.mul_sum]
  exact Finset.sum_congr rfl fun c _ => by ring
theorem kXY_dil (hs : s ≠ 0) (σ : ℝ) (x y : Vec d) : kXY (s * σ) (scR s x) (scR s y) = kXY σ x y := by
  unfold kXY
  rw [sqDistance_dil, mul_pow, show -(1 / 2) * (s ^ 2 * sqDistance x y) = s ^ 2 * (-(1 / 2) * sqDistance x y) by ring,
    mul_div_mul_left _ _ (pow_ne_zero 2 hs)]
theorem kXX_dil {n : Nat} (hs : s ≠ 0) (σ : ℝ) (x : Fin n → Vec d) : kXX (s * σ) (fun i c => s * x i c) = kXX σ x := by
  funext i j; exact kXY_dil hs σ (x i) (x j)
theorem gauss0_dil (hs : s ≠ 0) (σ : ℝ) (x : Vec d) : gauss0 (s * σ) (scR s x) = gauss0 σ x := by
  unfold gauss0 scR
  have e : ∑ c, (s * x c) ^ 2 = s ^ 2 * ∑ c, x c ^ 2 := by
    rw [Finset.mul_sum]; exact Finset.sum_congr rfl fun c _ => by ring
  rw [e, show -(s ^ 2 * ∑ c, x c ^ 2) / 2 = s ^ 2 * (-(∑ c, x c ^ 2) / 2) by ring, show s * σ * (s * σ) = s ^ 2 * (σ * σ) by ring,
    mul_div_mul_left _ _ (pow_ne_zero 2 hs)]
theorem scale_one_div (hs : s ≠ 0) (σ : ℝ) : 1 / (s * σ) / (s * σ) = s⁻¹ * s⁻¹ * (1 / σ / σ) := by
  rw [div_div, div_div, one_div, one_div]
  rw [show s * σ * (s * σ) = (s * s) * (σ * σ) by ring, mul_inv, mul_inv]
theorem keopsGauss_dil (hs : s ≠ 0) (σ : ℝ) (x y : Vec d) : keopsGauss (s * σ) (scR s x) (scR s y) = keopsGauss σ x y := by
  unfold keopsGauss
  have e : ∑ c, (scR s x c - scR s y c) ^ 2 = s ^ 2 * ∑ c, (x c - y c) ^ 2 := sqDistance_dil x y
  rw [e, scale_one_div hs]
  congr 1
  have : s⁻¹ * s = 1 := inv_mul_cancel₀ hs
  linear_combination (-(1 / σ / σ) * (∑ c, (x c - y c) ^ 2) / 2) * (s⁻¹ * s + 1) * this
theorem keopsGauss0_dil (hs : s ≠ 0) (σ : ℝ) (x y : Vec d) : keopsGauss0 (s * σ) (scR s x) (scR s y) = keopsGauss0 σ x y := by
  unfold keopsGauss0
  have e : ∑ c, (scR s x c - scR s y c) ^ 2 = s ^ 2 * ∑ c, (x c - y c) ^ 2 := sqDistance_dil x y
  have e2 : (0.5 : ℝ) / (s * σ) / (s * σ) = s⁻¹ * s⁻¹ * (0.5 / σ / σ) := by
    have := scale_one_div hs σ
    rw [div_div] at this ⊢
    rw [div_div] at this ⊢
    rw [div_eq_mul_one_div, this]; ring
  rw [e, e2]
  congr 1
  have : s⁻¹ * s = 1 := inv_mul_cancel₀ hs
  linear_combination (-(0.5 / σ / σ) * (∑ c, (x c - y c) ^ 2)) * (s⁻¹ * s + 1) * this

theorem div_dil (hs : s ≠ 0) (σ y : ℝ) : y / (s * σ * (s * σ)) = (s⁻¹ * s⁻¹) * (y / (σ * σ)) := by
  rw [show s * σ * (s * σ) = (s * s) * (σ * σ) by ring, div_eq_mul_inv, mul_inv, mul_inv, div_eq_mul_inv]; ring

/-- The derivatives of order `k` of the kernel are divided by `s ^ k`. -/
theorem kerRows_dil {n : Nat} (hs : s ≠ 0) (σ : ℝ) (k : Nat) (rows : Fin n → Vec d) (e : PyErr) :
    kerRows (s * σ) k (fun j => scR s (rows j)) e = (kerRows σ k rows e).map fun ker j => scT (s⁻¹ ^ k) (ker j) := by
  unfold kerRows
  split_ifs with h3 h4
  · rfl
  · rfl
  · refine congrArg Except.ok (funext fun j => ?_)
    have h : k = 0 ∨ k = 1 ∨ k = 2 := by omega
    have hi : s⁻¹ * s = 1 := inv_mul_cancel₀ hs
    rcases h with rfl | rfl | rfl
    · funext I
      simp [gaussKernel, scT, gauss0_dil hs]
    · funext I
      simp only [gaussKernel, scT, gauss0_dil hs, div_dil hs]
      simp only [one_ne_zero, if_false, dite_true, dif_pos, scR, pow_one]
      linear_combination (s⁻¹ * (-gauss0 σ (rows j) * rows j (I ⟨0, by omega⟩) / (σ * σ))) * hi
    · funext I
      simp only [gaussKernel, scT, gauss0_dil hs, div_dil hs]
      simp only [OfNat.ofNat_ne_zero, if_false, dif_pos, scR, OfNat.ofNat_ne_one, dif_neg, not_false_iff]
      linear_combination (s⁻¹ ^ 2 * (gauss0 σ (rows j) * (rows j (I ⟨0, by omega⟩) * rows j (I ⟨1, by omega⟩) / (σ * σ)) / (σ * σ))) * (s⁻¹ * s + 1) * hi

theorem gaussRow1_dil (hs : s ≠ 0) (σ : ℝ) (x : Vec d) (c : Fin d) : gaussRow1 (s * σ) (scR s x) c = s⁻¹ * gaussRow1 σ x c := by
  have hi : s⁻¹ * s = 1 := inv_mul_cancel₀ hs
  simp only [gaussRow1, gaussKernel, one_ne_zero, if_false, dif_pos, gauss0_dil hs, div_dil hs, scR]
  linear_combination (s⁻¹ * (-gauss0 σ x * x c / (σ * σ))) * hi
theorem gaussRow2_dil (hs : s ≠ 0) (σ : ℝ) (x : Vec d) (b c : Fin d) : gaussRow2 (s * σ) (scR s x) b c = s⁻¹ ^ 2 * gaussRow2 σ x b c := by
  have hi : s⁻¹ * s = 1 := inv_mul_cancel₀ hs
  simp only [gaussRow2, gaussKernel, OfNat.ofNat_ne_zero, if_false, OfNat.ofNat_ne_one, dif_neg, not_false_iff, dif_pos, gauss0_dil hs, div_dil hs, scR]
  linear_combination (s⁻¹ ^ 2 * (gauss0 σ x * (x (![b, c] ⟨0, by omega⟩) * x (![b, c] ⟨1, by omega⟩) / (σ * σ)) / (σ * σ))) * (s⁻¹ * s + 1) * hi

/-! ## Fields -/

/-- In the new unit the values of the second field are `c` times those of the first at the same point. -/
def Dil (s c : ℝ) (f f' : FieldExpr d) : Prop := ∀ k x, f'.eval k (scR s x) = (f.eval k x).map (scT (c * s⁻¹ ^ k))

section
variable {n : Nat} {c : ℝ} (supp mom dir : Fin n → Vec d) (P : Fin n → Mat d) (h : Fin n → ℝ) (σ : ℝ)

theorem rel_supp (supp : Fin n → Vec d) (x : Vec d) : (fun j => relDiff (scR s x) (fun c => s * supp j c)) = fun j => scR s (relDiff x (supp j)) :=
  funext fun j => relDiff_dil x (supp j)
theorem supp_rel (supp : Fin n → Vec d) (x : Vec d) : (fun j => relDiff (fun c => s * supp j c) (scR s x)) = fun j => scR s (relDiff (supp j) x) :=
  funext fun j => relDiff_dil (supp j) x

theorem dil_f0 (hs : s ≠ 0) (r : Reduction) : Dil s c (.f0 r supp mom σ) (.f0 r (fun i b => s * supp i b) (fun i b => c * mom i b) (s * σ)) := fun k x => by
  cases r with
  | torch =>
    simp only [FieldExpr.eval]
    unfold field0Torch
    split_ifs with hk
    · subst hk
      refine congrArg Except.ok (funext fun I => ?_)
      simp only [scT, Finset.mul_sum, pow_zero, mul_one]
      refine Finset.sum_congr rfl fun j _ => ?_
      rw [show kXY (s * σ) (scR s x) (fun b => s * supp j b) = kXY σ x (supp j) from kXY_dil hs σ x (supp j)]; ring
    · rw [rel_supp, kerRows_dil hs]
      cases kerRows σ k (fun j => relDiff x (supp j)) .attribute with
      | error e => rfl
      | ok ker =>
        refine congrArg Except.ok (funext fun I => ?_)
        simp only [scT, Finset.mul_sum]
        exact Finset.sum_congr rfl fun _ _ => Finset.sum_congr rfl fun j _ => by ring
  | keops =>
    simp only [FieldExpr.eval]
    unfold field0Keops
    have hg : ∀ j, keopsGauss (s * σ) (scR s x) (fun b => s * supp j b) = keopsGauss σ x (supp j) := fun j => keopsGauss_dil hs σ x (supp j)
    have hi : s⁻¹ * s = 1 := inv_mul_cancel₀ hs
    split_ifs with hk hk
    · subst hk
      refine congrArg Except.ok (funext fun I => ?_)
      simp only [scT, Finset.mul_sum, pow_zero, mul_one, hg]
      exact Finset.sum_congr rfl fun j _ => by ring
    · subst hk
      refine congrArg Except.ok (funext fun I => ?_)
      simp only [scT, Finset.mul_sum, pow_one, hg, scale_one_div hs]
      refine Finset.sum_congr rfl fun j _ => ?_
      simp only [scR]
      linear_combination (c * s⁻¹ * ((-(1 / σ / σ) * keopsGauss σ x (supp j) * (x (I ⟨1, by omega⟩) - supp j (I ⟨1, by omega⟩))) * mom j (I 0))) * hi
    · rfl

theorem dil_f0u (hs : s ≠ 0) (r : Reduction) {mom' dir' : Fin n → Vec d} (hd : ∀ j b b', dir' j b * mom' j b' = c * s * (dir j b * mom j b')) :
    Dil s c (.f0u r supp mom dir σ) (.f0u r (fun i b => s * supp i b) mom' dir' (s * σ)) := fun k x => by
  simp only [FieldExpr.eval]
  unfold field0uTorch
  split_ifs with hk
  · subst hk
    rw [rel_supp, kerRows_dil hs]
    have hi : s⁻¹ * s = 1 := inv_mul_cancel₀ hs
    cases kerRows σ 1 (fun j => relDiff x (supp j)) .attribute with
    | error e => rfl
    | ok ker =>
      refine congrArg Except.ok (funext fun I => ?_)
      simp only [scT, Finset.mul_sum, Finset.sum_mul, pow_one, pow_zero, mul_one]
      refine Finset.sum_congr rfl fun j _ => Finset.sum_congr rfl fun b _ => ?_
      linear_combination (-(s⁻¹ * ker j fun _ => b)) * hd j b (I 0) + (-(ker j fun _ => b) * c * (dir j b * mom j (I 0))) * hi
  · rfl

theorem dil_pmTorch (hs : s ≠ 0) (k : Nat) (x : Vec d) {P' : Fin n → Mat d} (hP : ∀ j a b, P' j a b = c * s * P j a b) :
    fieldPmTorch (fun i b => s * supp i b) P' (s * σ) k (scR s x) = (fieldPmTorch supp P σ k x).map (scT (c * s⁻¹ ^ k)) := by
  unfold fieldPmTorch
  rw [rel_supp, kerRows_dil hs]
  have hi : s⁻¹ * s = 1 := inv_mul_cancel₀ hs
  cases kerRows σ (k + 1) (fun j => relDiff x (supp j)) .type with
  | error e => rfl
  | ok ker =>
    refine congrArg Except.ok (funext fun I => ?_)
    simp only [scT, Finset.mul_sum, hP]
    refine Finset.sum_congr rfl fun a _ => Finset.sum_congr rfl fun j _ => Finset.sum_congr rfl fun b _ => ?_
    linear_combination (c * s⁻¹ ^ k * (eye a (I 0) * -ker j (Fin.cons b (Fin.tail I)) * P j a b)) * hi

theorem dil_pmKeops (hs : s ≠ 0) (k : Nat) (x : Vec d) {P' : Fin n → Mat d} (hP : ∀ j a b, P' j a b = c * s * P j a b) :
    fieldPmKeops (fun i b => s * supp i b) P' (s * σ) k (scR s x) = (fieldPmKeops supp P σ k x).map (scT (c * s⁻¹ ^ k)) := by
  unfold fieldPmKeops
  have hg : ∀ j, keopsGauss (s * σ) (scR s x) (fun b => s * supp j b) = keopsGauss σ x (supp j) := fun j => keopsGauss_dil hs σ x (supp j)
  have hi : s⁻¹ * s = 1 := inv_mul_cancel₀ hs
  split_ifs with hk hk
  · subst hk
    refine congrArg Except.ok (funext fun I => ?_)
    simp only [scT, Finset.mul_sum, pow_zero, mul_one, hg, scale_one_div hs, hP]
    refine Finset.sum_congr rfl fun j _ => Finset.sum_congr rfl fun b _ => ?_
    simp only [scR]
    linear_combination (c * (((1 / σ / σ) * keopsGauss σ x (supp j) * (x b - supp j b)) * P j (I 0) b)) * (s⁻¹ * s + 1) * hi
  · subst hk
    refine congrArg Except.ok (funext fun I => ?_)
    simp only [scT, Finset.mul_sum, pow_one, hg, scale_one_div hs, hP]
    refine Finset.sum_congr rfl fun j _ => Finset.sum_congr rfl fun b _ => ?_
    simp only [scR]
    have e1 : s * x (I ⟨1, by omega⟩) - s * supp j (I ⟨1, by omega⟩) = s * (x (I ⟨1, by omega⟩) - supp j (I ⟨1, by omega⟩)) := by ring
    have e2 : s * x b - s * supp j b = s * (x b - supp j b) := by ring
    rw [e1, e2]
    have e3 : s⁻¹ * s⁻¹ * (1 / σ / σ) * (s * (x (I ⟨1, by omega⟩) - supp j (I ⟨1, by omega⟩)) * (s * (x b - supp j b)))
        = 1 / σ / σ * ((x (I ⟨1, by omega⟩) - supp j (I ⟨1, by omega⟩)) * (x b - supp j b)) := by
      linear_combination (1 / σ / σ * ((x (I ⟨1, by omega⟩) - supp j (I ⟨1, by omega⟩)) * (x b - supp j b))) * (s⁻¹ * s + 1) * hi
    rw [e3]
    linear_combination (c * s⁻¹ * (-(1 / σ / σ) * keopsGauss σ x (supp j) *
        ((1 / σ / σ) * ((x (I ⟨1, by omega⟩) - supp j (I ⟨1, by omega⟩)) * (x b - supp j b)) - eye (I ⟨1, by omega⟩) b)) * P j (I 0) b) * hi
  · rfl

theorem dil_fp (hs : s ≠ 0) (r : Reduction) {P' : Fin n → Mat d} (hP : ∀ j a b, P' j a b = c * s * P j a b) :
    Dil s c (.fp r supp P σ) (.fp r (fun i b => s * supp i b) P' (s * σ)) := fun k x => by
  have e : ∀ j a b, symPart (P' j) a b = c * s * symPart (P j) a b := fun j a b => by unfold symPart; rw [hP, hP]; ring
  cases r with
  | torch => simp only [FieldExpr.eval]; exact dil_pmTorch supp _ σ hs k x e
  | keops => simp only [FieldExpr.eval]; exact dil_pmKeops supp _ σ hs k x e
theorem dil_fm (hs : s ≠ 0) (r : Reduction) {P' : Fin n → Mat d} (hP : ∀ j a b, P' j a b = c * s * P j a b) :
    Dil s c (.fm r supp P σ) (.fm r (fun i b => s * supp i b) P' (s * σ)) := fun k x => by
  have e : ∀ j a b, skewPart (P' j) a b = c * s * skewPart (P j) a b := fun j a b => by unfold skewPart; rw [hP, hP]; ring
  cases r with
  | torch => simp only [FieldExpr.eval]; exact dil_pmTorch supp _ σ hs k x e
  | keops => simp only [FieldExpr.eval]; exact dil_pmKeops supp _ σ hs k x e

theorem dil_f1 (hs : s ≠ 0) (r : Reduction) {h' : Fin n → ℝ} (hh : ∀ j, h' j = c * s * h j) :
    Dil s c (.f1 r supp h σ) (.f1 r (fun i b => s * supp i b) h' (s * σ)) := fun k x => by
  cases r with
  | keops => simp only [FieldExpr.eval]; rfl
  | torch =>
    simp only [FieldExpr.eval]
    unfold field1Torch
    have hi : s⁻¹ * s = 1 := inv_mul_cancel₀ hs
    split_ifs with hk
    · subst hk
      rw [supp_rel, kerRows_dil hs]
      cases kerRows σ (0 + 1) (fun j => relDiff (supp j) x) .attribute with
      | error e => rfl
      | ok ker =>
        refine congrArg Except.ok (funext fun I => ?_)
        simp only [scT, Finset.mul_sum, hh]
        refine Finset.sum_congr rfl fun j _ => ?_
        linear_combination (c * (ker j (fun _ => I 0) * h j)) * hi
    · rw [supp_rel, kerRows_dil hs]
      cases kerRows σ (k + 1) (fun j => relDiff (supp j) x) .type with
      | error e => rfl
      | ok ker =>
        refine congrArg Except.ok (funext fun I => ?_)
        simp only [scT, Finset.mul_sum, hh]
        refine Finset.sum_congr rfl fun j _ => ?_
        linear_combination (c * s⁻¹ ^ k * ((-1) ^ k * ker j I * h j)) * hi
end

theorem dil_affine (hs : s ≠ 0) (A : Mat d) (x0 u : Vec d) : Dil s s (.affine A x0 u) (.affine A (fun b => s * x0 b) fun b => s * u b) := fun k x => by
  simp only [FieldExpr.eval]
  refine congrArg Except.ok (funext fun I => ?_)
  unfold fieldAffine scT
  split_ifs with hk hk
  · subst hk
    rw [pow_zero, mul_one, mul_add, Finset.mul_sum]
    exact congrArg (· + _) (Finset.sum_congr rfl fun b _ => by unfold scR; ring)
  · subst hk
    rw [pow_one, mul_inv_cancel₀ hs, one_mul]
  · ring
theorem dil_const {c : ℝ} (m : Vec d) : Dil s c (.const m) (.const fun b => c * m b) := fun k x => by
  simp only [FieldExpr.eval]
  refine congrArg Except.ok (funext fun I => ?_)
  unfold fieldConst scT
  split_ifs with hk
  · subst hk; ring
  · ring
theorem dil_null {c : ℝ} : Dil s c (.null : FieldExpr d) .null := fun k x => by
  simp only [FieldExpr.eval]
  exact congrArg Except.ok (funext fun I => (mul_zero _).symm)
theorem dil_sum {c : ℝ} {fs fs' : List (FieldExpr d)} (h : List.Forall₂ (Dil s c) fs fs') : Dil s c (.sum fs) (.sum fs') := fun k x => by
  rw [FieldExpr.eval, FieldExpr.eval]
  induction h with
  | nil => rw [FieldExpr.evalSum, FieldExpr.evalSum]; exact congrArg Except.ok (funext fun I => (mul_zero _).symm)
  | @cons f f' fs fs' h1 h2 ih =>
    rw [FieldExpr.evalSum, FieldExpr.evalSum, h1 k x, ih]
    cases f.eval k x with
    | error e => rfl
    | ok t =>
      cases FieldExpr.evalSum k fs x with
      | error e => rfl
      | ok ts => exact congrArg Except.ok (funext fun I => (mul_add _ _ _).symm)

/-- Both raise the same exception, or both return fields that agree up to the unit. -/
def DilPy (s c : ℝ) (r r' : Py (FieldExpr d)) : Prop := (∃ e, r = .error e ∧ r' = .error e) ∨ ∃ f f', r = .ok f ∧ r' = .ok f' ∧ Dil s c f f'
def DilAll (s c : ℝ) (r r' : Py (List (FieldExpr d))) : Prop :=
  (∃ e, r = .error e ∧ r' = .error e) ∨ ∃ fs fs', r = .ok fs ∧ r' = .ok fs' ∧ List.Forall₂ (Dil s c) fs fs'
theorem dilPy_mkSum {c : ℝ} {fs fs' : List (FieldExpr d)} (h : List.Forall₂ (Dil s c) fs fs') : DilPy s c (mkSumField fs) (mkSumField fs') := by
  cases h with
  | nil => exact .inl ⟨_, rfl, rfl⟩
  | cons h1 h2 => exact .inr ⟨_, _, rfl, rfl, dil_sum (.cons h1 h2)⟩

section
variable {n : Nat} {c : ℝ} {f f' : FieldExpr d}
theorem Dil.batch (h : Dil s c f f') (k : Nat) (pts : Fin n → Vec d) :
    f'.batch k (fun i b => s * pts i b) = (f.batch k pts).map fun t i => scT (c * s⁻¹ ^ k) (t i) := by
  unfold FieldExpr.batch
  have h0 := h k fun _ => 0
  rw [show scR s (fun _ : Fin d => (0 : ℝ)) = fun _ => 0 from funext fun _ => mul_zero s] at h0
  rw [h0]
  cases f.eval k (fun _ => 0) with
  | error e => rfl
  | ok t =>
    refine congrArg Except.ok (funext fun i => ?_)
    dsimp only
    have hi := h k (pts i)
    unfold scR at hi
    rw [hi]
    cases f.eval k (pts i) with
    | error e => exact funext fun I => (mul_zero _).symm
    | ok t => rfl
theorem Dil.values (h : Dil s c f f') (pts : Fin n → Vec d) : f'.values (fun i b => s * pts i b) = (f.values pts).map (scV c) := by
  unfold FieldExpr.values
  rw [h.batch]
  cases f.batch 0 pts with
  | error e => rfl
  | ok t =>
    refine congrArg Except.ok (funext fun i => funext fun b => ?_)
    simp only [scT, scV, pow_zero, mul_one]
theorem Dil.jacobians (h : Dil s c f f') (pts : Fin n → Vec d) : f'.jacobians (fun i b => s * pts i b) = (f.jacobians pts).map (scM (c * s⁻¹)) := by
  unfold FieldExpr.jacobians
  rw [h.batch]
  cases f.batch 1 pts with
  | error e => rfl
  | ok t =>
    refine congrArg Except.ok (funext fun i => funext fun b => funext fun b' => ?_)
    simp only [scT, scM, pow_one]
end

/-! ## Manifolds -/

mutual
/-- Velocities of positions times `s`; those of directions and frames stay. -/
def Tan.dilate (s : ℝ) : Tan d → Tan d
  | .landmarks v => .landmarks (scV s v)
  | .direction v w => .direction (scV s v) w
  | .frame v W => .frame (scV s v) W
  | .empty => .empty
  | .compound ts => .compound (Tan.dilateAll s ts)
def Tan.dilateAll (s : ℝ) : List (Tan d) → List (Tan d)
  | [] => []
  | t :: ts => t.dilate s :: Tan.dilateAll s ts
end

section
variable {c : ℝ} {f f' : FieldExpr d}
theorem actDirection_dil (h : Dil s c f f') (t : Transport) {n : Nat} (gd dir : Fin n → Vec d) :
    actDirection t (fun i b => s * gd i b) dir f' = (actDirection t gd dir f).map fun vw => (scV c vw.1, scV (c * s⁻¹) vw.2) := by
  unfold actDirection
  rw [h.values, h.jacobians]
  cases f.values gd with
  | error e => rfl
  | ok v =>
    cases f.jacobians gd with
    | error e => rfl
    | ok J =>
      cases t with
      | vector =>
        refine congrArg Except.ok (Prod.ext rfl (funext fun i => funext fun b => ?_))
        simp only [scV, scM, Finset.mul_sum, mul_assoc]
      | orthogonal =>
        refine congrArg Except.ok (Prod.ext rfl (funext fun i => funext fun b => ?_))
        simp only [scV, scM, Finset.mul_sum, mul_assoc, mul_neg]
theorem actFrame_dil (h : Dil s c f f') {n : Nat} (gd : Fin n → Vec d) (R : Fin n → Mat d) :
    actFrame (fun i b => s * gd i b) R f' = (actFrame gd R f).map fun vw => (scV c vw.1, scM (c * s⁻¹) vw.2) := by
  unfold actFrame
  rw [h.values, h.jacobians]
  cases f.values gd with
  | error e => rfl
  | ok v =>
    cases f.jacobians gd with
    | error e => rfl
    | ok J =>
      refine congrArg Except.ok (Prod.ext rfl (funext fun i => funext fun b => funext fun k => ?_))
      simp only [scM, Finset.mul_sum]
      exact Finset.sum_congr rfl fun c _ => by ring
end

theorem scV_one {n : Nat} (v : Fin n → Vec d) : scV 1 v = v := by funext i b; exact one_mul _
theorem scM_one {n : Nat} (v : Fin n → Mat d) : scM 1 v = v := by funext i b c; exact one_mul _

mutual
theorem action_dil (hs : s ≠ 0) {f f' : FieldExpr d} (h : Dil s s f f') : (M : Mfd d) → (M.dilate s).action f' = (M.action f).map (Tan.dilate s)
  | .landmarks gd cot => by
    rw [Mfd.dilate, Mfd.action, Mfd.action, actLandmarks, actLandmarks, h.values]
    cases f.values gd with
    | error e => rfl
    | ok v => simp only [Except.map, Tan.dilate]
  | .direction t gd dir cot cdir => by
    rw [Mfd.dilate]; simp only [Mfd.action]; rw [actDirection_dil h, mul_inv_cancel₀ hs]
    cases actDirection t gd dir f with
    | error e => rfl
    | ok v => simp only [Except.map, Tan.dilate, scV_one]
  | .frame gd R cot cR => by
    rw [Mfd.dilate]; simp only [Mfd.action]; rw [actFrame_dil h, mul_inv_cancel₀ hs]
    cases actFrame gd R f with
    | error e => rfl
    | ok v => simp only [Except.map, Tan.dilate, scM_one]
  | .empty => by rw [Mfd.dilate]; simp only [Mfd.action, Except.map, Tan.dilate]
  | .compound ms => by
    rw [Mfd.dilate, Mfd.action, Mfd.action, actionAll_dil hs h ms]
    cases Mfd.actionAll f ms with
    | error e => rfl
    | ok v => simp only [Except.map, Tan.dilate]
theorem actionAll_dil (hs : s ≠ 0) {f f' : FieldExpr d} (h : Dil s s f f') : (ms : List (Mfd d)) →
    Mfd.actionAll f' (Mfd.dilateAll s ms) = (Mfd.actionAll f ms).map (Tan.dilateAll s)
  | [] => by rw [Mfd.dilateAll, Mfd.actionAll, Mfd.actionAll]; simp only [Except.map, Tan.dilateAll]
  | m :: ms => by
    rw [Mfd.dilateAll, Mfd.actionAll, Mfd.actionAll, action_dil hs h m, actionAll_dil hs h ms]
    cases Mfd.action f m with
    | error e => rfl
    | ok v =>
      cases Mfd.actionAll f ms with
      | error e => rfl
      | ok vs => simp only [Except.map, Tan.dilateAll]
end

theorem dotFlat_mul {n : Nat} (a b : ℝ) (u v : Fin n → Vec d) : dotFlat (fun i c => a * u i c) (scV b v) = a * b * dotFlat u v := by
  rw [dotFlat_scale_left, dotFlat_scale_right, mul_assoc]

mutual
theorem innerProd_dil (hs : s ≠ 0) {c : ℝ} {f f' : FieldExpr d} (h : Dil s c f f') : (M : Mfd d) → (M.dilate s).innerProd f' = (M.innerProd f).map (s * c * ·)
  | .landmarks gd cot => by
    rw [Mfd.dilate, Mfd.innerProd, Mfd.innerProd, actLandmarks, actLandmarks, h.values]
    cases f.values gd with
    | error e => rfl
    | ok v => simp only [Except.map, dotFlat_mul]
  | .direction t gd dir cot cdir => by
    rw [Mfd.dilate]; simp only [Mfd.innerProd]; rw [actDirection_dil h]
    cases actDirection t gd dir f with
    | error e => rfl
    | ok v =>
      simp only [Except.map, dotFlat_mul, mul_add]
      have hi : s⁻¹ * s = 1 := inv_mul_cancel₀ hs
      refine congrArg Except.ok ?_
      linear_combination (s * c * dotFlat cdir v.2) * hi
  | .frame gd R cot cR => by
    rw [Mfd.dilate]; simp only [Mfd.innerProd]; rw [actFrame_dil h]
    cases actFrame gd R f with
    | error e => rfl
    | ok v =>
      simp only [Except.map, dotFlat_mul, mul_add]
      have hi : s⁻¹ * s = 1 := inv_mul_cancel₀ hs
      refine congrArg Except.ok (congrArg₂ (· + ·) rfl ?_)
      simp only [Finset.mul_sum, scM]
      refine Finset.sum_congr rfl fun i _ => Finset.sum_congr rfl fun b _ => Finset.sum_congr rfl fun b' _ => ?_
      linear_combination (s * c * (cR i b b' * v.2 i b b')) * hi
  | .empty => by rw [Mfd.dilate]; simp [Mfd.innerProd, Except.map]
  | .compound ms => by rw [Mfd.dilate, Mfd.innerProd, Mfd.innerProd, innerProdAll_dil hs h ms]
theorem innerProdAll_dil (hs : s ≠ 0) {c : ℝ} {f f' : FieldExpr d} (h : Dil s c f f') : (ms : List (Mfd d)) →
    Mfd.innerProdAll f' (Mfd.dilateAll s ms) = (Mfd.innerProdAll f ms).map (s * c * ·)
  | [] => by rw [Mfd.dilateAll]; simp [Mfd.innerProdAll, Except.map]
  | m :: ms => by
    rw [Mfd.dilateAll, Mfd.innerProdAll, Mfd.innerProdAll, innerProd_dil hs h m, innerProdAll_dil hs h ms]
    cases Mfd.innerProd f m with
    | error e => rfl
    | ok v =>
      cases Mfd.innerProdAll f ms with
      | error e => rfl
      | ok vs => simp only [Except.map, mul_add]
end

mutual
theorem cotToVs_dil (hs : s ≠ 0) (σ : ℝ) (r : Reduction) : (M : Mfd d) → DilPy s s (M.cotToVs σ r) ((M.dilate s).cotToVs (s * σ) r)
  | .landmarks gd cot => by
    rw [Mfd.dilate]; simp only [Mfd.cotToVs]
    exact .inr ⟨_, _, rfl, rfl, dil_f0 gd cot σ hs r⟩
  | .direction .vector gd dir cot cdir => by
    rw [Mfd.dilate]; simp only [Mfd.cotToVs]
    exact dilPy_mkSum (.cons (dil_f0 gd cot σ hs r) (.cons (dil_f0u gd cdir dir σ hs r fun j b b' => by ring) .nil))
  | .direction .orthogonal gd dir cot cdir => by
    rw [Mfd.dilate]; simp only [Mfd.cotToVs]
    exact dilPy_mkSum (.cons (dil_f0 gd cot σ hs r) (.cons (dil_f0u gd _ cdir σ hs r fun j b b' => by ring) .nil))
  | .frame gd R cot cR => by
    rw [Mfd.dilate]; simp only [Mfd.cotToVs]
    refine dilPy_mkSum (.cons (dil_f0 gd cot σ hs r) (.cons (dil_fm gd _ σ hs r fun j a b => ?_) .nil))
    simp only [Finset.mul_sum]
    exact Finset.sum_congr rfl fun k _ => by ring
  | .empty => by
    rw [Mfd.dilate, Mfd.cotToVs, Mfd.cotToVs]
    exact .inr ⟨_, _, rfl, rfl, dil_null⟩
  | .compound ms => by
    rw [Mfd.dilate]; simp only [Mfd.cotToVs]
    rcases cotToVsAll_dil hs σ r ms with ⟨e, h1, h2⟩ | ⟨fs, fs', h1, h2, h3⟩
    · rw [h1, h2]; exact .inl ⟨_, rfl, rfl⟩
    · rw [h1, h2]; exact dilPy_mkSum h3
theorem cotToVsAll_dil (hs : s ≠ 0) (σ : ℝ) (r : Reduction) : (ms : List (Mfd d)) →
    DilAll s s (Mfd.cotToVsAll σ r ms) (Mfd.cotToVsAll (s * σ) r (Mfd.dilateAll s ms))
  | [] => by rw [Mfd.dilateAll, Mfd.cotToVsAll, Mfd.cotToVsAll]; exact .inr ⟨_, _, rfl, rfl, .nil⟩
  | m :: ms => by
    rw [Mfd.dilateAll, Mfd.cotToVsAll, Mfd.cotToVsAll]
    rcases cotToVs_dil hs σ r m with ⟨e, h1, h2⟩ | ⟨f, f', h1, h2, h3⟩
    · rw [h1, h2]; exact .inl ⟨_, rfl, rfl⟩
    · rw [h1, h2]
      rcases cotToVsAll_dil hs σ r ms with ⟨e, g1, g2⟩ | ⟨fs, fs', g1, g2, g3⟩
      · rw [g1, g2]; exact .inl ⟨_, rfl, rfl⟩
      · rw [g1, g2]; exact .inr ⟨_, _, rfl, rfl, .cons h3 g3⟩
end

end
end Imodal
