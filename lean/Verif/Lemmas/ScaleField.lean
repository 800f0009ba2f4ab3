import Verif.Spec.Scale
import Verif.Lemmas.RigidModules
/-!
# Scaling fields, pairings and dual fields
-/
set_option autoImplicit false
namespace Imodal
noncomputable section
open Matrix
variable {d : Nat} (a : ℝ)

mutual
/-- The field with its coefficients multiplied. -/
def FieldExpr.scale (a : ℝ) : FieldExpr d → FieldExpr d
  | .f0 r supp mom σ => .f0 r supp (fun i c => a * mom i c) σ
  | .f0u r supp mom dir σ => .f0u r supp (fun i c => a * mom i c) dir σ
  | .fp r supp mom σ => .fp r supp (fun i b c => a * mom i b c) σ
  | .fm r supp mom σ => .fm r supp (fun i b c => a * mom i b c) σ
  | .f1 r supp mom σ => .f1 r supp (fun i => a * mom i) σ
  | .affine A x0 u => .affine (fun b c => a * A b c) x0 (fun c => a * u c)
  | .const m => .const fun c => a * m c
  | .null => .null
  | .sum fs => .sum (FieldExpr.scaleAll a fs)
def FieldExpr.scaleAll (a : ℝ) : List (FieldExpr d) → List (FieldExpr d)
  | [] => []
  | f :: fs => f.scale a :: FieldExpr.scaleAll a fs
end

/-- A result multiplied by `a`. -/
def scT {k : Nat} (t : Tens d k) : Tens d k := fun I => a * t I

section
variable {n : Nat} (supp mom dir : Fin n → Vec d) (P : Fin n → Mat d) (h : Fin n → ℝ) (σ : ℝ) (k : Nat) (x : Vec d)

theorem field0Torch_scale : field0Torch supp (fun i c => a * mom i c) σ k x = (field0Torch supp mom σ k x).map (scT a) := by
  unfold field0Torch
  split_ifs
  · refine congrArg Except.ok (funext fun I => ?_)
    simp only [scT, Finset.mul_sum]
    exact Finset.sum_congr rfl fun j _ => by ring
  · cases kerRows σ k (fun j => relDiff x (supp j)) .attribute with
    | error e => rfl
    | ok ker =>
      refine congrArg Except.ok (funext fun I => ?_)
      simp only [scT, Finset.mul_sum]
      exact Finset.sum_congr rfl fun _ _ => Finset.sum_congr rfl fun j _ => by ring

theorem field0Keops_scale : field0Keops supp (fun i c => a * mom i c) σ k x = (field0Keops supp mom σ k x).map (scT a) := by
  unfold field0Keops
  split_ifs
  · refine congrArg Except.ok (funext fun I => ?_)
    simp only [scT, Finset.mul_sum]
    exact Finset.sum_congr rfl fun j _ => by ring
  · refine congrArg Except.ok (funext fun I => ?_)
    simp only [scT, Finset.mul_sum]
    exact Finset.sum_congr rfl fun j _ => by ring
  · rfl

theorem field0uTorch_scale : field0uTorch supp (fun i c => a * mom i c) dir σ k x = (field0uTorch supp mom dir σ k x).map (scT a) := by
  unfold field0uTorch
  split_ifs
  · cases kerRows σ 1 (fun j => relDiff x (supp j)) .attribute with
    | error e => rfl
    | ok ker =>
      refine congrArg Except.ok (funext fun I => ?_)
      simp only [scT, Finset.mul_sum]
      exact Finset.sum_congr rfl fun _ _ => by ring
  · rfl

theorem fieldPmTorch_scale : fieldPmTorch supp (fun i b c => a * P i b c) σ k x = (fieldPmTorch supp P σ k x).map (scT a) := by
  unfold fieldPmTorch
  cases kerRows σ (k + 1) (fun j => relDiff x (supp j)) .type with
  | error e => rfl
  | ok ker =>
    refine congrArg Except.ok (funext fun I => ?_)
    simp only [scT, Finset.mul_sum]
    exact Finset.sum_congr rfl fun _ _ => Finset.sum_congr rfl fun j _ => Finset.sum_congr rfl fun _ _ => by ring

theorem fieldPmKeops_scale : fieldPmKeops supp (fun i b c => a * P i b c) σ k x = (fieldPmKeops supp P σ k x).map (scT a) := by
  unfold fieldPmKeops
  split_ifs
  · refine congrArg Except.ok (funext fun I => ?_)
    simp only [scT, Finset.mul_sum]
    exact Finset.sum_congr rfl fun j _ => Finset.sum_congr rfl fun _ _ => by ring
  · refine congrArg Except.ok (funext fun I => ?_)
    simp only [scT, Finset.mul_sum]
    exact Finset.sum_congr rfl fun j _ => Finset.sum_congr rfl fun _ _ => by ring
  · rfl

theorem field1Torch_scale : field1Torch supp (fun i => a * h i) σ k x = (field1Torch supp h σ k x).map (scT a) := by
  unfold field1Torch
  split_ifs
  · cases kerRows σ (0 + 1) (fun j => relDiff (supp j) x) .attribute with
    | error e => rfl
    | ok ker =>
      refine congrArg Except.ok (funext fun I => ?_)
      simp only [scT, Finset.mul_sum]
      exact Finset.sum_congr rfl fun _ _ => by ring
  · cases kerRows σ (k + 1) (fun j => relDiff (supp j) x) .type with
    | error e => rfl
    | ok ker =>
      refine congrArg Except.ok (funext fun I => ?_)
      simp only [scT, Finset.mul_sum]
      exact Finset.sum_congr rfl fun _ _ => by ring

theorem symPart_scale (M : Mat d) : symPart (fun b c => a * M b c) = fun b c => a * symPart M b c := by
  funext b c; unfold symPart; ring
theorem skewPart_scale (M : Mat d) : skewPart (fun b c => a * M b c) = fun b c => a * skewPart M b c := by
  funext b c; unfold skewPart; ring
end

mutual
theorem eval_scale (k : Nat) (x : Vec d) : (f : FieldExpr d) → (f.scale a).eval k x = (f.eval k x).map (scT a)
  | .f0 .torch supp mom σ => by rw [FieldExpr.scale]; simp only [FieldExpr.eval]; exact field0Torch_scale ..
  | .f0 .keops supp mom σ => by rw [FieldExpr.scale]; simp only [FieldExpr.eval]; exact field0Keops_scale ..
  | .f0u _ supp mom dir σ => by rw [FieldExpr.scale]; simp only [FieldExpr.eval]; exact field0uTorch_scale ..
  | .fp .torch supp mom σ => by
    rw [FieldExpr.scale]; simp only [FieldExpr.eval]
    simp only [symPart_scale]
    exact fieldPmTorch_scale a supp (fun j => symPart (mom j)) σ k x
  | .fp .keops supp mom σ => by
    rw [FieldExpr.scale]; simp only [FieldExpr.eval]
    simp only [symPart_scale]
    exact fieldPmKeops_scale a supp (fun j => symPart (mom j)) σ k x
  | .fm .torch supp mom σ => by
    rw [FieldExpr.scale]; simp only [FieldExpr.eval]
    simp only [skewPart_scale]
    exact fieldPmTorch_scale a supp (fun j => skewPart (mom j)) σ k x
  | .fm .keops supp mom σ => by
    rw [FieldExpr.scale]; simp only [FieldExpr.eval]
    simp only [skewPart_scale]
    exact fieldPmKeops_scale a supp (fun j => skewPart (mom j)) σ k x
  | .f1 .torch supp mom σ => by rw [FieldExpr.scale]; simp only [FieldExpr.eval]; exact field1Torch_scale ..
  | .f1 .keops supp mom σ => by rw [FieldExpr.scale]; simp only [FieldExpr.eval]; rfl
  | .affine A x0 u => by
    rw [FieldExpr.scale]; simp only [FieldExpr.eval]
    refine congrArg Except.ok (funext fun I => ?_)
    unfold fieldAffine scT
    split_ifs
    · rw [mul_add, Finset.mul_sum]
      exact congrArg (· + _) (Finset.sum_congr rfl fun _ _ => by ring)
    · rfl
    · ring
  | .const m => by
    rw [FieldExpr.scale]; simp only [FieldExpr.eval]
    refine congrArg Except.ok (funext fun I => ?_)
    unfold fieldConst scT
    split_ifs
    · rfl
    · ring
  | .null => by
    rw [FieldExpr.scale]; simp only [FieldExpr.eval]
    exact congrArg Except.ok (funext fun I => (mul_zero a).symm)
  | .sum fs => by rw [FieldExpr.scale]; simp only [FieldExpr.eval]; exact evalSum_scale k x fs
theorem evalSum_scale (k : Nat) (x : Vec d) : (fs : List (FieldExpr d)) →
    FieldExpr.evalSum k (FieldExpr.scaleAll a fs) x = (FieldExpr.evalSum k fs x).map (scT a)
  | [] => by
    rw [FieldExpr.scaleAll, FieldExpr.evalSum]
    exact congrArg Except.ok (funext fun I => (mul_zero a).symm)
  | f :: fs => by
    rw [FieldExpr.scaleAll, FieldExpr.evalSum, FieldExpr.evalSum, eval_scale k x f, evalSum_scale k x fs]
    cases f.eval k x with
    | error e => rfl
    | ok t =>
      cases FieldExpr.evalSum k fs x with
      | error e => rfl
      | ok ts => exact congrArg Except.ok (funext fun I => (mul_add a _ _).symm)
end

theorem scaleAll_map : (fs : List (FieldExpr d)) → FieldExpr.scaleAll a fs = fs.map (FieldExpr.scale a)
  | [] => by rw [FieldExpr.scaleAll]; rfl
  | f :: fs => by rw [FieldExpr.scaleAll, scaleAll_map fs]; rfl
theorem mkSumField_scale (fs : List (FieldExpr d)) : mkSumField (fs.map (FieldExpr.scale a)) = (mkSumField fs).map (FieldExpr.scale a) := by
  cases fs with
  | nil => rfl
  | cons f fs => simp only [mkSumField, List.map_cons, Except.map, FieldExpr.scale, FieldExpr.scaleAll, scaleAll_map]

section
variable {n : Nat}
/-- Arrays of vectors and matrices multiplied by `a`. -/
def scV (v : Fin n → Vec d) : Fin n → Vec d := fun i c => a * v i c
def scM (v : Fin n → Mat d) : Fin n → Mat d := fun i b c => a * v i b c

/-- Every value of the second field is `a` times that of the first. -/
def Scaled (f f' : FieldExpr d) : Prop := ∀ k x, f'.eval k x = (f.eval k x).map (scT a)
theorem scaled_scale (f : FieldExpr d) : Scaled a f (f.scale a) := fun k x => eval_scale a k x f

variable {a}
theorem Scaled.batch {f f' : FieldExpr d} (h : Scaled a f f') (k : Nat) (pts : Fin n → Vec d) : f'.batch k pts = (f.batch k pts).map fun t i => scT a (t i) := by
  unfold FieldExpr.batch
  simp only [h k _]
  cases f.eval k (fun _ => 0) with
  | error e => rfl
  | ok t =>
    refine congrArg Except.ok (funext fun i => ?_)
    dsimp only
    cases f.eval k (pts i) with
    | error e => exact funext fun I => (mul_zero a).symm
    | ok t => rfl
theorem Scaled.values {f f' : FieldExpr d} (h : Scaled a f f') (pts : Fin n → Vec d) : f'.values pts = (f.values pts).map (scV a) := by
  unfold FieldExpr.values
  rw [h.batch]
  cases f.batch 0 pts <;> rfl
theorem Scaled.jacobians {f f' : FieldExpr d} (h : Scaled a f f') (pts : Fin n → Vec d) : f'.jacobians pts = (f.jacobians pts).map (scM a) := by
  unfold FieldExpr.jacobians
  rw [h.batch]
  cases f.batch 1 pts <;> rfl
variable (a)
theorem values_scale (f : FieldExpr d) (pts : Fin n → Vec d) : (f.scale a).values pts = (f.values pts).map (scV a) := (scaled_scale a f).values pts
theorem jacobians_scale (f : FieldExpr d) (pts : Fin n → Vec d) : (f.scale a).jacobians pts = (f.jacobians pts).map (scM a) := (scaled_scale a f).jacobians pts
end

/-! ## Manifolds -/

mutual
/-- Velocities multiplied. -/
def Tan.scale (a : ℝ) : Tan d → Tan d
  | .landmarks v => .landmarks (scV a v)
  | .direction v w => .direction (scV a v) (scV a w)
  | .frame v W => .frame (scV a v) (scM a W)
  | .empty => .empty
  | .compound ts => .compound (Tan.scaleAll a ts)
def Tan.scaleAll (a : ℝ) : List (Tan d) → List (Tan d)
  | [] => []
  | t :: ts => t.scale a :: Tan.scaleAll a ts
end

theorem actDirection_scale (t : Transport) {n : Nat} (gd dir : Fin n → Vec d) (f : FieldExpr d) :
    actDirection t gd dir (f.scale a) = (actDirection t gd dir f).map fun vw => (scV a vw.1, scV a vw.2) := by
  unfold actDirection
  rw [values_scale, jacobians_scale]
  cases f.values gd with
  | error e => rfl
  | ok v =>
    cases f.jacobians gd with
    | error e => rfl
    | ok J =>
      cases t with
      | vector =>
        refine congrArg Except.ok (Prod.ext rfl (funext fun i => funext fun b => ?_))
        simp only [scV, scM, Finset.mul_sum, mul_assoc]
      | orthogonal =>
        refine congrArg Except.ok (Prod.ext rfl (funext fun i => funext fun b => ?_))
        simp only [scV, scM, Finset.mul_sum, mul_assoc, mul_neg]

theorem actFrame_scale {n : Nat} (gd : Fin n → Vec d) (R : Fin n → Mat d) (f : FieldExpr d) :
    actFrame gd R (f.scale a) = (actFrame gd R f).map fun vw => (scV a vw.1, scM a vw.2) := by
  unfold actFrame
  rw [values_scale, jacobians_scale]
  cases f.values gd with
  | error e => rfl
  | ok v =>
    cases f.jacobians gd with
    | error e => rfl
    | ok J =>
      refine congrArg Except.ok (Prod.ext rfl (funext fun i => funext fun b => funext fun k => ?_))
      simp only [scM, Finset.mul_sum]
      exact Finset.sum_congr rfl fun c _ => by ring

mutual
theorem action_scale (f : FieldExpr d) : (M : Mfd d) → (M.scale a).action (f.scale a) = (M.action f).map (Tan.scale a)
  | .landmarks gd cot => by
    rw [Mfd.scale, Mfd.action, Mfd.action, actLandmarks, actLandmarks, values_scale]
    cases f.values gd with
    | error e => rfl
    | ok v => simp only [Except.map, Tan.scale]
  | .direction t gd dir cot cdir => by
    rw [Mfd.scale]; simp only [Mfd.action]; rw [actDirection_scale]
    cases actDirection t gd dir f with
    | error e => rfl
    | ok v => simp only [Except.map, Tan.scale]
  | .frame gd R cot cR => by
    rw [Mfd.scale]; simp only [Mfd.action]; rw [actFrame_scale]
    cases actFrame gd R f with
    | error e => rfl
    | ok v => simp only [Except.map, Tan.scale]
  | .empty => by rw [Mfd.scale]; simp only [Mfd.action, Except.map, Tan.scale]
  | .compound ms => by
    rw [Mfd.scale, Mfd.action, Mfd.action, actionAll_scale f ms]
    cases Mfd.actionAll f ms with
    | error e => rfl
    | ok v => simp only [Except.map, Tan.scale]
theorem actionAll_scale (f : FieldExpr d) : (ms : List (Mfd d)) →
    Mfd.actionAll (f.scale a) (Mfd.scaleAll a ms) = (Mfd.actionAll f ms).map (Tan.scaleAll a)
  | [] => by rw [Mfd.scaleAll, Mfd.actionAll, Mfd.actionAll]; simp only [Except.map, Tan.scaleAll]
  | m :: ms => by
    rw [Mfd.scaleAll, Mfd.actionAll, Mfd.actionAll, action_scale f m, actionAll_scale f ms]
    cases Mfd.action f m with
    | error e => rfl
    | ok v =>
      cases Mfd.actionAll f ms with
      | error e => rfl
      | ok vs => simp only [Except.map, Tan.scaleAll]
end

theorem dotFlat_scale_left {n : Nat} (u v : Fin n → Vec d) : dotFlat (fun i c => a * u i c) v = a * dotFlat u v := by
  unfold dotFlat; simp only [Finset.mul_sum, mul_assoc]
theorem dotFlat_scale_right {n : Nat} (u v : Fin n → Vec d) : dotFlat u (scV a v) = a * dotFlat u v := by
  unfold dotFlat scV; simp only [Finset.mul_sum]
  exact Finset.sum_congr rfl fun _ _ => Finset.sum_congr rfl fun _ _ => by ring

mutual
/-- Both the momenta and the field multiplied. -/
theorem innerProd_scale (f : FieldExpr d) : (M : Mfd d) → (M.scale a).innerProd (f.scale a) = (M.innerProd f).map (a ^ 2 * ·)
  | .landmarks gd cot => by
    rw [Mfd.scale, Mfd.innerProd, Mfd.innerProd, actLandmarks, actLandmarks, values_scale]
    cases f.values gd with
    | error e => rfl
    | ok v => simp only [Except.map, dotFlat_scale_left, dotFlat_scale_right, sq, mul_assoc]
  | .direction t gd dir cot cdir => by
    rw [Mfd.scale]; simp only [Mfd.innerProd]; rw [actDirection_scale]
    cases actDirection t gd dir f with
    | error e => rfl
    | ok v => simp only [Except.map, dotFlat_scale_left, dotFlat_scale_right, sq, mul_assoc, mul_add]
  | .frame gd R cot cR => by
    rw [Mfd.scale]; simp only [Mfd.innerProd]; rw [actFrame_scale]
    cases actFrame gd R f with
    | error e => rfl
    | ok v =>
      simp only [Except.map, dotFlat_scale_left, dotFlat_scale_right, sq, mul_assoc, mul_add]
      refine congrArg Except.ok (congrArg₂ (· + ·) rfl ?_)
      simp only [Finset.mul_sum, scM]
      exact Finset.sum_congr rfl fun _ _ => Finset.sum_congr rfl fun _ _ => Finset.sum_congr rfl fun _ _ => by ring
  | .empty => by rw [Mfd.scale]; simp [Mfd.innerProd, Except.map]
  | .compound ms => by rw [Mfd.scale, Mfd.innerProd, Mfd.innerProd, innerProdAll_scale f ms]
theorem innerProdAll_scale (f : FieldExpr d) : (ms : List (Mfd d)) →
    Mfd.innerProdAll (f.scale a) (Mfd.scaleAll a ms) = (Mfd.innerProdAll f ms).map (a ^ 2 * ·)
  | [] => by rw [Mfd.scaleAll]; simp [Mfd.innerProdAll, Except.map]
  | m :: ms => by
    rw [Mfd.scaleAll, Mfd.innerProdAll, Mfd.innerProdAll, innerProd_scale f m, innerProdAll_scale f ms]
    cases Mfd.innerProd f m with
    | error e => rfl
    | ok v =>
      cases Mfd.innerProdAll f ms with
      | error e => rfl
      | ok vs => simp only [Except.map, mul_add]
end

mutual
/-- Only the momenta multiplied. -/
theorem innerProd_scaleCot (f : FieldExpr d) : (M : Mfd d) → (M.scale a).innerProd f = (M.innerProd f).map (a * ·)
  | .landmarks gd cot => by
    rw [Mfd.scale, Mfd.innerProd, Mfd.innerProd]
    cases actLandmarks gd f with
    | error e => rfl
    | ok v => simp only [Except.map, dotFlat_scale_left]
  | .direction t gd dir cot cdir => by
    rw [Mfd.scale]; simp only [Mfd.innerProd]
    cases actDirection t gd dir f with
    | error e => rfl
    | ok v => simp only [Except.map, dotFlat_scale_left, mul_add]
  | .frame gd R cot cR => by
    rw [Mfd.scale]; simp only [Mfd.innerProd]
    cases actFrame gd R f with
    | error e => rfl
    | ok v =>
      simp only [Except.map, dotFlat_scale_left, mul_add, Finset.mul_sum, mul_assoc]
  | .empty => by rw [Mfd.scale]; simp [Mfd.innerProd, Except.map]
  | .compound ms => by rw [Mfd.scale, Mfd.innerProd, Mfd.innerProd, innerProdAll_scaleCot f ms]
theorem innerProdAll_scaleCot (f : FieldExpr d) : (ms : List (Mfd d)) →
    Mfd.innerProdAll f (Mfd.scaleAll a ms) = (Mfd.innerProdAll f ms).map (a * ·)
  | [] => by rw [Mfd.scaleAll]; simp [Mfd.innerProdAll, Except.map]
  | m :: ms => by
    rw [Mfd.scaleAll, Mfd.innerProdAll, Mfd.innerProdAll, innerProd_scaleCot f m, innerProdAll_scaleCot f ms]
    cases Mfd.innerProd f m with
    | error e => rfl
    | ok v =>
      cases Mfd.innerProdAll f ms with
      | error e => rfl
      | ok vs => simp only [Except.map, mul_add]
end

/-- Both raise the same exception, or both return and the second field is `a` times the first. -/
def ScaledPy (r r' : Py (FieldExpr d)) : Prop := (∃ e, r = .error e ∧ r' = .error e) ∨ ∃ f f', r = .ok f ∧ r' = .ok f' ∧ Scaled a f f'
/-- Member by member. -/
def ScaledAll (r r' : Py (List (FieldExpr d))) : Prop :=
  (∃ e, r = .error e ∧ r' = .error e) ∨ ∃ fs fs', r = .ok fs ∧ r' = .ok fs' ∧ List.Forall₂ (Scaled a) fs fs'

theorem scaled_sum {fs fs' : List (FieldExpr d)} (h : List.Forall₂ (Scaled a) fs fs') : Scaled a (.sum fs) (.sum fs') := fun k x => by
  rw [FieldExpr.eval, FieldExpr.eval]
  induction h with
  | nil => rw [FieldExpr.evalSum]; exact congrArg Except.ok (funext fun I => (mul_zero a).symm)
  | @cons f f' fs fs' h1 h2 ih =>
    rw [FieldExpr.evalSum, FieldExpr.evalSum, h1 k x, ih]
    cases f.eval k x with
    | error e => rfl
    | ok t =>
      cases FieldExpr.evalSum k fs x with
      | error e => rfl
      | ok ts => exact congrArg Except.ok (funext fun I => (mul_add a _ _).symm)

theorem scaledPy_mkSum {fs fs' : List (FieldExpr d)} (h : List.Forall₂ (Scaled a) fs fs') : ScaledPy a (mkSumField fs) (mkSumField fs') := by
  cases h with
  | nil => exact .inl ⟨_, rfl, rfl⟩
  | cons h1 h2 => exact .inr ⟨_, _, rfl, rfl, scaled_sum a (.cons h1 h2)⟩

theorem scaled_scale_f0 (r : Reduction) {n : Nat} (supp mom : Fin n → Vec d) (σ : ℝ) : Scaled a (.f0 r supp mom σ) (.f0 r supp (fun i c => a * mom i c) σ) := by
  have := scaled_scale a (FieldExpr.f0 r supp mom σ)
  rwa [FieldExpr.scale] at this

theorem scaled_f0u_dir (r : Reduction) {n : Nat} (supp mom dir : Fin n → Vec d) (σ : ℝ) :
    Scaled a (.f0u r supp mom dir σ) (.f0u r supp mom (fun i c => a * dir i c) σ) := fun k x => by
  simp only [FieldExpr.eval]
  unfold field0uTorch
  split_ifs
  · cases kerRows σ 1 (fun j => relDiff x (supp j)) .attribute with
    | error e => rfl
    | ok ker =>
      refine congrArg Except.ok (funext fun I => ?_)
      simp only [scT, Finset.mul_sum, Finset.sum_mul]
      exact Finset.sum_congr rfl fun _ _ => Finset.sum_congr rfl fun _ _ => by ring
  · rfl

mutual
theorem cotToVs_scale (σ : ℝ) (r : Reduction) : (M : Mfd d) → ScaledPy a (M.cotToVs σ r) ((M.scale a).cotToVs σ r)
  | .landmarks gd cot => by
    rw [Mfd.scale]; simp only [Mfd.cotToVs]
    exact .inr ⟨_, _, rfl, rfl, scaled_scale_f0 a r gd cot σ⟩
  | .direction .vector gd dir cot cdir => by
    rw [Mfd.scale]; simp only [Mfd.cotToVs]
    refine scaledPy_mkSum a (.cons (scaled_scale_f0 a r gd cot σ) (.cons ?_ .nil))
    have := scaled_scale a (FieldExpr.f0u r gd cdir dir σ)
    rwa [FieldExpr.scale] at this
  | .direction .orthogonal gd dir cot cdir => by
    rw [Mfd.scale]; simp only [Mfd.cotToVs]
    exact scaledPy_mkSum a (.cons (scaled_scale_f0 a r gd cot σ) (.cons (scaled_f0u_dir a r gd _ cdir σ) .nil))
  | .frame gd R cot cR => by
    rw [Mfd.scale]; simp only [Mfd.cotToVs]
    refine scaledPy_mkSum a (.cons (scaled_scale_f0 a r gd cot σ) (.cons ?_ .nil))
    have := scaled_scale a (FieldExpr.fm r gd (fun i b c => ∑ k, cR i b k * R i c k) σ)
    simpa only [FieldExpr.scale, Finset.mul_sum, mul_assoc] using this
  | .empty => by
    rw [Mfd.scale, Mfd.cotToVs]
    have := scaled_scale a (FieldExpr.null : FieldExpr d)
    rw [FieldExpr.scale] at this
    exact .inr ⟨_, _, rfl, rfl, this⟩
  | .compound ms => by
    rw [Mfd.scale]; simp only [Mfd.cotToVs]
    rcases cotToVsAll_scale σ r ms with ⟨e, h1, h2⟩ | ⟨fs, fs', h1, h2, h3⟩
    · rw [h1, h2]; exact .inl ⟨_, rfl, rfl⟩
    · rw [h1, h2]; exact scaledPy_mkSum a h3
theorem cotToVsAll_scale (σ : ℝ) (r : Reduction) : (ms : List (Mfd d)) → ScaledAll a (Mfd.cotToVsAll σ r ms) (Mfd.cotToVsAll σ r (Mfd.scaleAll a ms))
  | [] => by rw [Mfd.scaleAll, Mfd.cotToVsAll]; exact .inr ⟨_, _, rfl, rfl, .nil⟩
  | m :: ms => by
    rw [Mfd.scaleAll, Mfd.cotToVsAll, Mfd.cotToVsAll]
    rcases cotToVs_scale σ r m with ⟨e, h1, h2⟩ | ⟨f, f', h1, h2, h3⟩
    · rw [h1, h2]; exact .inl ⟨_, rfl, rfl⟩
    · rw [h1, h2]
      rcases cotToVsAll_scale σ r ms with ⟨e, g1, g2⟩ | ⟨fs, fs', g1, g2, g3⟩
      · rw [g1, g2]; exact .inl ⟨_, rfl, rfl⟩
      · rw [g1, g2]; exact .inr ⟨_, _, rfl, rfl, .cons h3 g3⟩
end

end
end Imodal
