import Verif.Model.Modules
/-! Notions used in the statements about deformation modules. -/
set_option autoImplicit false
namespace Imodal
noncomputable section
variable {d : Nat}

mutual
/-- Controls multiplied by a number. -/
def Ctrl.smul (t : ℝ) : Ctrl d → Ctrl d
  | .vecs h => .vecs fun i c => t * h i c
  | .scalars h => .scalars fun i => t * h i
  | .scalar h => .scalar (t * h)
  | .vec h => .vec fun c => t * h c
  | .none => .none
  | .list hs => .list (Ctrl.smulAll t hs)
def Ctrl.smulAll (t : ℝ) : List (Ctrl d) → List (Ctrl d)
  | [] => []
  | h :: hs => Ctrl.smul t h :: Ctrl.smulAll t hs
end

mutual
/-- All numbers in the controls are zero. -/
def Ctrl.IsZero : Ctrl d → Prop
  | .vecs h => ∀ i c, h i c = 0
  | .scalars h => ∀ i, h i = 0
  | .scalar h => h = 0
  | .vec h => ∀ c, h c = 0
  | .none => True
  | .list hs => Ctrl.AllZero hs
def Ctrl.AllZero : List (Ctrl d) → Prop
  | [] => True
  | h :: hs => h.IsZero ∧ Ctrl.AllZero hs
end

mutual
/-- The coefficients of the costs and the regularisations are not negative, and no compound
is empty (an empty compound has no field, `SumStructuredField([])` raises). -/
def DefModule.NonnegWeights : DefModule d → Prop
  | .translations _ => True
  | .implicit0 m => 0 ≤ m.coeff ∧ 0 ≤ m.ν
  | .oriented m => 0 ≤ m.coeff
  | .constrained m => 0 ≤ m.coeff
  | .globalTranslation m => 0 ≤ m.coeff
  | .linear m => 0 ≤ m.coeff
  | .implicit1 m => 0 ≤ m.coeff ∧ 0 ≤ m.ν
  | .divFree m => 0 ≤ m.coeff ∧ 0 ≤ m.ν
  | .arap m => 0 ≤ m.coeff ∧ 0 ≤ m.ν
  | .silent _ => True
  | .compound ms => ms ≠ [] ∧ DefModule.AllNonnegWeights ms
def DefModule.AllNonnegWeights : List (DefModule d) → Prop
  | [] => True
  | m :: ms => m.NonnegWeights ∧ DefModule.AllNonnegWeights ms
end

mutual
/-- Positive coefficients together with a positive regularisation or distinct points. For an
implicit module of order 1, different controls must prescribe different strains. -/
def DefModule.Definite : DefModule d → Prop
  | .translations m => m.σ ≠ 0 ∧ Function.Injective m.gd
  | .implicit0 m => 0 < m.coeff ∧ 0 < m.ν
  | .oriented m => 0 < m.coeff ∧ m.σ ≠ 0 ∧ Function.Injective m.gd ∧ ∀ i, m.dir i ≠ 0
  | .constrained m => 0 < m.coeff ∧ m.σ ≠ 0 ∧ Function.Injective (m.fsupp m.gd) ∧ m.fvec m.gd ≠ 0
  | .globalTranslation m => 0 < m.coeff
  | .linear m => 0 < m.coeff
  | .implicit1 m => 0 < m.coeff ∧ 0 < m.ν ∧ ∀ h, m.aqh h = 0 → h = 0
  | .divFree m => 0 < m.coeff ∧ 0 < m.ν
  | .arap m => 0 < m.coeff ∧ 0 < m.ν
  | .silent _ => True
  | .compound ms => DefModule.AllDefinite ms
def DefModule.AllDefinite : List (DefModule d) → Prop
  | [] => True
  | m :: ms => m.Definite ∧ DefModule.AllDefinite ms
end

mutual
/-- No compound in the manifold is empty (`SumStructuredField([])` raises). -/
def Mfd.NoEmptyCompound : Mfd d → Prop
  | .landmarks _ _ => True
  | .direction _ _ _ _ _ => True
  | .frame _ _ _ _ => True
  | .empty => True
  | .compound ms => ms ≠ [] ∧ Mfd.AllNoEmptyCompound ms
def Mfd.AllNoEmptyCompound : List (Mfd d) → Prop
  | [] => True
  | m :: ms => m.NoEmptyCompound ∧ Mfd.AllNoEmptyCompound ms
end

mutual
/-- The manifold holds no points with directions. -/
def Mfd.NoDirections : Mfd d → Prop
  | .landmarks _ _ => True
  | .direction _ _ _ _ _ => False
  | .frame _ _ _ _ => True
  | .empty => True
  | .compound ms => Mfd.AllNoDirections ms
def Mfd.AllNoDirections : List (Mfd d) → Prop
  | [] => True
  | m :: ms => m.NoDirections ∧ Mfd.AllNoDirections ms
end

end
end Imodal
