import Verif.Model.Modules
/-! How far a deformation module can move a point for a given cost. -/
set_option autoImplicit false
namespace Imodal
noncomputable section
variable {d : Nat}

mutual
/-- The coefficients of the costs are positive, the regularisations are not negative, and no compound is empty. -/
def DefModule.PositiveWeights : DefModule d → Prop
  | .translations _ => True
  | .implicit0 m => 0 < m.coeff ∧ 0 ≤ m.ν
  | .oriented m => 0 < m.coeff
  | .constrained m => 0 < m.coeff
  | .globalTranslation m => 0 < m.coeff
  | .linear m => 0 < m.coeff
  | .implicit1 m => 0 < m.coeff ∧ 0 ≤ m.ν
  | .divFree m => 0 < m.coeff ∧ 0 ≤ m.ν
  | .arap m => 0 < m.coeff ∧ 0 ≤ m.ν
  | .silent _ => True
  | .compound ms => ms ≠ [] ∧ DefModule.AllPositiveWeights ms
def DefModule.AllPositiveWeights : List (DefModule d) → Prop
  | [] => True
  | m :: ms => m.PositiveWeights ∧ DefModule.AllPositiveWeights ms
end

mutual
/-- The module contains no linear deformation, whose fields grow without bound away from their centre. -/
def DefModule.NoLinear : DefModule d → Prop
  | .linear _ => False
  | .compound ms => DefModule.AllNoLinear ms
  | _ => True
def DefModule.AllNoLinear : List (DefModule d) → Prop
  | [] => True
  | m :: ms => m.NoLinear ∧ DefModule.AllNoLinear ms
end

mutual
/-- The sum of the inverse coefficients of the members; the cost of translations has no
coefficient and a silent module moves nothing. -/
def DefModule.mobility : DefModule d → ℝ
  | .translations _ => 1
  | .implicit0 m => 1 / m.coeff
  | .oriented m => 1 / m.coeff
  | .constrained m => 1 / m.coeff
  | .globalTranslation m => 1 / m.coeff
  | .linear _ => 0
  | .implicit1 m => 1 / m.coeff
  | .divFree m => 1 / m.coeff
  | .arap m => 1 / m.coeff
  | .silent _ => 0
  | .compound ms => DefModule.mobilities ms
def DefModule.mobilities : List (DefModule d) → ℝ
  | [] => 0
  | m :: ms => m.mobility + DefModule.mobilities ms
end

end
end Imodal
