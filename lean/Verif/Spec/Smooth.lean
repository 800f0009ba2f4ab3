import Verif.Spec.Modules
import Verif.Model.Modules
import Mathlib.Analysis.Calculus.ContDiff.Basic
/-!
# Modules whose parameters are smooth
-/
set_option autoImplicit false
namespace Imodal
noncomputable section
variable {d : Nat}

mutual
/-- Supports and vectors of constrained translations are functions of class `n` of the descriptors,
and no compound is empty. Modules that read Jacobians of the dual field ask for `J`. -/
def DefModule.SmoothParts (n : WithTop ℕ∞) (J : Prop) : DefModule d → Prop
  | .translations _ => True
  | .implicit0 _ => True
  | .oriented _ => True
  | .constrained m => ContDiff ℝ n m.fsupp ∧ ContDiff ℝ n m.fvec
  | .globalTranslation _ => True
  | .linear _ => True
  | .implicit1 _ => J
  | .divFree _ => J
  | .arap _ => J
  | .silent s => s.NoEmptyCompound
  | .compound ms => ms ≠ [] ∧ DefModule.AllSmoothParts n J ms
def DefModule.AllSmoothParts (n : WithTop ℕ∞) (J : Prop) : List (DefModule d) → Prop
  | [] => True
  | m :: ms => m.SmoothParts n J ∧ DefModule.AllSmoothParts n J ms
end

/-- The parameters of the module are smooth; and if it holds points with directions then it holds no
module that reads Jacobians. -/
def DefModule.Smooth (n : WithTop ℕ∞) (m : DefModule d) : Prop := m.SmoothParts n m.manifold.NoDirections

end
end Imodal
