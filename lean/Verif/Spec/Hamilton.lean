import Verif.Model.Shooting
import Mathlib.Analysis.Calculus.Deriv.Basic
/-!
# Hamilton's equations
-/
set_option autoImplicit false
namespace Imodal
noncomputable section
open Set

/-- The curve `(q, p)` of states with `N` coordinates follows Hamilton's equations of `H` between the times 0 and `T`:
`q' = ∂H/∂p` and `p' = -∂H/∂q`. -/
structure HamiltonCurve (N : Nat) (H : Row → Row → ℝ) (T : ℝ) (q p : ℝ → Row) : Prop where
  gd : ∀ t ∈ Icc 0 T, ∀ j < N, HasDerivWithinAt (fun u => q u j) (partialP H (q t) (p t) j) (Icc 0 T) t
  cot : ∀ t ∈ Icc 0 T, ∀ j < N, HasDerivWithinAt (fun u => p u j) (-partialQ H (q t) (p t) j) (Icc 0 T) t

end
end Imodal
