import Verif.Model.Modules
import Verif.Spec.Euclid
/-! How much a deformation module can change the distance of two points for a given cost. -/
set_option autoImplicit false
namespace Imodal
noncomputable section
variable {d : Nat}

mutual
/-- The sum over the members of the inverse of coefficient times squared scale. A translation of everything and a silent
module change no distance; a linear deformation contributes the sum of the squares of its matrix over the coefficient. -/
def DefModule.stretch : DefModule d → ℝ
  | .translations m => 1 / m.σ ^ 2
  | .implicit0 m => 1 / (m.coeff * m.σ ^ 2)
  | .oriented m => 1 / (m.coeff * m.σ ^ 2)
  | .constrained m => 1 / (m.coeff * m.σ ^ 2)
  | .globalTranslation _ => 0
  | .linear m => (∑ b, ∑ c, m.A b c ^ 2) / m.coeff
  | .implicit1 m => 1 / (m.coeff * m.σ ^ 2)
  | .divFree m => 1 / (m.coeff * m.σ ^ 2)
  | .arap m => 1 / (m.coeff * m.σ ^ 2)
  | .silent _ => 0
  | .compound ms => DefModule.stretches ms
def DefModule.stretches : List (DefModule d) → ℝ
  | [] => 0
  | m :: ms => m.stretch + DefModule.stretches ms
end

/-- How the distance of two points `x`, `x'` may change when they are moved to `y`, `y'` in steps of duration `h` with the given costs. -/
def KeptApart (w h : ℝ) (costs : List ℝ) (x x' y y' : Vec d) : Prop :=
  ((∀ a ∈ costs, |h| * √(2 * w * a) ≤ 1) → (costs.map fun a => 1 - |h| * √(2 * w * a)).prod * Spec.euclid x x' ≤ Spec.euclid y y') ∧
    Spec.euclid y y' ≤ (costs.map fun a => 1 + |h| * √(2 * w * a)).prod * Spec.euclid x x'

end
end Imodal
