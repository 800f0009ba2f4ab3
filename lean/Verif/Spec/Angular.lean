import Verif.Model.Action
import Mathlib.LinearAlgebra.Matrix.Trace
/-!
# Angular momentum
-/
set_option autoImplicit false
namespace Imodal
noncomputable section
open Matrix
variable {d : Nat}

mutual
/-- The angular momentum about the origin: how much the momenta change the descriptors when everything turns with the angular
velocity `J`. For a point `x` with momentum `p` it is `p · J x`; directions and frames turn too. -/
def Mfd.angular (J : Mat d) : Mfd d → ℝ
  | .landmarks gd cot => ∑ i, cot i ⬝ᵥ J *ᵥ gd i
  | .direction _ gd dir cot cdir => ∑ i, cot i ⬝ᵥ J *ᵥ gd i + ∑ i, cdir i ⬝ᵥ J *ᵥ dir i
  | .frame gd R cot cR => ∑ i, cot i ⬝ᵥ J *ᵥ gd i + ∑ i, Matrix.trace (cR i * (J * R i)ᵀ)
  | .empty => 0
  | .compound ms => Mfd.angularAll J ms
def Mfd.angularAll (J : Mat d) : List (Mfd d) → ℝ
  | [] => 0
  | m :: ms => m.angular J + Mfd.angularAll J ms
end

/-- In the plane a point at `(x, y)` with momentum `(a, b)` has the angular momentum `x b - y a`. -/
example (x y a b : ℝ) : (Mfd.landmarks (fun _ : Fin 1 => ![x, y]) fun _ => ![a, b]).angular !![0, -1; 1, 0] = x * b - y * a := by
  simp [Mfd.angular, Matrix.mulVec, dotProduct, Fin.sum_univ_succ]
  ring

end
end Imodal
