import Verif.Model.Py
import Mathlib.Analysis.Calculus.ContDiff.Defs
/-! Computations that depend smoothly on a parameter. -/
set_option autoImplicit false
namespace Imodal
open Filter Topology
variable {E V : Type} [NormedAddCommGroup E] [NormedSpace ℝ E] [NormedAddCommGroup V] [NormedSpace ℝ V]

/-- For all parameters near `e₀` the computation returns, and what it returns is a function of
class `n` of the parameter at `e₀`. -/
def SmPy (n : WithTop ℕ∞) (e₀ : E) (f : E → Py V) : Prop :=
  ∃ g : E → V, ContDiffAt ℝ n g e₀ ∧ ∀ᶠ e in 𝓝 e₀, f e = .ok (g e)

end Imodal
