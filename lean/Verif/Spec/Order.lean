import Verif.Model.Shooting
/-!
# The order of a solver
-/
set_option autoImplicit false
namespace Imodal

/-- The order of convergence the methods are known for. -/
def Solver.order : Solver → Nat
  | .euler => 1
  | .midpoint => 2
  | .rk4 => 4

end Imodal
