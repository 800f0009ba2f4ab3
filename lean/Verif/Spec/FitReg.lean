import Verif.Spec.RigidReg
import Verif.Model.Optim
import Verif.Lemmas.Rows
import Mathlib.Analysis.Calculus.Deriv.Basic
/-!
What gradient descent sees of a registration model: the momenta of all manifolds in one group, the chosen
descriptors in another (registration_model.py 171-210), the total, and its partial derivatives.
-/
set_option autoImplicit false
namespace Imodal
noncomputable section
variable {d : Nat} {G T : Type}

/-- `vs` written at the positions `ps` of a row. -/
def writeAt (base : Row) : List Nat → List ℝ → Row
  | p :: ps, v :: vs => Function.update (writeAt base ps vs) p v
  | _, _ => base

/-- The parameters as two groups of numbers: all momenta, and the descriptors at the positions `ps`, when
descriptors are optimised. -/
def RegModel.entriesOf (M : RegModel d G T) : Option (List Nat) → List (List ℝ)
  | none => [(Mfd.compound M.init).unrollCot.flatten]
  | some ps => [(Mfd.compound M.init).unrollCot.flatten, ps.map (rowOf (Mfd.compound M.init).unrollGd.flatten)]

/-- The model with other values of the parameters. -/
def RegModel.atEntries (M : RegModel d G T) (fit : Option (List Nat)) (y : List (List ℝ)) : RegModel d G T :=
  M.setValues (Mfd.withCotAll (rowOf (y.getD 0 [])) 0
    (Mfd.withGdAll (writeAt (rowOf (Mfd.compound M.init).unrollGd.flatten) (fit.getD []) (y.getD 1 [])) 0 M.init)) none

/-- The partial derivatives of a function of parameters, in groups like the parameters. -/
def partials (f : List (List ℝ) → ℝ) (y : List (List ℝ)) : List (List ℝ) :=
  gdFill y (List.ofFn fun i : Fin y.flatten.length => deriv (fun u => f (gdFill y (y.flatten.set i u))) (y.flatten.getD i 0))

/-- The total at the parameters `y`. -/
def RegModel.totalAt (M : RegModel d G T) (fit : Option (List Nat)) (targets : List T) (s : SolverName) (it : Nat) (y : List (List ℝ)) : ℝ :=
  match (M.atEntries fit y).value targets s it with
  | .ok v => v
  | .error _ => 0

/-- Registration as the optimiser sees it, automatic differentiation being exact. -/
def RegModel.descent (M : RegModel d G T) (fit : Option (List Nat)) (targets : List T) (s : SolverName) (it : Nat) : GDProblem ℝ ℝ where
  cost y := match (M.atEntries fit y).value targets s it with
    | .ok v => .fin v
    | .error _ => .nan
  grad := partials (M.totalAt fit targets s it)

end
end Imodal
