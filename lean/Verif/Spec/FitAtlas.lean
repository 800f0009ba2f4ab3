import Verif.Spec.FitReg
import Verif.Model.Registration
/-!
What gradient descent sees of an atlas: the momenta of all subjects one after the other in one group, the
chosen descriptors of the first subject in another (atlas.py 115-133), the total of `evaluate`, and its partial
derivatives. The template is not optimised: with that `evaluate` raises (C38).
-/
set_option autoImplicit false
namespace Imodal
noncomputable section
variable {d : Nat} {G T : Type}

/-- The momenta of a subject. -/
def RegModel.momenta (M : RegModel d G T) : List ℝ := (Mfd.compound M.init).unrollCot.flatten

/-- The parameters of an atlas as groups of numbers. -/
def atlasEntries (Ms : List (RegModel d G T)) : Option (List Nat) → List (List ℝ)
  | none => [(Ms.map RegModel.momenta).flatten]
  | some ps => [(Ms.map RegModel.momenta).flatten, (Ms.head?.map fun M => ps.map (rowOf (Mfd.compound M.init).unrollGd.flatten)).getD []]

/-- The subjects with other momenta, of which each takes its own, and the first with other descriptors. -/
def subjectsAt (fit : Option (List Nat)) : List (RegModel d G T) → List ℝ → List ℝ → List (RegModel d G T)
  | [], _, _ => []
  | M :: Ms, c, g => M.atEntries fit [c.take M.momenta.length, g] :: subjectsAt none Ms (c.drop M.momenta.length) []

/-- The subjects with other values of the parameters. -/
def atlasAt (Ms : List (RegModel d G T)) (fit : Option (List Nat)) (y : List (List ℝ)) : List (RegModel d G T) :=
  subjectsAt fit Ms (y.getD 0 []) (y.getD 1 [])

/-- The number that `evaluate` differentiates. -/
def atlasValue (Ms : List (RegModel d G T)) (targets : List T) (s : SolverName) (it : Nat) : Py ℝ :=
  match atlasEvaluate none Ms targets s it with
  | .ok r => .ok r.2.1
  | .error e => .error e

/-- The total at the parameters `y`. -/
def atlasTotal (Ms : List (RegModel d G T)) (fit : Option (List Nat)) (targets : List T) (s : SolverName) (it : Nat) (y : List (List ℝ)) : ℝ :=
  match atlasValue (atlasAt Ms fit y) targets s it with
  | .ok v => v
  | .error _ => 0

/-- The atlas as the optimiser sees it, automatic differentiation being exact. -/
def atlasDescent (Ms : List (RegModel d G T)) (fit : Option (List Nat)) (targets : List T) (s : SolverName) (it : Nat) : GDProblem ℝ ℝ where
  cost y := match atlasValue (atlasAt Ms fit y) targets s it with
    | .ok v => .fin v
    | .error _ => .nan
  grad := partials (atlasTotal Ms fit targets s it)

end
end Imodal
