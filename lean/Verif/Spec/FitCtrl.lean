import Verif.Spec.FitReg
import Verif.Model.Registration
/-!
What gradient descent sees of a registration model that learns controls: besides the groups of
`Verif.Spec.FitReg`, one group with all learned controls (registration_model.py 201-207).
-/
set_option autoImplicit false
namespace Imodal
noncomputable section
variable {d : Nat} {G T : Type}

/-- The numbers in a tensor of controls. -/
def Ctrl.entries : Ctrl d → List ℝ
  | .vecs h => flatVecs h
  | .scalars h => List.ofFn h
  | .scalar h => [h]
  | .vec h => List.ofFn h
  | .none => []
  | .list _ => []

/-- A tensor of controls of the same shape, with the numbers of a row from the position `off` on. -/
def Ctrl.refill (off : Nat) (x : Row) : Ctrl d → Ctrl d
  | .vecs (n := n) _ => .vecs (n := n) (viewVecs fun j => x (off + j))
  | .scalars (n := n) _ => .scalars (n := n) fun i => x (off + i)
  | .scalar _ => .scalar (x off)
  | .vec _ => .vec fun c => x (off + c)
  | .none => .none
  | .list hs => .list hs

/-- The controls as functions of the row their numbers come from. -/
def ctrlsAt : Nat → List (Ctrl d) → List (Row → Ctrl d)
  | _, [] => []
  | off, c :: cs => (fun x => c.refill off x) :: ctrlsAt (off + c.entries.length) cs

/-- The same for a list of lists. -/
def listsAt : Nat → List (List (Ctrl d)) → List (List (Row → Ctrl d))
  | _, [] => []
  | off, l :: ls => ctrlsAt off l :: listsAt (off + (l.flatMap Ctrl.entries).length) ls

/-- The groups of parameters of a model that learns controls: momenta, chosen descriptors, controls. -/
def RegModel.learnedEntries (M : RegModel d G T) (fit : Option (List Nat)) : List (List ℝ) :=
  M.entriesOf fit ++ [(M.learned.elim [] Prod.snd).flatMap fun l => l.flatMap Ctrl.entries]

/-- The model with other values of these parameters. -/
def RegModel.atLearned (M : RegModel d G T) (fit : Option (List Nat)) (y : List (List ℝ)) : RegModel d G T :=
  M.setValues (M.atEntries fit y).init
    (M.learned.map fun p => (p.1, (listsAt 0 p.2).map fun l => l.map fun c => c (rowOf (y.getD (M.entriesOf fit).length []))))

/-- The total at the parameters `y`. -/
def RegModel.learnedTotal (M : RegModel d G T) (fit : Option (List Nat)) (targets : List T) (s : SolverName) (it : Nat) (y : List (List ℝ)) : ℝ :=
  match (M.atLearned fit y).value targets s it with
  | .ok v => v
  | .error _ => 0

/-- What the optimiser sees, automatic differentiation being exact. -/
def RegModel.learnedDescent (M : RegModel d G T) (fit : Option (List Nat)) (targets : List T) (s : SolverName) (it : Nat) : GDProblem ℝ ℝ where
  cost y := match (M.atLearned fit y).value targets s it with
    | .ok v => .fin v
    | .error _ => .nan
  grad := partials (M.learnedTotal fit targets s it)

end
end Imodal
