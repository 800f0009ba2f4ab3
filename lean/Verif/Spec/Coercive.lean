import Verif.Spec.Fits
/-! How large the controls of a module are, and modules whose cost grows with its controls. -/
set_option autoImplicit false
namespace Imodal
noncomputable section
variable {d : Nat}

/-- The sum of the squares of the numbers in the controls of a module that is not a compound. -/
def Ctrl.sq : Ctrl d → ℝ
  | .vecs h => ∑ i, ∑ c, h i c ^ 2
  | .scalars h => ∑ i, h i ^ 2
  | .scalar h => h ^ 2
  | .vec h => ∑ c, h c ^ 2
  | .none => 0
  | .list _ => 0

/-- The same for the controls of a list of modules, in the order of the modules. Silent modules do
not look at their controls and count for nothing. -/
def ctrlSq : List (DefModule d) → List (Ctrl d) → ℝ
  | .silent _ :: ms, _ :: cs => ctrlSq ms cs
  | _ :: ms, c :: cs => c.sq + ctrlSq ms cs
  | _, _ => 0

/-- Controls of the right shape for each module of a list; those of silent modules are `None`. -/
def OwnControls (ms : List (DefModule d)) (cs : List (Ctrl d)) : Prop :=
  List.Forall₂ (fun m c => m.Fits c ∧ ∀ s, m = .silent s → c = .none) ms cs

/-- The module has a cost that grows with the square of its controls, at the same rate wherever its
points are: positive coefficients, and a positive regularisation for those that have one. -/
def DefModule.Coercive : DefModule d → Prop
  | .implicit0 m => 0 < m.coeff ∧ 0 < m.ν
  | .globalTranslation m => 0 < m.coeff
  | .linear m => 0 < m.coeff
  | .divFree m => 0 < m.coeff ∧ 0 < m.ν
  | .arap m => 0 < m.coeff ∧ 0 < m.ν
  | .silent _ => True
  | _ => False

end
end Imodal
