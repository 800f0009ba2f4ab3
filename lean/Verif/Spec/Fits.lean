import Verif.Spec.Modules
/-!
# Controls of the right shape, and modules that accept them everywhere
-/
set_option autoImplicit false
namespace Imodal
noncomputable section
variable {d : Nat}

mutual
/-- The controls `c` have the shape of the controls of the module: as many vectors or numbers,
and for a compound one entry per member. A silent module accepts anything. -/
def DefModule.Fits : DefModule d → Ctrl d → Prop
  | @DefModule.translations _ n _, c => ∃ h : Fin n → Vec d, c = .vecs h
  | @DefModule.implicit0 _ n _, c => ∃ h : Fin n → Vec d, c = .vecs h
  | @DefModule.oriented _ n _, c => ∃ h : Fin n → ℝ, c = .scalars h
  | .constrained _, c => ∃ h : ℝ, c = .scalar h
  | .globalTranslation _, c => ∃ h : Vec d, c = .vec h
  | .linear _, c => ∃ h : ℝ, c = .scalar h
  | @DefModule.implicit1 _ _ p _, c => ∃ h : Fin p → ℝ, c = .scalars h
  | @DefModule.divFree _ _ P _, c => ∃ h : Fin P → Vec d, c = .vecs h
  | @DefModule.arap _ _ P _, c => ∃ h : Fin P → Vec d, c = .vecs h
  | .silent _, _ => True
  | .compound ms, c => ∃ cs, c = .list cs ∧ DefModule.FitsAll ms cs
def DefModule.FitsAll : List (DefModule d) → List (Ctrl d) → Prop
  | [], cs => cs = []
  | m :: ms, cs => ∃ c cs', cs = c :: cs' ∧ m.Fits c ∧ DefModule.FitsAll ms cs'
end

mutual
/-- The modules that solve a linear system to set controls (implicit modules of order 1, divergence
free and as-rigid-as-possible modules) have a positive regularisation; the others are arbitrary.
Weights are not negative and no compound is empty. -/
def DefModule.Settable : DefModule d → Prop
  | .translations _ => True
  | .implicit0 m => 0 ≤ m.coeff ∧ 0 ≤ m.ν
  | .oriented m => 0 ≤ m.coeff
  | .constrained m => 0 ≤ m.coeff
  | .globalTranslation m => 0 ≤ m.coeff
  | .linear m => 0 ≤ m.coeff
  | .implicit1 m => 0 ≤ m.coeff ∧ 0 < m.ν
  | .divFree m => 0 ≤ m.coeff ∧ 0 < m.ν
  | .arap m => 0 ≤ m.coeff ∧ 0 < m.ν
  | .silent _ => True
  | .compound ms => ms ≠ [] ∧ DefModule.AllSettable ms
def DefModule.AllSettable : List (DefModule d) → Prop
  | [] => True
  | m :: ms => m.Settable ∧ DefModule.AllSettable ms
end

end
end Imodal
