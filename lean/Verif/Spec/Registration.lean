import Verif.Model.Registration
/-!
# What a registration model is told to do
-/
set_option autoImplicit false
namespace Imodal
noncomputable section
variable {d : Nat} {G T : Type}

/-- Two deformables of the same kind: points and momenta may differ. -/
def Deformable.Kin (D D' : Deformable d G) : Prop := D.backward = D'.backward ∧ D.toDeformed = D'.toDeformed

/-- Any calls of a model whose parameters are left alone. A call that raises may leave any
descriptors, momenta and controls in the modules and in the silent modules of the deformables;
`Left` says which. -/
inductive History (Left : RegModel d G T → RegModel d G T → Prop) (M₀ : RegModel d G T) : RegModel d G T → Prop
  | start : History Left M₀ M₀
  | deformed {M M' : RegModel d G T} {s : SolverName} {it : Nat} {wantCosts : Bool} {t1 : ℝ} {r : Deformed d G} :
    History Left M₀ M → M.computeDeformed s it wantCosts t1 = .ok (r, M') → History Left M₀ M'
  | evaluated {M : RegModel d G T} {targets : List T} {s : SolverName} {it : Nat} {costs : Dict CostKey ℝ} {r : Evaluated d G T} :
    History Left M₀ M → M.evaluate none targets s it costs = .ok r → History Left M₀ r.model
  | raised {M M' : RegModel d G T} : History Left M₀ M → Left M M' → History Left M₀ M'

/-- Points are carried from `x` to `x'` by one step of the method, `f j` being the field of its
evaluation `j`. -/
def Moves : Solver → ℝ → (Nat → FieldExpr d) → {n : Nat} → (x x' : Fin n → Vec d) → Prop
  | .euler, h, f, _, x, x' => ∃ k, (f 0).values x = .ok k ∧ x' = x + h • k
  | .midpoint, h, f, _, x, x' => ∃ k₁ k₂, (f 0).values x = .ok k₁ ∧ (f 1).values (x + (h / 2) • k₁) = .ok k₂ ∧ x' = x + h • k₂
  | .rk4, h, f, _, x, x' => ∃ k₁ k₂ k₃ k₄, (f 0).values x = .ok k₁ ∧ (f 1).values (x + (h / 3) • k₁) = .ok k₂ ∧
      (f 2).values (x + h • (k₂ - (1 / 3 : ℝ) • k₁)) = .ok k₃ ∧ (f 3).values (x + h • (k₁ - k₂ + k₃)) = .ok k₄ ∧
      x' = x + (h / 8) • (k₁ + (3 : ℝ) • k₂ + (3 : ℝ) • k₃ + k₄)

/-- The field is generated by the modules, at some descriptors and with some controls. -/
def GeneratedBy (m : DefModule d) (f : FieldExpr d) : Prop :=
  ∃ (y p : Row) (c : Ctrl d) (m₀ m' : DefModule d), withRows m y p = .ok m₀ ∧ m₀.fillControls c = .ok m' ∧ m'.field = .ok f

/-- The method a solver name stands for, and the time it integrates to. -/
def SolverName.method : SolverName → Solver
  | .fixed s => s
  | _ => .euler
def SolverName.endTime (t1 : ℝ) : SolverName → ℝ
  | .fixed _ => t1
  | _ => 1

end
end Imodal
