import Verif.Model.Shooting
/-!
# A shooting in two parts
-/
set_option autoImplicit false
namespace Imodal
noncomputable section
variable {d : Nat}

/-- Two shootings, one after the other: the last state of the first is the first state of the second and is listed
once. -/
def Shot.join (r r' : Shot d) : Shot d := ⟨r'.module, r.costs ++ r'.costs, r.states.dropLast ++ r'.states, r.ctrls ++ r'.ctrls⟩

/-- The result without the costs. -/
def Shot.trajectory (r : Shot d) : DefModule d × List (Mfd d) × List (Ctrl d) := (r.module, r.states, r.ctrls)

/-- Controls for `n` steps and for `m` steps that make up controls for `n + m` steps: one control for all steps, one per
step (not for `rk4`), or one per evaluation. -/
def SplitControls (s : Solver) (n m : Nat) (c c₁ c₂ : List (Ctrl d)) : Prop :=
  (∃ a, c = [a] ∧ c₁ = [a] ∧ c₂ = [a]) ∨
  (c = c₁ ++ c₂ ∧ ((s ≠ .rk4 ∧ c₁.length = n ∧ c₂.length = m) ∨ (s = .midpoint ∧ c₁.length = 2 * n ∧ c₂.length = 2 * m)
    ∨ (s = .rk4 ∧ c₁.length = 4 * n ∧ c₂.length = 4 * m)))

end
end Imodal
