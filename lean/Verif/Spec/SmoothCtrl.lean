import Verif.Model.Modules
import Mathlib.Analysis.Calculus.ContDiff.Defs
/-! Controls that depend smoothly on a parameter. -/
set_option autoImplicit false
namespace Imodal
variable {d : Nat} {E : Type} [NormedAddCommGroup E] [NormedSpace ℝ E]

/-- The controls keep their shape, and their entries are functions of class `n` of the parameter at `e₀`. -/
inductive SmCtrl (n : WithTop ℕ∞) (e₀ : E) : (E → Ctrl d) → Prop
  | vecs {k : Nat} (h : E → Fin k → Vec d) (hh : ∀ i c, ContDiffAt ℝ n (fun e => h e i c) e₀) : SmCtrl n e₀ fun e => .vecs (h e)
  | scalars {k : Nat} (h : E → Fin k → ℝ) (hh : ∀ i, ContDiffAt ℝ n (fun e => h e i) e₀) : SmCtrl n e₀ fun e => .scalars (h e)
  | scalar (h : E → ℝ) (hh : ContDiffAt ℝ n h e₀) : SmCtrl n e₀ fun e => .scalar (h e)
  | vec (h : E → Vec d) (hh : ∀ c, ContDiffAt ℝ n (fun e => h e c) e₀) : SmCtrl n e₀ fun e => .vec (h e)
  | none : SmCtrl n e₀ fun _ => .none
  | list (cs : List (E → Ctrl d)) (hh : ∀ c ∈ cs, SmCtrl n e₀ c) : SmCtrl n e₀ fun e => .list (cs.map fun c => c e)

end Imodal
