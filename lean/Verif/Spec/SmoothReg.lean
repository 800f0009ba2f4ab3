import Verif.Spec.SmoothPy
import Verif.Spec.RigidReg
/-! When the losses of a registration are smooth. -/
set_option autoImplicit false
namespace Imodal
noncomputable section
variable {d : Nat} {G T : Type}

/-- The weighted loss between what each deformable makes of its points and its target is returned for
all points near those of its silent module, and depends smoothly on them. -/
def SmoothLosses (n : WithTop ℕ∞) : List (Deformable d G) → List (Attach G T) → List T → Prop
  | D :: Ds, a :: as, t :: ts => SmPy n D.gd (fun x => (D.toDeformed ⟨D.n, x⟩).bind fun g => a.call g t) ∧ SmoothLosses n Ds as ts
  | [], [], [] => True
  | _, _, _ => False

/-- The same for all points, not only near those of the silent modules. -/
def SmoothEverywhere (n : WithTop ℕ∞) : List (Deformable d G) → List (Attach G T) → List T → Prop
  | D :: Ds, a :: as, t :: ts => (∀ x, SmPy n x (fun x => (D.toDeformed ⟨D.n, x⟩).bind fun g => a.call g t)) ∧ SmoothEverywhere n Ds as ts
  | [], [], [] => True
  | _, _, _ => False

/-- The entries of the descriptors and momenta of the manifolds depend smoothly on the parameters. -/
def SmoothEntries {E : Type} [NormedAddCommGroup E] [NormedSpace ℝ E] (n : WithTop ℕ∞) (e₀ : E) (mans : E → List (Mfd d)) : Prop :=
  ∀ j, ContDiffAt ℝ n (fun e => rowOf (Mfd.compound (mans e)).unrollGd.flatten j) e₀ ∧ ContDiffAt ℝ n (fun e => rowOf (Mfd.compound (mans e)).unrollCot.flatten j) e₀

end
end Imodal
