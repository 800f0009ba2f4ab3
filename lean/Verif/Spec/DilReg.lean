import Verif.Spec.Dilate
import Verif.Spec.RigidReg
/-! A registration in another unit of length. -/
set_option autoImplicit false
namespace Imodal
noncomputable section
variable {d : Nat} {G T : Type}

/-- Every coordinate times `s`. -/
def Points.dilate (s : ℝ) (p : Points d) : Points d := ⟨p.n, fun i c => s * p.x i c⟩

/-- The points of a source and their momenta are lengths. -/
def Deformable.dilate (s : ℝ) (D : Deformable d G) : Deformable d G :=
  { D with gd := fun i c => s * D.gd i c, cot := fun i c => s * D.cot i c }

/-- The geometry of points in the new unit is the geometry in the new unit: `φ` is how geometries are converted. -/
def Deformable.CarriesUnit (s : ℝ) (φ : G → G) (D : Deformable d G) : Prop :=
  ∀ p, D.toDeformed (p.dilate s) = (D.toDeformed p).map φ

/-- `a'` is the attachment `a` for data in the new unit: its weighted loss, like all costs, is a square of a length. -/
def Attach.InUnit (s : ℝ) (φ : G → G) (ψ : T → T) (a a' : Attach G T) : Prop :=
  ∀ x y, a'.call (φ x) (ψ y) = (a.call x y).map (s ^ 2 * ·)

/-- The result of deforming, in the new unit; `m` is the compound of all modules. -/
def Deformed.dilate (s : ℝ) (φ : G → G) (m : DefModule d) (r : Deformed d G) : Deformed d G :=
  ⟨r.geometries.map φ, r.cost.map (s ^ 2 * ·), r.shot.dilate s m, r.compound.dilate s⟩

/-- The registration in the new unit, with attachments `as`: descriptors, momenta, parameters of modules and learnable
controls are converted, the factor of the deformation cost and the number of steps stay. -/
def RegModel.dilate (s : ℝ) (as : List (Attach G T)) (M : RegModel d G T) : RegModel d G T :=
  { M with
    deformables := M.deformables.map (Deformable.dilate s)
    modules := DefModule.dilateAll s M.modules
    init := Mfd.dilateAll s M.init
    attachments := as
    learned := M.learned.map fun l => (l.1, l.2.map (DefModule.dilateCtrls s M.modules)) }

/-- Costs in the new unit. -/
def dilateCosts (s : ℝ) (D : Dict CostKey ℝ) : Dict CostKey ℝ := D.map fun e => (e.1, s ^ 2 * e.2)

/-- The result of an evaluation in the new unit: all costs and their sum times `s ^ 2`. -/
def Evaluated.dilate (s : ℝ) (as : List (Attach G T)) (r : Evaluated d G T) : Evaluated d G T :=
  ⟨dilateCosts s r.costs, s ^ 2 * r.total, r.model.dilate s as⟩

end
end Imodal
