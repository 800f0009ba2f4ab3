import Verif.Spec.Rigid
import Verif.Spec.Registration
import Verif.Model.Varifold
import Verif.Spec.Smooth
/-! How a rigid motion acts on a registration. -/
set_option autoImplicit false
namespace Imodal
noncomputable section
open Matrix
variable {d : Nat} {G T : Type}

/-- A tensor of points moves point by point. -/
def Points.move (g : Rigid d) (p : Points d) : Points d := ⟨p.n, fun i => g.point (p.x i)⟩

/-- The points of the silent module move, its momenta turn. -/
def Deformable.move (g : Rigid d) (D : Deformable d G) : Deformable d G :=
  { D with gd := fun i => g.point (D.gd i), cot := fun i => g.vec (D.cot i) }

/-- The geometry of moved points is the moved geometry: `φ` is how geometries move. -/
def Deformable.Carries (g : Rigid d) (φ : G → G) (D : Deformable d G) : Prop :=
  ∀ p, D.toDeformed (p.move g) = (D.toDeformed p).map φ

/-- The attachment only sees the position of source and target relative to each other. -/
def Attach.Blind (φ : G → G) (ψ : T → T) (a : Attach G T) : Prop := ∀ s t, a.loss (φ s) (ψ t) = a.loss s t

/-- The result of deforming, moved: the geometries, the states, the controls and the modules; the cost stays. -/
def Deformed.move (g : Rigid d) (φ : G → G) (r : Deformed d G) : Deformed d G :=
  ⟨r.geometries.map φ, r.cost, r.shot.move g, r.compound.move g⟩

/-- The registration of moved sources with moved modules: descriptors, momenta and learnable controls
are moved along; weights, attachments and the number of steps stay. -/
def RegModel.move (g : Rigid d) (M : RegModel d G T) : RegModel d G T :=
  { M with
    deformables := M.deformables.map (Deformable.move g)
    modules := DefModule.moveAll g M.modules
    init := Mfd.moveAll g M.init
    learned := M.learned.map fun l => (l.1, l.2.map (Ctrl.moveAll g)) }

/-- The result of an evaluation, with the model moved; the costs and their sum stay. -/
def Evaluated.move (g : Rigid d) (r : Evaluated d G T) : Evaluated d G T := ⟨r.costs, r.total, r.model.move g⟩

mutual
/-- The manifold with all tensors zero. -/
def Mfd.blank : Mfd d → Mfd d
  | @Mfd.landmarks _ n _ _ => @Mfd.landmarks _ n 0 0
  | @Mfd.direction _ t n _ _ _ _ => @Mfd.direction _ t n 0 0 0 0
  | @Mfd.frame _ n _ _ _ _ => @Mfd.frame _ n 0 0 0 0
  | .empty => .empty
  | .compound ms => .compound (Mfd.blankAll ms)
def Mfd.blankAll : List (Mfd d) → List (Mfd d)
  | [] => []
  | m :: ms => m.blank :: Mfd.blankAll ms
end

/-- Two manifolds of the same kind: they only differ in the entries of their tensors. -/
def Mfd.SameKind (M M' : Mfd d) : Prop := M.blank = M'.blank

/-- The kept initial manifolds belong to the modules of the model. -/
def RegModel.Kept (M : RegModel d G T) : Prop :=
  (Mfd.compound (M.init.drop M.deformables.length)).SameKind (DefModule.compound M.modules).manifold

/-- Sources, modules and attachments of the model single out no place and no direction. -/
structure RegModel.Ready (M : RegModel d G T) (g : Rigid d) (φ : G → G) (ψ : T → T) : Prop where
  carries : ∀ D ∈ M.deformables, D.Carries g φ
  kept : M.Kept
  movable : DefModule.AllMovable g M.modules
  smooth : (DefModule.compound M.modules).Smooth 1
  blind : ∀ a ∈ M.attachments, a.Blind φ ψ

/-- The inverse of a rigid motion. -/
def Rigid.inv (g : Rigid d) : Rigid d := ⟨g.Qᵀ, -(g.Qᵀ *ᵥ g.τ), by
  have h := g.orth
  rw [Matrix.mem_orthogonalGroup_iff] at h ⊢
  rw [Matrix.transpose_transpose]
  exact mul_eq_one_comm.1 h⟩

/-- The model with other values of everything that an optimisation may change. -/
def RegModel.setValues (M : RegModel d G T) (init : List (Mfd d)) (learned : Option (Nat × List (List (Ctrl d)))) : RegModel d G T :=
  { M with init := init, learned := learned }

/-- The number that `evaluate` differentiates. -/
def RegModel.value (M : RegModel d G T) (targets : List T) (s : SolverName) (it : Nat) : Py ℝ :=
  (M.evaluate none targets s it []).map Evaluated.total

/-- No other values of the same kind give a smaller total. -/
def RegModel.Best (M : RegModel d G T) (targets : List T) (s : SolverName) (it : Nat) : Prop :=
  ∃ v, M.value targets s it = .ok v ∧ ∀ init learned v', List.Forall₂ Mfd.SameKind init M.init → learned.isSome = M.learned.isSome →
    (M.setValues init learned).value targets s it = .ok v' → v ≤ v'

/-! ## Attachments -/

/-- A loss that is a number; a model of a registration knows no NaN. -/
def asNumber : Py (Option ℝ) → Py ℝ
  | .error e => .error e
  | .ok none => .error .unmodelled
  | .ok (some x) => .ok x

/-- The pointwise distance with a weight. -/
def pointAttach (w : ℝ) : Attach (List (Vec d)) (List (Vec d)) := .simple w pointwiseLoss
/-- The varifold distance of closed curves with a weight. -/
def curveAttach (w : ℝ) (sigmas : List ℝ) : Attach (List (Vec 2)) (List (Vec 2)) :=
  .simple w fun x y => asNumber ((VarifoldClass.d2 .torch).loss sigmas (.curve x) (.curve y))
/-- Meshes of any number of faces but three. -/
abbrev OtherMesh := {m : Mesh // m.2.length ≠ 3}
/-- The varifold distance of these with a weight. -/
def meshAttach (w : ℝ) (r : Reduction) (sigmas : List ℝ) : Attach OtherMesh OtherMesh :=
  .simple w fun x y => asNumber ((VarifoldClass.d3 r).loss sigmas (.mesh x.1) (.mesh y.1))

/-- A mesh moves with its vertices. -/
def Mesh.move (g : Rigid 3) (m : Mesh) : Mesh := (m.1.map g.point, m.2)
def OtherMesh.move (g : Rigid 3) (m : OtherMesh) : OtherMesh := ⟨Mesh.move g m.1, m.2⟩

end
end Imodal
