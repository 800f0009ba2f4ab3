import Verif.Spec.Shooting
import Mathlib.LinearAlgebra.UnitaryGroup
/-! Rigid motions and how they act on fields, manifolds, controls and modules. -/
set_option autoImplicit false
namespace Imodal
noncomputable section
open Matrix
variable {d : Nat}

/-- `x ↦ Q x + τ` with `Q` orthogonal: rotations, reflections, translations and what they compose to. -/
structure Rigid (d : Nat) where
  Q : Mat d
  τ : Vec d
  orth : Q ∈ Matrix.orthogonalGroup (Fin d) ℝ

/-- The image of a point. -/
def Rigid.point (g : Rigid d) (x : Vec d) : Vec d := g.Q *ᵥ x + g.τ
/-- The image of a vector. -/
def Rigid.vec (g : Rigid d) (v : Vec d) : Vec d := g.Q *ᵥ v
/-- The image of a matrix: conjugation. -/
def Rigid.mat (g : Rigid d) (M : Mat d) : Mat d := g.Q * M * g.Qᵀ

/-- A pure translation. -/
def Rigid.translation (τ : Vec d) : Rigid d := ⟨1, τ, Submonoid.one_mem _⟩

mutual
/-- Points move, directions, frames and momenta turn. -/
def Mfd.move (g : Rigid d) : Mfd d → Mfd d
  | .landmarks gd cot => .landmarks (fun i => g.point (gd i)) (fun i => g.vec (cot i))
  | .direction t gd dir cot cdir =>
    .direction t (fun i => g.point (gd i)) (fun i => g.vec (dir i)) (fun i => g.vec (cot i)) (fun i => g.vec (cdir i))
  | .frame gd R cot cR =>
    .frame (fun i => g.point (gd i)) (fun i => g.Q * R i) (fun i => g.vec (cot i)) (fun i => g.Q * cR i)
  | .empty => .empty
  | .compound ms => .compound (Mfd.moveAll g ms)
def Mfd.moveAll (g : Rigid d) : List (Mfd d) → List (Mfd d)
  | [] => []
  | m :: ms => m.move g :: Mfd.moveAll g ms
end

mutual
/-- Vectors turn, numbers stay. -/
def Ctrl.move (g : Rigid d) : Ctrl d → Ctrl d
  | .vecs h => .vecs fun i => g.vec (h i)
  | .scalars h => .scalars h
  | .scalar h => .scalar h
  | .vec h => .vec (g.vec h)
  | .none => .none
  | .list hs => .list (Ctrl.moveAll g hs)
def Ctrl.moveAll (g : Rigid d) : List (Ctrl d) → List (Ctrl d)
  | [] => []
  | h :: hs => h.move g :: Ctrl.moveAll g hs
end

/-- The symmetric matrix with coordinates `l` in the basis `eta`. -/
def strainMat (l : Fin (symDim d) → ℝ) : Mat d := Matrix.of fun b c => ∑ t, l t * etaOf d b c t
/-- The coordinates of the symmetric part of a matrix. -/
def strainCoord (M : Mat d) (t : Fin (symDim d)) : ℝ := ∑ b, ∑ c, M b c * etaOf d b c t
/-- How coordinates change when the symmetric matrix is conjugated. -/
def Rigid.strain (g : Rigid d) (l : Fin (symDim d) → ℝ) : Fin (symDim d) → ℝ := strainCoord (g.mat (strainMat l))

mutual
/-- The module with everything it holds moved: descriptors, momenta, controls and cached results. -/
def DefModule.move (g : Rigid d) : DefModule d → DefModule d
  | .translations m => .translations { m with
      gd := fun i => g.point (m.gd i), cot := fun i => g.vec (m.cot i), ctrl := fun i => g.vec (m.ctrl i) }
  | .implicit0 m => .implicit0 { m with
      gd := fun i => g.point (m.gd i), cot := fun i => g.vec (m.cot i), ctrl := fun i => g.vec (m.ctrl i) }
  | .oriented m => .oriented { m with
      gd := fun i => g.point (m.gd i), dir := fun i => g.vec (m.dir i), cot := fun i => g.vec (m.cot i), cdir := fun i => g.vec (m.cdir i) }
  | .constrained m => .constrained { m with gd := fun i => g.point (m.gd i), cot := fun i => g.vec (m.cot i) }
  | .globalTranslation m => .globalTranslation { m with ctrl := g.vec m.ctrl }
  | .linear m => .linear { m with gd := g.point m.gd, cot := g.vec m.cot }
  | .implicit1 m => .implicit1 { m with
      gd := fun i => g.point (m.gd i), R := fun i => g.Q * m.R i, cot := fun i => g.vec (m.cot i), cR := fun i => g.Q * m.cR i
      cache := m.cache.map fun k => ⟨fun q => g.strain (fun t => k.aqh (q.1, t)) q.2, fun q => g.strain (fun t => k.lambdas (q.1, t)) q.2,
        fun i => g.mat (k.moments i)⟩ }
  | .divFree m => .divFree { m with
      gd := fun i => g.point (m.gd i), cot := fun i => g.vec (m.cot i), ctrl := fun i => g.vec (m.ctrl i)
      lambdas := m.lambdas.map fun l => Sum.elim (fun i => l (.inl i)) fun q => g.vec (fun c => l (.inr (q.1, c))) q.2 }
  | .arap m => .arap { m with
      gd := fun i => g.point (m.gd i), cot := fun i => g.vec (m.cot i), ctrl := fun i => g.vec (m.ctrl i)
      lambdas := m.lambdas.map fun l => Sum.elim (fun q => g.strain (fun t => l (.inl (q.1, t))) q.2) fun q => g.vec (fun c => l (.inr (q.1, c))) q.2 }
  | .silent man => .silent (man.move g)
  | .compound ms => .compound (DefModule.moveAll g ms)
def DefModule.moveAll (g : Rigid d) : List (DefModule d) → List (DefModule d)
  | [] => []
  | m :: ms => m.move g :: DefModule.moveAll g ms
end

mutual
/-- The parameters of the module do not single out a place or a direction: the matrix of a linear
deformation commutes with the rotation, the functions of a constrained translation move with the
descriptors, and strains are only used in dimension two and three (the code raises in others). -/
def DefModule.Movable (g : Rigid d) : DefModule d → Prop
  | .constrained m => (∀ x, m.fsupp (fun i => g.point (x i)) = fun j => g.point (m.fsupp x j)) ∧
      ∀ x, m.fvec (fun i => g.point (x i)) = fun j => g.vec (m.fvec x j)
  | .linear m => g.mat m.A = m.A
  | .implicit1 _ => d = 2 ∨ d = 3
  | .arap _ => d = 2 ∨ d = 3
  | .compound ms => DefModule.AllMovable g ms
  | _ => True
def DefModule.AllMovable (g : Rigid d) : List (DefModule d) → Prop
  | [] => True
  | m :: ms => m.Movable g ∧ DefModule.AllMovable g ms
end

/-- What a shooting leaves, moved: the modules, the states and the controls; the costs stay. -/
def Shot.move (g : Rigid d) (r : Shot d) : Shot d := ⟨r.module.move g, r.costs, r.states.map (Mfd.move g), r.ctrls.map (Ctrl.move g)⟩

end
end Imodal
