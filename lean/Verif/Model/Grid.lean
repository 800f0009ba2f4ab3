import Verif.Model.Aabb
import Verif.Model.Registration
/-!
# Deformation grids (`SilentLandmark.py` 82-108, `deformable.py` 53-78)

The class of the same name in `DeformationModules/DeformationGrid.py` is not imported anywhere and not modelled.
-/
set_option autoImplicit false
namespace Imodal
noncomputable section
variable {d : Nat}

/-- `generate_mesh_grid` (meshgen.py 97-114), flattened grids. `zip` stops at the shortest of its arguments;
`torch.meshgrid` rejects an empty list. -/
def generateMeshGrid (b : AABB ℝ) (res : List Nat) : Py (List (List ℝ)) :=
  match linspaces b.kmin b.kmax res with
  | [] => .error .runtime
  | l :: ls => .ok (meshgrid (l :: ls))

/-- A row of a tensor of points as a vector. -/
def rowVec (r : List ℝ) : Vec d := fun c => r.getD c 0

/-- A tensor of points as a list of rows. -/
def pointRows {n : Nat} (x : Fin n → Vec d) : List (List ℝ) := List.ofFn fun i => List.ofFn (x i)

/-- A `DeformationGrid`, or the `DeformableGrid` which holds it: box, resolution, and the points and momenta of the
manifold. -/
structure DefGrid (d : Nat) where
  box : AABB ℝ
  res : List Nat
  n : Nat
  gd : Fin n → Vec d
  cot : Fin n → Vec d

/-- The constructors (SilentLandmark.py 88-97, deformable.py 54-56). Manifolds do not check the shapes of their
tensors, so a resolution with fewer entries than the box has dimensions gives a manifold whose points have too few
coordinates; this is not modelled. -/
def DefGrid.new (b : AABB ℝ) (res : List Nat) : Py (DefGrid d) :=
  match generateMeshGrid b res with
  | .error e => .error e
  | .ok grid =>
    match grid2vec grid with
    | .error e => .error e
    | .ok rows =>
      if b.dim = d ∧ rows.all (fun r => r.length == d) then .ok ⟨b, res, rows.length, fun i => rowVec rows[i], 0⟩
      else .error .unmodelled

/-- `togrid` (SilentLandmark.py 107-108) and, in a tuple of length one, `geometry` (deformable.py 62-67). -/
def DefGrid.togrid (G : DefGrid d) : Py (List (List ℝ)) := vec2grid d (pointRows G.gd) G.res

/-- The grid as a deformable: no backward flow (deformable.py 69-71) and `_to_deformed` (77-78), which returns the
tensor of points as it is. -/
def DefGrid.deformable (G : DefGrid d) : Deformable d (List (List ℝ)) := ⟨G.n, G.gd, G.cot, none, fun p => .ok (pointRows p.x)⟩

end
end Imodal
