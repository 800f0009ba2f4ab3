import Verif.Model.MeshUtils
/-!
# Convex hulls, `imodal/Utilities/meshutils.py` 69-102, 469-500

`scipy.spatial.ConvexHull` is a parameter: a function from points to the indices of the vertices and the
faces, or an exception. Left out: marking points of space (`scipy.spatial.Delaunay`).
-/
set_option autoImplicit false
namespace Imodal
noncomputable section
variable {d : Nat}

/-- What `ConvexHull(points)` computes: `vertices` and `simplices`. -/
structure Hull where
  vertices : List Nat
  simplices : List (List Nat)

/-- `points[hull.vertices]`. -/
def takeRows {β : Type} (points : List β) (idx : List Nat) : Py (List β) :=
  idx.foldr (fun i r => match points[i]?, r with
    | some p, .ok l => .ok (p :: l)
    | none, _ => .error .index
    | _, .error e => .error e) (.ok [])

/-- The type of the argument. -/
inductive ArrayKind | numpy | torch | other

/-- What `extract_convex_hull` returns. -/
inductive HullOut (d : Nat)
  | shape (points : List (Vec d))
  | mesh (points : List (Vec d)) (faces : List (List Nat))
  /-- The class `ValueError` itself. -/
  | valueErrorClass

/-- `extract_convex_hull` (meshutils.py 469-500). -/
def extractConvexHull (hull : List (Vec d) → Py Hull) (kind : ArrayKind) (points : List (Vec d)) : Py (HullOut d) :=
  match kind with
  | .other => .error .value
  | _ =>
    match hull points with
    | .error e => .error e
    | .ok h =>
      if d = 2 then (takeRows points h.vertices).map .shape
      else if d = 3 then (takeRows points h.vertices).map fun l => .mesh l h.simplices
      else .ok .valueErrorClass

/-- `area_convex_hull` (meshutils.py 69-102) for points and scatter of the plane. -/
def areaConvexHull (hull : List (Vec 2) → Py Hull) (points : List (Vec 2)) (scatter : Option (List (Vec 2))) (intersect : Option Bool) :
    Py (List Bool) :=
  match scatter with
  | none => .error .runtime
  | some s =>
    match extractConvexHull hull .torch s with
    | .error e => .error e
    | .ok (.shape c) => areaConvexShape points (some c) (some (-1)) (some (intersect.getD false))
    | .ok _ => .error .unmodelled

end
end Imodal
