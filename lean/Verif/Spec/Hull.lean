import Verif.Model.Hull
/-! What `scipy.spatial.ConvexHull` promises in the plane. -/
set_option autoImplicit false
namespace Imodal
noncomputable section

/-- `poly` lists the corners of the convex hull of `scatter` counterclockwise: at least three different points of `scatter`;
no point is to the right of an edge; a corner that is not an end of the edge is to its left. -/
structure CcwHull (scatter poly : List (Vec 2)) : Prop where
  three : 3 ≤ poly.length
  nodup : poly.Nodup
  mem : ∀ v ∈ poly, v ∈ scatter
  left : ∀ e ∈ edges (poly ++ poly.take 1), ∀ s ∈ scatter,
    0 ≤ (e.2 0 - e.1 0) * (s 1 - e.1 1) - (e.2 1 - e.1 1) * (s 0 - e.1 0)
  corner : ∀ e ∈ edges (poly ++ poly.take 1), ∀ s ∈ poly, s ≠ e.1 → s ≠ e.2 →
    0 < (e.2 0 - e.1 0) * (s 1 - e.1 1) - (e.2 1 - e.1 1) * (s 0 - e.1 0)

/-- The indices are those of such corners. -/
def HullOf (hull : List (Vec 2) → Py Hull) (scatter : List (Vec 2)) : Prop :=
  ∃ h, hull scatter = .ok h ∧ (∀ i ∈ h.vertices, i < scatter.length) ∧ CcwHull scatter (h.vertices.map fun i => scatter.getD i 0)

end
end Imodal
