import Verif.Model.Plotting
/-!
What is seen of lines, paths, ellipses and rectangles.
-/
set_option autoImplicit false
namespace Imodal
namespace Spec
noncomputable section

/-- The segments of a line through vertices. -/
def segments {β : Type} (l : List β) : List (β × β) := l.zip l.tail

/-- The segments of a path: `MOVETO` starts at a vertex, `LINETO` goes on to a vertex, `CLOSEPOLY` goes back to the
start whatever its vertex. -/
def traced (start cur : ℝ × ℝ) : List ((ℝ × ℝ) × PathCode) → List ((ℝ × ℝ) × (ℝ × ℝ))
  | [] => []
  | (v, .moveTo) :: r => traced v v r
  | (v, .lineTo) :: r => (cur, v) :: traced start v r
  | (_, .closePoly) :: r => (cur, start) :: traced start start r

/-- The segments of a path; the first code of a path has to be `MOVETO`. -/
def pathSegments (P : PlotPath) : List ((ℝ × ℝ) × (ℝ × ℝ)) := traced (0, 0) (0, 0) (P.vertices.zip P.codes)

/-- The rotation by an angle in degrees. -/
def turn (a : ℝ) : Mat 2 := !![Real.cos (a * Real.pi / 180), -Real.sin (a * Real.pi / 180); Real.sin (a * Real.pi / 180), Real.cos (a * Real.pi / 180)]

/-- The points of an ellipse with given full axes, turned by an angle about its centre. -/
def ellipse (e : EllipsePatch) : Set (Vec 2) := {p | ∃ u : Vec 2, u 0 ^ 2 + u 1 ^ 2 = 1 ∧ p = (turn e.angle).mulVec ![e.width / 2 * u 0, e.height / 2 * u 1] + e.xy}

/-- The points of a rectangle. -/
def rectangle (r : RectPatch) : Set (ℝ × ℝ) := {p | r.x ≤ p.1 ∧ p.1 ≤ r.x + r.width ∧ r.y ≤ p.2 ∧ p.2 ≤ r.y + r.height}

/-- The points between two limits of an axis, in whatever order they are given. -/
def between (l : ℝ × ℝ) : Set ℝ := {t | min l.1 l.2 ≤ t ∧ t ≤ max l.1 l.2}

end
end Spec
end Imodal
