import Verif.Model.Aabb
import Verif.Model.Kernel
import Verif.Model.MeshUtils
import Mathlib.Analysis.SpecialFunctions.Complex.Arg
/-!
# What the plotting functions hand to matplotlib

Models imodal/Utilities/plotting.py: the coordinates of the lines, arrows, ellipses, rectangles, paths and axis
limits, over the reals. Matplotlib itself is not modelled, apart from `Path` refusing a list of codes that is not
as long as the list of vertices.

Simplified: keyword arguments that are passed on are left out. The arrays of a grid have the same shape, and the
index of the growth constant is in range.
-/
set_option autoImplicit false
namespace Imodal
noncomputable section

/-- `plot_grid` (plotting.py 16-33): the rows of the grid, then its columns. -/
def plotGrid (n m : Nat) (gx gy : Nat → Nat → ℝ) : List (List (ℝ × ℝ)) :=
  ((List.range n).map fun i => (List.range m).map fun j => (gx i j, gy i j)) ++
    (List.range m).map fun j => (List.range n).map fun i => (gx i j, gy i j)

/-- `FancyArrowPatch(start, end, arrowstyle)`; `inward` if the style has a negative length of head. -/
structure Arrow where
  start : Vec 2
  stop : Vec 2
  inward : Prop

/-- The frame of a point: `R[i]`, or `np.eye(2)` without `R` (plotting.py 65-68). -/
def frameOf (R : Option (Mat 2)) : Mat 2 := R.getD 1

/-- One turn of the loop of `plot_C_arrows` (plotting.py 55-78), for a point, its growth constants and its
frame: the arrow along the first axis, then the one along the second. -/
def plotArrows (pos : Vec 2) (C : Vec 2) (R : Option (Mat 2)) (scale : ℝ) : List Arrow :=
  let c : Vec 2 := fun k => scale * C k
  let top := (frameOf R).mulVec ![0, c 1 / 2] + pos
  let bot := (frameOf R).mulVec (-![0, c 1 / 2]) + pos
  let left := (frameOf R).mulVec (-![c 0 / 2, 0]) + pos
  let right := (frameOf R).mulVec ![c 0 / 2, 0] + pos
  [⟨left, right, c 0 ≤ 0⟩, ⟨bot, top, c 1 ≤ 0⟩]

/-- `Ellipse(xy, width, height, angle)`, the angle in degrees. -/
structure EllipsePatch where
  xy : Vec 2
  width : ℝ
  height : ℝ
  angle : ℝ

/-- `torch.atan2(R[1, 0], R[0, 0])/math.pi*180.` (plotting.py 100-103), 0 without `R`. -/
def frameAngle : Option (Mat 2) → ℝ
  | none => 0
  | some R => Complex.arg ⟨R 0 0, R 1 0⟩ / Real.pi * 180

/-- One turn of the loop of `plot_C_ellipses` (plotting.py 105-113). -/
def plotEllipse (pos : Vec 2) (C : Vec 2) (R : Option (Mat 2)) (scale : ℝ) : EllipsePatch :=
  ⟨pos, |scale * C 0|, |scale * C 1|, frameAngle R⟩

/-- `mean` of a pair of limits. -/
def limMean (l : ℝ × ℝ) : ℝ := (l.1 + l.2) / 2

/-- `plot_radius` (plotting.py 129-133): the maximum over the limits of all three axes. -/
def plotRadius (x y z : ℝ × ℝ) : ℝ :=
  max (max (max |x.1 - limMean x| |x.2 - limMean x|) (max |y.1 - limMean y| |y.2 - limMean y|)) (max |z.1 - limMean z| |z.2 - limMean z|)

/-- `set_aspect_equal_3d` (plotting.py 116-137): the new limits of the three axes. -/
def aspectEqual (x y z : ℝ × ℝ) : (ℝ × ℝ) × (ℝ × ℝ) × (ℝ × ℝ) :=
  let r := plotRadius x y z
  ((limMean x - r, limMean x + r), (limMean y - r, limMean y + r), (limMean z - r, limMean z + r))

/-- `Rectangle(xy, width, height)`. -/
structure RectPatch where
  x : ℝ
  y : ℝ
  width : ℝ
  height : ℝ

/-- `plot_aabb` (plotting.py 140-141): the corner is `(aabb.ymin, aabb.xmin)`; a box without a second axis has
no `ymin`. -/
def plotAabb (b : AABB ℝ) : Py RectPatch :=
  match b.kmin, b.kmax with
  | x0 :: y0 :: _, x1 :: y1 :: _ => .ok ⟨y0, x0, x1 - x0, y1 - y0⟩
  | _, _ => .error .index

/-- The codes of a `matplotlib.path.Path`. -/
inductive PathCode where
  | moveTo
  | lineTo
  | closePoly
  deriving DecidableEq

/-- `Path(vertices, codes)`: as many codes as vertices. -/
structure PlotPath where
  vertices : List (ℝ × ℝ)
  codes : List PathCode

/-- `Path(vertices, codes)` raises ValueError if there are not as many codes as vertices. -/
def PlotPath.new (vertices : List (ℝ × ℝ)) (codes : List PathCode) : Py PlotPath :=
  if vertices.length = codes.length then .ok ⟨vertices, codes⟩ else .error .value

/-- `plot_polyline` (plotting.py 144-155). `[LINETO]*k` is empty for `k` below one. -/
def plotPolyline (polyline : List (ℝ × ℝ)) (close : Bool) : Py PlotPath :=
  let codes := .moveTo :: List.replicate (polyline.length - 1) .lineTo
  if close then PlotPath.new (polyline ++ [(0, 0)]) (codes ++ [.closePoly]) else PlotPath.new polyline codes

/-- The colours of `plot_basis3d`. -/
inductive AxisColour where
  | red
  | green
  | blue
  deriving DecidableEq

/-- One call of `quiver`: the arrows go from the points along the vectors times the length. -/
structure Quiver where
  colour : AxisColour
  arrows : List (Vec 3 × Vec 3)

/-- `plot_basis3d` (plotting.py 158-161): one call per column of the bases. Numbers of points and of bases that
differ raise ValueError in `quiver`, except that one of either is repeated, which is left out. -/
def plotBasis3d (points : List (Vec 3)) (basis : List (Mat 3)) (length : ℝ) : Py (List Quiver) :=
  if points.length = basis.length then
    .ok ([(AxisColour.red, 0), (.green, 1), (.blue, 2)].map fun c => ⟨c.1, List.zipWith (fun p B => (p, fun a => p a + length * B a c.2)) points basis⟩)
  else if points.length = 1 ∨ basis.length = 1 then .error .unmodelled
  else .error .value

/-- `plot_closed_shape` (plotting.py 11-13): the vertices given to `plt.plot`. -/
def plotClosedShape (shape : List (ℝ × ℝ)) : Py (List (ℝ × ℝ)) := closeShape shape

end
end Imodal
