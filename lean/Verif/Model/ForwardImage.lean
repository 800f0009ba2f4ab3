import Verif.Model.Image
import Mathlib.LinearAlgebra.Matrix.NonsingularInverse
import Mathlib.Analysis.SpecialFunctions.Pow.Real
/-!
# Images deformed forward

`DeformableImage._to_deformed` with `backward=False` (`imodal/Models/deformable_image2d.py` 104-150): the
points have been carried along by the deformation, and where a pixel comes from is estimated from the
nearest point and finite differences.

Grids of points are functions of row and column. The index of the nearest point is a parameter:
`torch.topk` (111) may return any of several nearest ones.
-/
set_option autoImplicit false
namespace Imodal
noncomputable section

/-- Points by row and column; coordinates `x` and `y`. -/
abbrev PointGrid := Nat → Nat → Fin 2 → ℝ

/-- `torch.norm(pixel_grid[0] - pixel_grid[1])` (118): the point after the first is in the next column,
or in the next row if there is one column. -/
def gridStep (w : Nat) (P : PointGrid) : ℝ :=
  let q := if 2 ≤ w then P 0 1 else P 1 0
  Real.sqrt (∑ a, (P 0 0 a - q a) ^ 2)

/-- `diff` (117, 123-132): forward differences along the columns and the rows, zero in the last ones. -/
def gridDiff (h w : Nat) (step : ℝ) (gd : PointGrid) (i j : Nat) : Matrix (Fin 2) (Fin 2) ℝ := fun a b =>
  if b = 0 then if j + 1 < w then (gd i (j + 1) a - gd i j a) / step else 0
  else if i + 1 < h then (gd (i + 1) j a - gd i j a) / step else 0

/-- `[1:-1, 1:-1]`. -/
def Inner (h w i j : Nat) : Prop := 1 ≤ i ∧ i + 1 < h ∧ 1 ≤ j ∧ j + 1 < w

open Classical in
/-- `diff_inv` (134-135): zero at the border. -/
def gridDiffInv (h w : Nat) (step : ℝ) (gd : PointGrid) (i j : Nat) : Matrix (Fin 2) (Fin 2) ℝ :=
  if Inner h w i j then (gridDiff h w step gd i j)⁻¹ else 0

open Classical in
/-- The estimated grid `grid_inv` (deformable_image2d.py 105-149). One pixel alone has no second point
(118); `torch.inverse` raises for a singular matrix (135). A step of zero gives NaN, which is not
modelled. -/
def invertGrid (h w : Nat) (near : Nat → Nat → Nat × Nat) (P gd : PointGrid) : Py PointGrid :=
  if h * w < 2 then .error .index
  else if gridStep w P = 0 then .error .unmodelled
  else if ∃ i j, Inner h w i j ∧ (gridDiff h w (gridStep w P) gd i j).det = 0 then .error .linalg
  else .ok fun i j =>
    let n := near i j
    if Inner h w i j then P n.1 n.2 + (gridDiffInv h w (gridStep w P) gd n.1 n.2).mulVec (P i j - gd n.1 n.2) else P n.1 n.2

/-- `vec2grid` (119-120) of points in rows. -/
def gridOf (w : Nat) (l : List (ℝ × ℝ)) : PointGrid := fun i j => ![(l.getD (i * w + j) (0, 0)).1, (l.getD (i * w + j) (0, 0)).2]

/-- `grid2vec(*grid_inv)` (149). -/
def gridRows (h w : Nat) (g : PointGrid) : List (ℝ × ℝ) := (List.range h).flatMap fun i => (List.range w).map fun j => (g i j 0, g i j 1)

/-- `_to_deformed` with `backward=False` (deformable_image2d.py 104-158) for points `gd`. -/
def DefImage.forwardGeometry (D : DefImage) (near : Nat → Nat → Nat × Nat) (gd : List (ℝ × ℝ)) (output : ImgOutput) : Py ImgGeometry :=
  match D.backwardPoints with
  | .error e => .error e
  | .ok P =>
    if gd.length ≠ D.h * D.w then .error .runtime
    else
      match invertGrid D.h D.w near (gridOf D.w P) (gridOf D.w gd) with
      | .error e => .error e
      | .ok g => D.deformedGeometry (gridRows D.h D.w g) output

end
end Imodal
