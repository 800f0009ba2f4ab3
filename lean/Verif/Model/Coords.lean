import Verif.Model.Aabb
import Mathlib.Data.Real.Basic
import Mathlib.Analysis.SpecialFunctions.Trigonometric.Basic
import Mathlib.LinearAlgebra.Matrix.Notation
/-!
# Coordinate changes of `imodal/Utilities/usefulfunctions.py`
-/
set_option autoImplicit false
namespace Imodal
variable {𝕜 : Type} [Field 𝕜] [LinearOrder 𝕜]

/-- `kmin[i]` (`xmin`, `ymin`, `zmin`: aabb.py 151-173). -/
def AABB.lower (b : AABB 𝕜) (i : Nat) : Py 𝕜 :=
  match b.kmin[i]? with
  | some x => .ok x
  | none => .error .index

/-- `__length_index(i)` (`width`, `height`: aabb.py 175-188). -/
def AABB.side (b : AABB 𝕜) (i : Nat) : Py 𝕜 :=
  match b.kmax[i]?, b.kmin[i]? with
  | some hi, some lo => .ok (hi - lo)
  | _, _ => .error .index

/-- Python division of numbers. -/
def pyDiv (a b : 𝕜) : Py 𝕜 := if b = 0 then .error .zeroDivision else .ok (a / b)

/-- `points2pixels(points, frame_shape, frame_extent)` (usefulfunctions.py 140-149) for one
point, frame shape `(h, w)`; the result is the pair (row, column). -/
def points2pixels (h w : Nat) (e : AABB 𝕜) (p : 𝕜 × 𝕜) : Py (𝕜 × 𝕜) := do
  let width ← e.side 0
  let su ← pyDiv ((w : 𝕜) - 1) width
  let height ← e.side 1
  let sv ← pyDiv ((h : 𝕜) - 1) height
  let xmin ← e.lower 0
  let ymin ← e.lower 1
  return (sv * (p.2 - ymin), su * (p.1 - xmin))

/-- `points2pixels(..., toindices=True)` (usefulfunctions.py 145-147). -/
def points2pixelsIdx [FloorRing 𝕜] (h w : Nat) (e : AABB 𝕜) (p : 𝕜 × 𝕜) : Py (Int × Int) := do
  let q ← points2pixels h w e p
  return (⌊q.1⌋, ⌊q.2⌋)

/-- `pixels2points` (usefulfunctions.py 152-158) for one pixel position (row, column). -/
def pixels2points (h w : Nat) (e : AABB 𝕜) (q : 𝕜 × 𝕜) : Py (𝕜 × 𝕜) := do
  let width ← e.side 0
  let sx ← pyDiv width ((w : 𝕜) - 1)
  let height ← e.side 1
  let sy ← pyDiv height ((h : 𝕜) - 1)
  let xmin ← e.lower 0
  let ymin ← e.lower 1
  return (sx * q.2 + xmin, sy * q.1 + ymin)

/-- `[(shape-1)/extent for shape, extent in zip(frame_shape, frame_extent.shape)]`
(usefulfunctions.py 162). -/
def nelScales : List Nat → List 𝕜 → Py (List 𝕜)
  | n :: ns, s :: ss => do
    let q ← pyDiv ((n : 𝕜) - 1) s
    let qs ← nelScales ns ss
    return q :: qs
  | _, _ => return []

/-- `[extent/(shape-1) for ...]` (usefulfunctions.py 173). -/
def nelScalesInv : List Nat → List 𝕜 → Py (List 𝕜)
  | n :: ns, s :: ss => do
    let q ← pyDiv s ((n : 𝕜) - 1)
    let qs ← nelScalesInv ns ss
    return q :: qs
  | _, _ => return []

/-- `points2nel` (usefulfunctions.py 161-169) for one point. -/
def points2nel (shape : List Nat) (e : AABB 𝕜) (p : List 𝕜) : Py (List 𝕜) := do
  let sc ← nelScales shape e.shape
  return List.zipWith (fun s q => s * q) sc (List.zipWith (fun x m => x - m) p e.kmin)

/-- `nel2points` (usefulfunctions.py 172-177) for one position. -/
def nel2points (shape : List Nat) (e : AABB 𝕜) (q : List 𝕜) : Py (List 𝕜) := do
  let sc ← nelScalesInv shape e.shape
  return List.zipWith (fun x m => x + m) (List.zipWith (fun s x => s * x) sc q) e.kmin

/-! ## Rotations -/

open Real

/-- `rot2d` (usefulfunctions.py 43-45). -/
noncomputable def rot2d (θ : ℝ) : Matrix (Fin 2) (Fin 2) ℝ :=
  !![cos θ, -sin θ; sin θ, cos θ]

/-- `torch.stack([torch.stack(l_j, dim=1) for l_j in ls], dim=2)` at one batch index: entry
`(i, j)` is the `i`-th member of list `j`. -/
def stack12 {n : Nat} (ls : Fin n → Fin n → ℝ) : Matrix (Fin n) (Fin n) ℝ :=
  Matrix.of fun i j => ls j i

/-- `rot2d_vec` (usefulfunctions.py 48-53) at one batch index. -/
noncomputable def rot2dVec {N : Type} (θ : N → ℝ) (n : N) : Matrix (Fin 2) (Fin 2) ℝ :=
  stack12 ![![cos (θ n), -sin (θ n)], ![sin (θ n), cos (θ n)]]

/-- `rot3d_x` (usefulfunctions.py 56-59). -/
noncomputable def rot3dX (θ : ℝ) : Matrix (Fin 3) (Fin 3) ℝ :=
  !![1, 0, 0; 0, cos θ, -sin θ; 0, sin θ, cos θ]

/-- `rot3d_y` (usefulfunctions.py 62-65). -/
noncomputable def rot3dY (θ : ℝ) : Matrix (Fin 3) (Fin 3) ℝ :=
  !![cos θ, 0, -sin θ; 0, 1, 0; sin θ, 0, cos θ]

/-- `rot3d_z` (usefulfunctions.py 68-71). -/
noncomputable def rot3dZ (θ : ℝ) : Matrix (Fin 3) (Fin 3) ℝ :=
  !![cos θ, -sin θ, 0; sin θ, cos θ, 0; 0, 0, 1]

/-- `rot3d_x_vec` (usefulfunctions.py 74-84): stacked as above, then `transpose(1, 2)`. -/
noncomputable def rot3dXVec {N : Type} (θ : N → ℝ) (n : N) : Matrix (Fin 3) (Fin 3) ℝ :=
  (stack12 ![![1, 0, 0], ![0, cos (θ n), -sin (θ n)], ![0, sin (θ n), cos (θ n)]]).transpose

/-- `rot3d_y_vec` (usefulfunctions.py 87-97). -/
noncomputable def rot3dYVec {N : Type} (θ : N → ℝ) (n : N) : Matrix (Fin 3) (Fin 3) ℝ :=
  (stack12 ![![cos (θ n), 0, sin (θ n)], ![0, 1, 0], ![-sin (θ n), 0, cos (θ n)]]).transpose

/-- `rot3d_z_vec` (usefulfunctions.py 100-110). -/
noncomputable def rot3dZVec {N : Type} (θ : N → ℝ) (n : N) : Matrix (Fin 3) (Fin 3) ℝ :=
  (stack12 ![![cos (θ n), -sin (θ n), 0], ![sin (θ n), cos (θ n), 0], ![0, 0, 1]]).transpose

/-- `translation_matrix4d` (usefulfunctions.py 113-117). -/
def translationMatrix4d (t : Fin 3 → ℝ) : Matrix (Fin 4) (Fin 4) ℝ :=
  !![1, 0, 0, t 0; 0, 1, 0, t 1; 0, 0, 1, t 2; 0, 0, 0, 1]

/-- `scale_matrix4d` (usefulfunctions.py 120-124). -/
def scaleMatrix4d (s : Fin 3 → ℝ) : Matrix (Fin 4) (Fin 4) ℝ :=
  !![s 0, 0, 0, 0; 0, s 1, 0, 0; 0, 0, s 2, 0; 0, 0, 0, 1]

/-- `rot = torch.eye(4); rot[0:3, 0:3] = m` (usefulfunctions.py 128-129). -/
def embed4 (m : Matrix (Fin 3) (Fin 3) ℝ) : Matrix (Fin 4) (Fin 4) ℝ :=
  !![m 0 0, m 0 1, m 0 2, 0; m 1 0, m 1 1, m 1 2, 0; m 2 0, m 2 1, m 2 2, 0; 0, 0, 0, 1]

/-- `rigid_deformation3d` (usefulfunctions.py 127-130). -/
noncomputable def rigidDeformation3d (angles t : Fin 3 → ℝ) : Matrix (Fin 4) (Fin 4) ℝ :=
  translationMatrix4d t * embed4 (rot3dX (angles 0) * rot3dY (angles 1) * rot3dZ (angles 2))

/-- `apply_linear_transform_3d` (usefulfunctions.py 38-40) for one point: append a one,
multiply (`linear_transform`, 20-35), keep the first three coordinates. -/
def applyLinear3d (A : Matrix (Fin 4) (Fin 4) ℝ) (p : Fin 3 → ℝ) : Fin 3 → ℝ :=
  let q := A.mulVec ![p 0, p 1, p 2, 1]
  ![q 0, q 1, q 2]

/-- `voxels2points_affine` (usefulfunctions.py 180-183) for one voxel; the shape is not used. -/
def voxels2pointsAffine (A : Matrix (Fin 4) (Fin 4) ℝ) (v : Fin 3 → ℝ) : Fin 3 → ℝ := applyLinear3d A v

/-- `points2voxels_affine` (usefulfunctions.py 186-192) for one point; the shape is not used. -/
def points2voxelsAffine (A : Matrix (Fin 4) (Fin 4) ℝ) (p : Fin 3 → ℝ) : Fin 3 → ℝ := applyLinear3d A p

/-- `points2voxels_affine(…, toindices=True)` (usefulfunctions.py 189-190). -/
noncomputable def points2voxelsAffineIdx (A : Matrix (Fin 4) (Fin 4) ℝ) (p : Fin 3 → ℝ) : Fin 3 → ℤ := fun i => ⌊points2voxelsAffine A p i⌋

/-- A box with three axes given by its bounds, for `extent_transformation4d`. -/
structure Extent3 where
  lo : Fin 3 → ℝ
  hi : Fin 3 → ℝ

/-- `extent_transformation4d` (usefulfunctions.py 133-137); sides of the first extent must be
non-zero (Python raises `ZeroDivisionError` otherwise). -/
noncomputable def extentTransformation4d (e₀ e₁ : Extent3) : Py (Matrix (Fin 4) (Fin 4) ℝ) :=
  open Classical in
  if ∃ i, e₀.hi i - e₀.lo i = 0 then .error .zeroDivision else
  .ok (scaleMatrix4d (fun i => (e₁.hi i - e₁.lo i) / (e₀.hi i - e₀.lo i)) *
    translationMatrix4d (fun i => e₁.lo i - e₀.lo i))

end Imodal
