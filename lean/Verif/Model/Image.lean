import Verif.Model.Coords
import Verif.Model.MeshUtils
/-!
# Images: `imodal/Utilities/sampling.py` and `imodal/Models/deformable_image2d.py`

A bitmap of shape `(h, w)` is a function of row and column; only entries inside the shape are
read when the shape is not empty. Flattened tensors are lists in row-major order.
Not modelled: loading files, `interpolate_image`, devices.
-/
set_option autoImplicit false
namespace Imodal
noncomputable section

/-- `torch.clamp(z, 0, n - 1)`. -/
def clampIdx (n : Nat) (z : ℤ) : ℤ := min (max z 0) ((n : ℤ) - 1)

/-- Reading a bitmap at two integer indices. -/
def pix (I : Nat → Nat → ℝ) (i j : ℤ) : ℝ := I i.toNat j.toNat

/-- `deformed_intensities` (sampling.py 124-140) at one pixel position `(u, v)`. -/
def bilinear (h w : Nat) (I : Nat → Nat → ℝ) (u v : ℝ) : ℝ :=
  let u1 := clampIdx h ⌊u⌋
  let v1 := clampIdx w ⌊v⌋
  let u2 := clampIdx h (u1 + 1)
  let v2 := clampIdx w (v1 + 1)
  let fu := u - (u1 : ℝ)
  let fv := v - (v1 : ℝ)
  let gu := ((u1 + 1 : ℤ) : ℝ) - u
  let gv := ((v1 + 1 : ℤ) : ℝ) - v
  pix I u1 v1 * gu * gv + pix I u1 v2 * gu * fv + pix I u2 v1 * fu * gv + pix I u2 v2 * fu * fv

/-- `deformed_intensities` (sampling.py 117-140), flattened. The scales of `points2pixels` are
computed even without points; reading an empty bitmap raises; `view` needs one point per pixel. -/
def deformedIntensities (h w : Nat) (I : Nat → Nat → ℝ) (e : AABB ℝ) (points : List (ℝ × ℝ)) : Py (List ℝ) := do
  let _ ← points2pixels h w e (0, 0)
  let uv ← points.mapM (points2pixels h w e)
  if (h = 0 ∨ w = 0) ∧ points ≠ [] then .error .index
  else if points.length ≠ h * w then .error .runtime
  else return uv.map fun q => bilinear h w I q.1 q.2

/-- Reading a volume at three integer indices. -/
def vox (I : Nat → Nat → Nat → ℝ) (i j k : ℤ) : ℝ := I i.toNat j.toNat k.toNat

/-- `deformed_intensities3d` (sampling.py 151-177) at one voxel position. -/
def trilinear (n0 n1 n2 : Nat) (I : Nat → Nat → Nat → ℝ) (u v w : ℝ) : ℝ :=
  let u1 := clampIdx n0 ⌊u⌋
  let v1 := clampIdx n1 ⌊v⌋
  let w1 := clampIdx n2 ⌊w⌋
  let u2 := clampIdx n0 (u1 + 1)
  let v2 := clampIdx n1 (v1 + 1)
  let w2 := clampIdx n2 (w1 + 1)
  let fu := u - (u1 : ℝ)
  let fv := v - (v1 : ℝ)
  let fw := w - (w1 : ℝ)
  let gu := ((u1 + 1 : ℤ) : ℝ) - u
  let gv := ((v1 + 1 : ℤ) : ℝ) - v
  let gw := ((w1 + 1 : ℤ) : ℝ) - w
  vox I u1 v1 w1 * gu * gv * gw + vox I u1 v1 w2 * gu * gv * fw + vox I u1 v2 w1 * gu * fv * gw + vox I u1 v2 w2 * gu * fv * fw +
    vox I u2 v1 w1 * fu * gv * gw + vox I u2 v1 w2 * fu * gv * fw + vox I u2 v2 w1 * fu * fv * gw + vox I u2 v2 w2 * fu * fv * fw

/-- `deformed_intensities3d` (sampling.py 143-177) with `points2voxels_affine`
(usefulfunctions.py 186-192), flattened. -/
def deformedIntensities3d (n0 n1 n2 : Nat) (I : Nat → Nat → Nat → ℝ) (affine : Matrix (Fin 4) (Fin 4) ℝ) (points : List (Fin 3 → ℝ)) : Py (List ℝ) :=
  if (n0 = 0 ∨ n1 = 0 ∨ n2 = 0) ∧ points ≠ [] then .error .index
  else if points.length ≠ n0 * n1 * n2 then .error .runtime
  else .ok (points.map fun p => trilinear n0 n1 n2 I (applyLinear3d affine p 0) (applyLinear3d affine p 1) (applyLinear3d affine p 2))

/-- A row of two numbers. -/
def pairOf : List ℝ → Py (ℝ × ℝ)
  | [a, b] => .ok (a, b)
  | _ => .error .unmodelled

/-- `pixels2points(box.fill_count(shape), shape, extent)` (deformable_image2d.py 46, 101, 106). -/
def imageGrid (h w : Nat) (box extent : AABB ℝ) : Py (List (ℝ × ℝ)) := do
  let rows ← box.fillCount [h, w]
  let _ ← pixels2points h w extent (0, 0)
  rows.mapM fun r => do
    let q ← pairOf r
    pixels2points h w extent q

/-- A `DeformableImage`: shape, bitmap, extent, pixel extent and the points of its silent module. -/
structure DefImage where
  h : Nat
  w : Nat
  bitmap : Nat → Nat → ℝ
  extent : AABB ℝ
  pixelExtent : AABB ℝ
  points : List (ℝ × ℝ)

/-- The `extent` argument: `None`, the string `'match'` or a box. -/
inductive ExtentArg
  | none
  | isMatch
  | box (b : AABB ℝ)

/-- `DeformableImage.__init__` (deformable_image2d.py 13-49), the default output `'bitmap'`. -/
def DefImage.mk' (h w : Nat) (bitmap : Nat → Nat → ℝ) (extent : ExtentArg) : Py DefImage := do
  let checked ← match extent with
    | .box b => if b.dim ≠ 2 then (.error .runtime : Py Unit) else .ok ()
    | _ => .ok ()
  let _ := checked
  let pixelExtent ← AABB.ofArgs [.num 0, .num ((w : ℝ) - 1), .num 0, .num ((h : ℝ) - 1)]
  let ext ← match extent with
    | .none => AABB.ofArgs [.num 0, .num 1, .num 0, .num 1]
    | .isMatch => .ok pixelExtent
    | .box b => .ok b
  let pts ← imageGrid h w ext ext
  return { h, w, bitmap, extent := ext, pixelExtent, points := pts }

/-- The points of `_backward_module` (deformable_image2d.py 100-102). -/
def DefImage.backwardPoints (D : DefImage) : Py (List (ℝ × ℝ)) := imageGrid D.h D.w D.pixelExtent D.extent

/-- `_to_deformed` with `backward=True` and output `'bitmap'` (deformable_image2d.py 104, 152-153). -/
def DefImage.toDeformed (D : DefImage) (gd : List (ℝ × ℝ)) : Py (List ℝ) := deformedIntensities D.h D.w D.bitmap D.extent gd

/-- The `output` of an image: a bitmap, weighted points, or another string set through the property. -/
inductive ImgOutput
  | bitmap
  | points
  | other
  deriving DecidableEq

/-- `DeformableImage.__init__` (deformable_image2d.py 13-49) with its `output` argument (26). -/
def DefImage.mkOutput (h w : Nat) (bitmap : Nat → Nat → ℝ) (output : ImgOutput) (extent : ExtentArg) : Py DefImage :=
  if output = .other then .error .assertion else DefImage.mk' h w bitmap extent

/-- What an image hands to an attachment: a bitmap, or points with weights. Flattened tensors. -/
inductive ImgGeometry
  | bitmap (values : List ℝ)
  | points (positions : List (ℝ × ℝ)) (weights : List ℝ)

/-- `bitmap.flatten()`. -/
def flattenBitmap (h w : Nat) (I : Nat → Nat → ℝ) : List ℝ := (List.range h).flatMap fun i => (List.range w).map fun j => I i j

open Classical in
/-- `values/torch.sum(values)` (deformable_image2d.py 64, 156); a zero sum gives NaN, which is not modelled. -/
def normaliseWeights (values : List ℝ) : Py (List ℝ) :=
  if values.sum = 0 then .error .unmodelled else .ok (values.map fun x => x / values.sum)

/-- `geometry` (deformable_image2d.py 59-66). -/
def DefImage.geometry (D : DefImage) : ImgOutput → Py ImgGeometry
  | .bitmap => .ok (.bitmap (flattenBitmap D.h D.w D.bitmap))
  | .points => do
    let weights ← normaliseWeights (flattenBitmap D.h D.w D.bitmap)
    return .points D.points weights
  | .other => .error .value

/-- `_to_deformed` with `backward=True` (deformable_image2d.py 104, 152-158). -/
def DefImage.deformedGeometry (D : DefImage) (gd : List (ℝ × ℝ)) : ImgOutput → Py ImgGeometry
  | .bitmap => do
    let values ← deformedIntensities D.h D.w D.bitmap D.extent gd
    return .bitmap values
  | .points => do
    let values ← deformedIntensities D.h D.w D.bitmap D.extent gd
    let weights ← normaliseWeights values
    return .points gd weights
  | .other => .error .value

open Classical in
/-- `sample_from_greyscale` (sampling.py 86-94): the loop over the pixels. A pixel outside the
image raises `IndexError`; negative indices do not occur. -/
def greyLoop (h w : Nat) (I : Nat → Nat → ℝ) (threshold : ℝ) : List (List ℝ) → Py (List ((ℝ × ℝ) × ℝ))
  | [] => .ok []
  | r :: rs => do
    let q ← pairOf r
    if ⌊q.1⌋ < 0 ∨ (h : ℤ) ≤ ⌊q.1⌋ ∨ ⌊q.2⌋ < 0 ∨ (w : ℤ) ≤ ⌊q.2⌋ then .error .index
    else do
      let rest ← greyLoop h w I threshold rs
      return if pix I ⌊q.1⌋ ⌊q.2⌋ < threshold then rest else (q, pix I ⌊q.1⌋ ⌊q.2⌋) :: rest

/-- `sample_from_greyscale` (sampling.py 46-94) without centring and normalised weights:
positions with weights. `normalise_position` only computes two numbers that are not used (79-80),
which raises for an empty image. -/
def sampleFromGreyscale (h w : Nat) (I : Nat → Nat → ℝ) (threshold : ℝ) (normalisePosition : Bool) : Py (List ((ℝ × ℝ) × ℝ)) :=
  if normalisePosition = true ∧ (h = 0 ∨ w = 0) then .error .zeroDivision
  else do
    let box ← AABB.ofArgs [.num 0, .num (h : ℝ), .num 0, .num (w : ℝ)]
    let pixels ← box.fillCount [h, w]
    greyLoop h w I threshold pixels

/-- `mask_to_indices` (sampling.py 112-114): `meshgrid` of the index ranges, each grid masked,
then stacked. The mask is flattened. -/
def maskToIndices (shape : List Nat) (mask : List Bool) : Py (List (List Nat)) := do
  let grids := meshgrid (shape.map List.range)
  let cols ← grids.mapM fun g => selectRows g mask
  match cols with
  | [] => .error .runtime
  | c :: rest => if rest.all (fun t => t.length == c.length) then return stackRows c.length cols else .error .runtime

end
end Imodal
