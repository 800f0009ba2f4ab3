import Verif.Model.MeshUtils
import Verif.Model.Attachment
import Verif.Model.Registry
/-!
# Varifold and pointwise attachments, `imodal/Attachment/attachment_varifold.py`,
`attachment.py` and `attachment_l2.py`

A width of zero divides by zero in the kernel; the model answers `unmodelled`.
In three dimensions dividing by the length of a degenerate triangle gives NaN, which then
spreads; a number that may be NaN is an `Option`, `none` standing for NaN.
KeOps reductions are modelled by the sums that their formulas denote.
-/
set_option autoImplicit false
namespace Imodal
noncomputable section
variable {d : Nat}

/-! ## Two dimensions -/

/-- Midpoints and vectors of the segments of the closed curve (attachment_varifold.py 59-63). -/
def curveSegments (x : List (Vec 2)) : Py (List (Vec 2 × Vec 2)) := do
  let cx ← closeShape x
  return List.zipWith (fun b a => (fun c => (b c + a c) / 2, fun c => b c - a c)) ((cx.drop 1).take x.length) x

/-- `torch.norm` of a vector. -/
def tnorm (v : Vec d) : ℝ := Real.sqrt (∑ c, v c ^ 2)

open Classical in
/-- The entry of the masked sum for two segments (65-78); zero where the mask is not set. -/
def dotTerm (σ : ℝ) (p q : Vec 2 × Vec 2) : ℝ :=
  let xy := ∑ c, p.1 c * q.1 c
  let d2 := ∑ c, p.1 c * p.1 c + ∑ c, q.1 c * q.1 c - 2 * xy
  let kxy := Real.exp (-d2 / (2 * σ ^ 2))
  let vxvy := (∑ c, p.2 c * q.2 c) ^ 2
  if vxvy > 0 then kxy * vxvy / (tnorm p.2 * tnorm q.2) else 0

/-- `dot_varifold` (attachment_varifold.py 58-78). -/
def dotVarifold (σ : ℝ) (x y : List (Vec 2)) : Py ℝ := do
  let sx ← curveSegments x
  let sy ← curveSegments y
  return (sx.map fun p => (sy.map fun q => dotTerm σ p q).sum).sum

open Classical in
/-- `VarifoldAttachment2D_Torch.cost_varifold` (attachment_varifold.py 54-80). -/
def costVarifold2 (source target : List (Vec 2)) (σ : ℝ) : Py ℝ :=
  if σ = 0 then .error .unmodelled
  else do
    let ss ← dotVarifold σ source source
    let tt ← dotVarifold σ target target
    let st ← dotVarifold σ source target
    return ss + tt - 2 * st

/-! ## Three dimensions -/

/-- Addition with NaN. -/
def nadd : Option ℝ → Option ℝ → Option ℝ
  | some a, some b => some (a + b)
  | _, _ => none

/-- `torch.sum` with NaN. -/
def nsum : List (Option ℝ) → Option ℝ
  | [] => some 0
  | a :: l => nadd a (nsum l)

/-- A triangle of a mesh: centre, length and normalised normal, `none` for a row of NaN. -/
structure VFace where
  center : Vec 3
  length : ℝ
  unit : Option (Vec 3)

open Classical in
/-- `normals/lengths` (104-105). -/
def VFace.ofRow (r : Vec 3 × Vec 3 × ℝ) : VFace := ⟨r.1, r.2.2, if r.2.2 = 0 then none else some fun c => r.2.1 c / r.2.2⟩

/-- The summand for two triangles in `__convolve` (119-127): kernel, squared scalar product of the
normals, weights. -/
def vterm (σ : ℝ) (f g : VFace) : Option ℝ :=
  match f.unit, g.unit with
  | some u, some v => some (f.length * (kXY σ f.center g.center * ((∑ c, u c * v c) * ∑ c, u c * v c) * g.length))
  | _, _ => none

/-- `VarifoldAttachment3D_Torch.varifold_scalar_product` (126-127). -/
def vproduct (σ : ℝ) (x y : List VFace) : Option ℝ := nsum (x.map fun f => nsum (y.map fun g => vterm σ f g))

/-- The summand of the KeOps formula (139-155), `S` being `1/sigma/sigma`. -/
def vtermKeOps (σ : ℝ) (f g : VFace) : Option ℝ :=
  match f.unit, g.unit with
  | some u, some v => some (f.length * (Real.exp (-(1 / σ / σ) * sqDistance f.center g.center / 2) * (∑ c, u c * v c) ^ 2 * g.length))
  | _, _ => none

/-- `VarifoldAttachment3D_KeOps.varifold_scalar_product` (137-155). -/
def vproductKeOps (σ : ℝ) (x y : List VFace) : Option ℝ := nsum (x.map fun f => nsum (y.map fun g => vtermKeOps σ f g))

/-- A triangulated surface: vertices and faces. -/
abbrev Mesh := List (Vec 3) × List (Nat × Nat × Nat)

/-- `x + y - 2*z` with NaN. -/
def ncombine (x y z : Option ℝ) : Option ℝ :=
  match x, y, z with
  | some a, some b, some c => some (a + b - 2 * c)
  | _, _, _ => none

open Classical in
/-- `VarifoldAttachment3D.cost_varifold` (98-109) with the scalar product of one of the backends. -/
def costVarifold3 (product : ℝ → List VFace → List VFace → Option ℝ) (source target : Mesh) (σ : ℝ) : Py (Option ℝ) :=
  if σ = 0 then .error .unmodelled
  else do
    let s ← centersNormalsLengths source.1 source.2
    let t ← centersNormalsLengths target.1 target.2
    let fs := s.map VFace.ofRow
    let ft := t.map VFace.ofRow
    return ncombine (product σ ft ft) (product σ fs fs) (product σ fs ft)

/-! ## The attachments -/

/-- The source or target of an attachment, `source[0]` being the points. -/
inductive VShape
  | curve (points : List (Vec 2))
  | mesh (m : Mesh)

/-- `cost_varifold` of each class (54, 87, 98), see `varifoldAttachment` for their choice; other combinations of shapes are not modelled. -/
def VarifoldClass.cost : VarifoldClass → VShape → VShape → ℝ → Py (Option ℝ)
  | .d2 .torch, .curve x, .curve y, σ => do return some (← costVarifold2 x y σ)
  | .d2 .keops, _, _, _ => .error .notImplemented
  | .d3 .torch, .mesh m, .mesh n, σ => costVarifold3 vproduct m n σ
  | .d3 .keops, .mesh m, .mesh n, σ => costVarifold3 vproductKeOps m n σ
  | _, _, _, _ => .error .unmodelled

/-- `loss` (40-41): the sum of the costs for all widths. -/
def VarifoldClass.loss (k : VarifoldClass) (sigmas : List ℝ) (source target : VShape) : Py (Option ℝ) := do
  let cs ← sigmas.mapM (k.cost source target)
  return nsum cs

/-! ## Pointwise distances -/

/-- `EuclideanPointwiseDistanceAttachment.loss` (attachment.py 66-69). `x - y` needs equal numbers
of rows, or one row on one side, which is repeated. -/
def pointwiseLoss (x y : List (Vec d)) : Py ℝ :=
  if x.length = y.length then .ok (List.zipWith tdist x y).sum
  else match x, y with
    | [a], _ => .ok (y.map fun b => tdist a b).sum
    | _, [b] => .ok (x.map fun a => tdist a b).sum
    | _, _ => .error .runtime

/-- The `transform` argument of `L2NormAttachment` (attachment_l2.py 21-30). -/
inductive L2Kind
  | l2
  | fft
  | radon
  | smooth
  deriving DecidableEq

/-- `L2NormAttachment.__init__` (attachment_l2.py 9-30). -/
def l2Attachment (transform : Option String) : Py L2Kind :=
  if transform = some "l2" ∨ transform = none then .ok .l2
  else if transform = some "fft" then .ok .fft
  else if transform = some "radon" then .ok .radon
  else if transform = some "smooth" then .ok .smooth
  else .error .notImplemented

/-- `torch.dist(source, target)**2.` (attachment_l2.py 36-37), tensors flattened, of equal shapes. -/
def lossL2 (source target : List ℝ) : ℝ := Real.sqrt (List.zipWith (fun a b => (a - b) ^ 2) source target).sum ^ 2

/-- A tensor as shape and entries. -/
structure Tensor where
  shape : List Nat
  data : List ℝ
  size : data.length = shape.prod

/-- Splitting a flat tensor into rows of `w` entries. -/
def rowsOf (w : Nat) : Nat → List ℝ → List (List ℝ)
  | 0, _ => []
  | n + 1, l => l.take w :: rowsOf w n (l.drop w)

/-- `gauss_kernel(x, 0, sigma)` (kernels.py 34-41), one row. -/
def gaussRow (σ : ℝ) (r : List ℝ) : ℝ := Real.exp (-(r.map fun a => a ^ 2).sum / 2 / (σ * σ))

open Classical in
/-- `L2NormAttachment.loss` without scaling (attachment_l2.py 32-60), tensors of equal shapes; the
result `None` of the radon transform is `none`. `gauss_kernel` reads `x.shape[1]`, sums over
dimension 1 and divides by the bandwidth. requirements.txt pins torch 2.5.1, where `torch.fft` is a
module: calling it (attachment_l2.py 40) raises `TypeError` before the shapes matter. -/
def L2Kind.loss (k : L2Kind) (bandwidth : Option ℝ) (source target : Tensor) : Py (Option ℝ) :=
  if k = .fft then .error .type
  else if source.shape ≠ target.shape then .error .unmodelled
  else match k with
    | .l2 => .ok (some (lossL2 source.data target.data))
    | .radon => .ok none
    | .fft => .error .type
    | .smooth =>
      match bandwidth with
      | none => .error .runtime
      | some σ =>
        match source.shape with
        | [] => .error .index
        | [_] => .error .index
        | [h, w] => if σ = 0 then .error .unmodelled
          else .ok (some (lossL2 ((rowsOf w h source.data).map (gaussRow σ)) ((rowsOf w h target.data).map (gaussRow σ))))
        | _ => .error .unmodelled

/-- The scaling arguments of `L2NormAttachment` (attachment_l2.py 9-16): `scale=False`; `scale=True`
with empty settings, the default; `scale=True` with `{'size': (h, w)}`. Other settings are not modelled. -/
inductive Scaling
  | off
  | empty
  | size (h w : Nat)

/-- The entries of an `h × w` image after `torch.nn.functional.interpolate` to `h' × w'` in mode
`'nearest'`: entry `(i, j)` is the entry `(⌊i h / h'⌋, ⌊j w / w'⌋)` of the image. -/
def nearest (h w h' w' : Nat) (data : List ℝ) : List ℝ :=
  (List.range h').flatMap fun i => (List.range w').map fun j => data.getD (i * h / h' * w + j * w / w') 0

theorem nearest_length (h w h' w' : Nat) (data : List ℝ) : (nearest h w h' w' data).length = [h', w'].prod := by
  simp [nearest, List.length_flatMap]

/-- `interpolate_image(image, **scale_settings)` (sampling.py 180-186) on images with two dimensions:
without size and scale factor torch raises `ValueError`; empty images and sizes raise `RuntimeError`. -/
def interpolateImage (image : Tensor) : Scaling → Py Tensor
  | .off => .ok image
  | .empty => .error .value
  | .size h' w' =>
    match image.shape with
    | [h, w] => if h = 0 ∨ w = 0 ∨ h' = 0 ∨ w' = 0 then .error .runtime
      else .ok ⟨[h', w'], nearest h w h' w' image.data, nearest_length h w h' w' image.data⟩
    | _ => .error .unmodelled

/-- `L2NormAttachment.loss` (attachment_l2.py 32-34, 62-67): both images are scaled, the source first. -/
def L2Kind.lossScaled (k : L2Kind) (scaling : Scaling) (bandwidth : Option ℝ) (source target : Tensor) : Py (Option ℝ) := do
  let s ← interpolateImage source scaling
  let t ← interpolateImage target scaling
  k.loss bandwidth s t

/-- `attachment(source, target)` (attachment.py 38-39) on a loss that may be `None`:
`weight * None` raises `TypeError`. -/
def weighted (weight : ℝ) (loss : Py (Option ℝ)) : Py ℝ := do
  match ← loss with
  | none => .error .type
  | some x => return weight * x

end
end Imodal
