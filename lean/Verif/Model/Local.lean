import Verif.Model.Modules
import Mathlib.Analysis.SpecialFunctions.Trigonometric.Basic
import Mathlib.LinearAlgebra.CrossProduct
/-!
# Local scaling and local rotation, `LocalConstrainedTranslations.py` 145-228

The two builders give a support function and a vector function to
`LocalConstrainedTranslations`. The functions are only called when a field, a cost or a
geodesic control is asked for, so a shape error shows there.
-/
set_option autoImplicit false
namespace Imodal
noncomputable section

/-- `[math.cos(2.*math.pi/3.*i), math.sin(2.*math.pi/3.*i)]` (LocalConstrainedTranslations.py 168, 206). -/
def radial3 (i : Fin 3) : Vec 2 := ![Real.cos (2 * Real.pi / 3 * (i : ℕ)), Real.sin (2 * Real.pi / 3 * (i : ℕ))]

/-- `[-math.sin(2.*math.pi/3.*i), math.cos(2.*math.pi/3.*i)]` (LocalConstrainedTranslations.py 203). -/
def tangential3 (i : Fin 3) : Vec 2 := ![-Real.sin (2 * Real.pi / 3 * (i : ℕ)), Real.cos (2 * Real.pi / 3 * (i : ℕ))]

/-- `tetra` (LocalConstrainedTranslations.py 209, 214). -/
def tetra : Fin 4 → Vec 3 := ![![1, 1, 1], ![1, -1, -1], ![-1, 1, -1], ![-1, -1, 1]]

/-- `gd.repeat(3, 1) + sigma/3. * …` (LocalConstrainedTranslations.py 171, 206). -/
def support3 (σ : ℝ) (gd : Fin 1 → Vec 2) (i : Fin 3) : Vec 2 := fun c => gd 0 c + σ / 3 * radial3 i c

/-- `f_support_3d` (LocalConstrainedTranslations.py 213-215). -/
def supportTetra (σ : ℝ) (gd : Fin 2 → Vec 3) (i : Fin 4) : Vec 3 := fun c => gd 0 c + σ / 3 * tetra i c

/-- `f_vectors_3d` (LocalConstrainedTranslations.py 208-211); `torch.cross` without `dim` takes the
first dimension of size three, which is the last one for a 4 × 3 tensor. -/
def vectorsTetra (gd : Fin 2 → Vec 3) (i : Fin 4) : Vec 3 := crossProduct (tetra i) fun c => gd 1 c - gd 0 c

/-- `LocalScaling(2, sigma, coeff, gd, cotan)` (LocalConstrainedTranslations.py 145-173). -/
def localScaling (σ coeff : ℝ) (gd cot : Fin 1 → Vec 2) (ctrl : ℝ) : Constrained 2 1 3 :=
  ⟨gd, cot, σ, coeff, support3 σ, fun _ => radial3, ctrl⟩

/-- `LocalRotation(2, …)` (LocalConstrainedTranslations.py 176-228). -/
def localRotation2 (σ coeff : ℝ) (gd cot : Fin 1 → Vec 2) (ctrl : ℝ) : Constrained 2 1 3 :=
  ⟨gd, cot, σ, coeff, support3 σ, fun _ => tangential3, ctrl⟩

/-- `LocalRotation(3, …)` (LocalConstrainedTranslations.py 221-228), with two descriptor points. -/
def localRotation3 (σ coeff : ℝ) (gd cot : Fin 2 → Vec 3) (ctrl : ℝ) : Constrained 3 2 4 :=
  ⟨gd, cot, σ, coeff, supportTetra σ, vectorsTetra, ctrl⟩

/-- `f_support` of `LocalScaling(dim, …)` for any dimension: a `3 × dim` tensor plus a `3 × 2`
tensor. The sizes must agree or one of them be one; a dimension of one broadcasts and is left
unmodelled. -/
def scalingSupport (d : Nat) (σ : ℝ) (gd : Fin 1 → Vec d) : Py (Fin 3 → Vec d) :=
  if h : d = 2 then .ok fun i c => gd 0 c + σ / 3 * radial3 i (Fin.cast h c)
  else if d = 1 then .error .unmodelled
  else .error .runtime

/-- `field_generator` of `LocalScaling(dim, …)` for any dimension. -/
def scalingField (d : Nat) (σ : ℝ) (gd : Fin 1 → Vec d) (ctrl : ℝ) : Py (FieldExpr d) :=
  match scalingSupport d σ gd with
  | .error e => .error e
  | .ok supp =>
    if h : d = 2 then .ok (.f0 .torch supp (fun i c => ctrl * radial3 i (Fin.cast h c)) σ)
    else .error .unmodelled

end
end Imodal
