import Verif.Model.Py
import Mathlib.Analysis.SpecialFunctions.Exp
import Mathlib.Algebra.BigOperators.Fin
import Mathlib.Data.Matrix.Mul
/-!
# Gaussian kernel, `imodal/Kernels/kernels.py`

Tensors are real-valued functions of their indices. A tensor with `k` trailing indices in
`Fin d` is a function on `Fin k → Fin d`. Functions that act row by row on a list of
points are modelled on one row; flattening a pair of indices by `view`/`reshape`
(kernels.py 11, and the matching `reshape` at the call sites) is left out.
-/
set_option autoImplicit false
namespace Imodal
noncomputable section

/-- A point or vector of dimension `d`. -/
abbrev Vec (d : Nat) := Fin d → ℝ
/-- A `d × d` array. -/
abbrev Mat (d : Nat) := Matrix (Fin d) (Fin d) ℝ
/-- A tensor with `k` indices in `Fin d`. -/
abbrev Tens (d k : Nat) := (Fin k → Fin d) → ℝ

variable {d : Nat}

/-- `rel_differences` (kernels.py 10-11), one pair. -/
def relDiff (x y : Vec d) : Vec d := fun c => x c - y c

/-- `sqdistances` (kernels.py 19-21), one entry. -/
def sqDistance (x y : Vec d) : ℝ := ∑ c, (x c - y c) ^ 2

/-- `K_xy` (kernels.py 29-31), the entry of two points. -/
def kXY (σ : ℝ) (x y : Vec d) : ℝ := Real.exp (-(1 / 2) * sqDistance x y / σ ^ 2)

/-- `K_xx` (kernels.py 24-26). -/
def kXX {n : Nat} (σ : ℝ) (x : Fin n → Vec d) : Fin n → Fin n → ℝ :=
  fun i j => Real.exp (-(1 / 2) * sqDistance (x i) (x j) / σ ^ 2)

/-- `k_0` of `gauss_kernel` (kernels.py 38-39). -/
def gauss0 (σ : ℝ) (x : Vec d) : ℝ := Real.exp (-(∑ c, x c ^ 2) / 2 / (σ * σ))

/-- `gauss_kernel(x, k, sigma)` on one row (kernels.py 34-47): a tensor with `k` indices;
`none` is the implicit `return None` for other orders. -/
def gaussKernel (σ : ℝ) (k : Nat) (x : Vec d) : Py (Option (Tens d k)) :=
  if k = 0 then .ok (some fun _ => gauss0 σ x)
  else if h1 : k = 1 then
    .ok (some fun I => -gauss0 σ x * x (I ⟨0, by omega⟩) / (σ * σ))
  else if h2 : k = 2 then
    .ok (some fun I =>
      gauss0 σ x * (-(if I ⟨0, by omega⟩ = I ⟨1, by omega⟩ then 1 else 0)
        + x (I ⟨0, by omega⟩) * x (I ⟨1, by omega⟩) / (σ * σ)) / (σ * σ))
  else if k = 3 then .error .notImplemented
  else .ok none

end
end Imodal
