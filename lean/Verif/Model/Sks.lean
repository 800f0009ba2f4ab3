import Verif.Model.Field
import Mathlib.LinearAlgebra.Matrix.NonsingularInverse
import Mathlib.Data.Matrix.Block
import Mathlib.Data.Fin.VecNotation
import Mathlib.Analysis.SpecialFunctions.Pow.Real
/-!
# Strain basis and constraint matrices, `imodal/Kernels/SKS.py`, and linear solves

A matrix of shape `(s*N, s*N)` obtained by flattening is indexed by pairs `(n, t)`, where
`n*s + t` is the flat index; the `view`/`permute` calls are left out.
-/
set_option autoImplicit false
namespace Imodal
noncomputable section
variable {d : Nat}

/-- `int(dim*(dim+1)/2)` (SKS.py 16). -/
def symDim (d : Nat) : Nat := d * (d + 1) / 2

/-- `1 / math.sqrt(2)` (SKS.py 10). -/
def invSqrt2 : ℝ := 1 / Real.sqrt 2

/-- `eta(dim)` (SKS.py 9-29). -/
def eta (d : Nat) : Py (Fin d → Fin d → Fin (symDim d) → ℝ) :=
  if d = 2 then .ok fun i j t =>
    -- the literal table of lines 12-13
    if i.val = 0 ∧ j.val = 0 then (if t.val = 0 then 1 else 0)
    else if i.val = 0 ∧ j.val = 1 then (if t.val = 1 then invSqrt2 else 0)
    else if i.val = 1 ∧ j.val = 0 then (if t.val = 1 then invSqrt2 else 0)
    else (if t.val = 2 then 1 else 0)
  else if d = 3 then .ok fun i j t =>
    -- zeros, then the assignments of lines 17-25
    if i.val = j.val ∧ t.val = i.val then 1
    else if i.val = 0 ∧ j.val = 1 ∧ t.val = 3 then invSqrt2
    else if i.val = 1 ∧ j.val = 0 ∧ t.val = 3 then invSqrt2
    else if i.val = 0 ∧ j.val = 2 ∧ t.val = 4 then invSqrt2
    else if i.val = 2 ∧ j.val = 0 ∧ t.val = 4 then invSqrt2
    else if i.val = 1 ∧ j.val = 2 ∧ t.val = 5 then invSqrt2
    else if i.val = 2 ∧ j.val = 1 ∧ t.val = 5 then invSqrt2
    else 0
  else .error .notImplemented

/-- The attribute `eta` of a module that was built. Where `eta(dim)` raises no module exists;
the value is then irrelevant and set to zero. -/
def etaOf (d : Nat) : Fin d → Fin d → Fin (symDim d) → ℝ :=
  match eta d with
  | .ok e => e
  | .error _ => fun _ _ _ => 0

/-- `einsum("rs, nst, mru -> tumn", eye, eta, eta)` (ImplicitModule1.py 145-148,
ImplicitARAP.py 50-53). -/
def sksU (d : Nat) (t u : Fin (symDim d)) (m n : Fin d) : ℝ :=
  ∑ r, ∑ s, eye r s * etaOf d n s t * etaOf d m r u

/-- One row of `gauss_kernel(rows, 1, sigma)`. -/
def gaussRow1 (σ : ℝ) (x : Vec d) (c : Fin d) : ℝ :=
  match gaussKernel σ 1 x with
  | .ok (some t) => t fun _ => c
  | _ => 0

/-- One row of `gauss_kernel(rows, 2, sigma)`. -/
def gaussRow2 (σ : ℝ) (x : Vec d) (b c : Fin d) : ℝ :=
  match gaussKernel σ 2 x with
  | .ok (some t) => t ![b, c]
  | _ => 0

/-- `compute_sks(x, sigma, 1, u)` (SKS.py 43-48). -/
def computeSks1 {n : Nat} (σ : ℝ) (x : Fin n → Vec d) :
    Matrix (Fin n × Fin (symDim d)) (Fin n × Fin (symDim d)) ℝ :=
  fun p q => ∑ i, ∑ j, sksU d p.2 q.2 i j * -gaussRow2 σ (relDiff (x p.1) (x q.1)) i j

/-- `compute_sks(x, sigma, 0)` (SKS.py 38-42): entry `K(x_i, x_j) * eye[k, l]`. -/
def computeSks0 {n : Nat} (σ : ℝ) (x : Fin n → Vec d) : Matrix (Fin n × Fin d) (Fin n × Fin d) ℝ :=
  fun p q => gauss0 σ (relDiff (x p.1) (x q.1)) * eye p.2 q.2

/-- The symbolic matrix of `compute_sks_keops(x, sigma, 1, u)` (SKS.py 61-94):
`R = -G * (S * (x-y)⊗(x-y) - I) * S` contracted with the `dim × dim` block of `u`
picked by the two one-hot vectors. -/
def computeSks1Keops {n : Nat} (σ : ℝ) (x : Fin n → Vec d) :
    Matrix (Fin n × Fin (symDim d)) (Fin n × Fin (symDim d)) ℝ :=
  fun p q => ∑ m, ∑ k,
    (-(keopsGauss σ (x p.1) (x q.1)) *
        ((1 / σ / σ) * ((x p.1 m - x q.1 m) * (x p.1 k - x q.1 k)) - eye m k) * (1 / σ / σ)) *
      ∑ a, ∑ b, (if a = p.2 then 1 else 0) * (if b = q.2 then 1 else 0) * sksU d a b m k

open Classical in
/-- `torch.linalg.solve(A, b)` with `b` a vector or one column: LinAlgError if `A` is singular. -/
def linSolve {ι : Type} [Fintype ι] [DecidableEq ι] (A : Matrix ι ι ℝ) (b : ι → ℝ) : Py (ι → ℝ) :=
  if A.det = 0 then .error .linalg else .ok (Matrix.mulVec A⁻¹ b)

open Classical in
/-- `torch.linalg.solve(A, B)` with `B` of several columns. -/
def linSolveCols {n : Nat} (A : Matrix (Fin n) (Fin n) ℝ) (B : Fin n → Vec d) : Py (Fin n → Vec d) :=
  if A.det = 0 then .error .linalg else .ok fun i c => Matrix.mulVec A⁻¹ (fun j => B j c) i

open Classical in
/-- KeOps `solve`: the exact solution (the conjugate gradient tolerance is left out). What it
returns for a singular matrix is not modelled. -/
def keopsSolve {ι : Type} [Fintype ι] [DecidableEq ι] (A : Matrix ι ι ℝ) (b : ι → ℝ) : Py (ι → ℝ) :=
  if A.det = 0 then .error .unmodelled else .ok (Matrix.mulVec A⁻¹ b)

open Classical in
/-- KeOps `KernelSolve` with several columns. -/
def keopsSolveCols {n : Nat} (A : Matrix (Fin n) (Fin n) ℝ) (B : Fin n → Vec d) : Py (Fin n → Vec d) :=
  if A.det = 0 then .error .unmodelled else .ok fun i c => Matrix.mulVec A⁻¹ (fun j => B j c) i

open Classical in
/-- `tensor / c`: torch does not raise for `c = 0` but returns infinities; not modelled. -/
def tdiv (a c : ℝ) : Py ℝ := if c = 0 then .error .unmodelled else .ok (a / c)

end
end Imodal
