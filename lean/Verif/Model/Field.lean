import Verif.Model.Kernel
import Verif.Model.Registry
import Mathlib.Data.Fin.Tuple.Basic
/-!
# Structured fields, `imodal/StructuredFields/`

A field object is a value of `FieldExpr d`; `FieldExpr.eval k f x` is the row of
`field(points, k)` belonging to the point `x`, a tensor with `k+1` indices. Devices and
dtypes are left out. The KeOps branches follow the formulas given to `Genred`, with the
documented meaning of `Exp`, `SqNorm2`, `TensorProd` and `TensorDot`.
-/
set_option autoImplicit false
namespace Imodal
noncomputable section
variable {d : Nat}

/-- The field classes. `r` is the reduction chosen at construction (Abstract.py 34-37). -/
inductive FieldExpr (d : Nat)
  /-- `StructuredField_0(support, moments, sigma)`. -/
  | f0 (r : Reduction) {n : Nat} (supp mom : Fin n → Vec d) (σ : ℝ)
  /-- `StructuredField_0_u(support, moments, directions, sigma)`. -/
  | f0u (r : Reduction) {n : Nat} (supp mom dir : Fin n → Vec d) (σ : ℝ)
  /-- `StructuredField_p(support, moments, sigma)`. -/
  | fp (r : Reduction) {n : Nat} (supp : Fin n → Vec d) (mom : Fin n → Mat d) (σ : ℝ)
  /-- `StructuredField_m(support, moments, sigma)`. -/
  | fm (r : Reduction) {n : Nat} (supp : Fin n → Vec d) (mom : Fin n → Mat d) (σ : ℝ)
  /-- `StructuredField_1(support, moments, sigma)`. -/
  | f1 (r : Reduction) {n : Nat} (supp : Fin n → Vec d) (mom : Fin n → ℝ) (σ : ℝ)
  /-- `StructuredField_Affine(A, x0, u)`. -/
  | affine (A : Mat d) (x0 u : Vec d)
  /-- `ConstantField(moments)`. -/
  | const (m : Vec d)
  /-- `StructuredField_Null(dim)`. -/
  | null
  /-- `SumStructuredField(fields)`. -/
  | sum (fields : List (FieldExpr d))

/-- `torch.eye`. -/
def eye (a b : Fin d) : ℝ := if a = b then 1 else 0

/-- All entries of `gauss_kernel` on the rows of a family, failing as the code does when the
order is not available: NotImplementedError for order 3, and for higher orders the
error `e` of the first operation applied to `None`. -/
def kerRows {n : Nat} (σ : ℝ) (k : Nat) (rows : Fin n → Vec d) (e : PyErr) :
    Py (Fin n → Tens d k) :=
  if k = 3 then .error .notImplemented
  else if 3 < k then .error e
  else .ok fun j =>
    match gaussKernel σ k (rows j) with
    | .ok (some t) => t
    | _ => fun _ => 0

/-- `StructuredField_0._compute_reduction_torch` (StructuredField_0.py 15-22). For order
`k ≥ 1` the tensordot with `eye` and the transposition are kept: entry
`[m, b, c…] = Σ_a Σ_n eye[a,b] * ker[m,n,c…] * moments[n,a]`. `None.reshape` raises
AttributeError. -/
def field0Torch {n : Nat} (supp mom : Fin n → Vec d) (σ : ℝ) (k : Nat) (x : Vec d) :
    Py (Tens d (k + 1)) :=
  if k = 0 then .ok fun I => ∑ j, kXY σ x (supp j) * mom j (I 0)
  else
    match kerRows σ k (fun j => relDiff x (supp j)) .attribute with
    | .error e => .error e
    | .ok ker => .ok fun I => ∑ a, ∑ j, eye a (I 0) * ker j (Fin.tail I) * mom j a

/-- `Exp(-S*SqNorm2(x - y)/IntCst(2))` with `S = 1./sigma/sigma` (Abstract.py 72). -/
def keopsGauss (σ : ℝ) (x y : Vec d) : ℝ :=
  Real.exp (-(1 / σ / σ) * (∑ c, (x c - y c) ^ 2) / 2)

/-- `StructuredField_0._compute_reduction_keops` (StructuredField_0.py 24-40). Order 1:
`TensorProd(a, p)[c, b] = a_c p_b`, then transposed. -/
def field0Keops {n : Nat} (supp mom : Fin n → Vec d) (σ : ℝ) (k : Nat) (x : Vec d) :
    Py (Tens d (k + 1)) :=
  if k = 0 then .ok fun I => ∑ j, keopsGauss σ x (supp j) * mom j (I 0)
  else if h : k = 1 then
    let out : Fin d → Fin d → ℝ := fun c b =>
      ∑ j, (-(1 / σ / σ) * keopsGauss σ x (supp j) * (x c - supp j c)) * mom j b
    .ok fun I => out (I ⟨1, by omega⟩) (I 0)
  else .error .runtime

/-- `StructuredField_0_u._compute_reduction_torch` (StructuredField_0_u.py 23-29); the KeOps
reduction calls the same function (31-33). -/
def field0uTorch {n : Nat} (supp mom dir : Fin n → Vec d) (σ : ℝ) (k : Nat) (x : Vec d) :
    Py (Tens d (k + 1)) :=
  if k = 0 then
    match kerRows σ 1 (fun j => relDiff x (supp j)) .attribute with
    | .error e => .error e
    | .ok ker => .ok fun I => ∑ j, (∑ c, -ker j (fun _ => c) * dir j c) * mom j (I 0)
  else .error .notImplemented

/-- `StructuredField_pm._compute_reduction_torch` (StructuredField_pm.py 20-23), entry
`[m, b, e…] = Σ_a Σ_n Σ_c eye[a,b] * ker[m,n,c,e…] * P[n,a,c]` with
`ker = -gauss_kernel(…, k+1)`. `-None` raises TypeError. -/
def fieldPmTorch {n : Nat} (supp : Fin n → Vec d) (P : Fin n → Mat d) (σ : ℝ) (k : Nat) (x : Vec d) :
    Py (Tens d (k + 1)) :=
  match kerRows σ (k + 1) (fun j => relDiff x (supp j)) .type with
  | .error e => .error e
  | .ok ker => .ok fun I =>
      ∑ a, ∑ j, ∑ c, eye a (I 0) * -ker j (Fin.cons c (Fin.tail I)) * P j a c

/-- `StructuredField_pm._compute_reduction_keops` (StructuredField_pm.py 25-48). Order 0:
`TensorDot(a, p, …, [0], [1])[b] = Σ_c a_c p[b,c]`. Order 1:
`TensorDot(r, p, …, [1], [1])[c, b] = Σ_e r[c,e] p[b,e]`, then transposed. -/
def fieldPmKeops {n : Nat} (supp : Fin n → Vec d) (P : Fin n → Mat d) (σ : ℝ) (k : Nat) (x : Vec d) :
    Py (Tens d (k + 1)) :=
  if k = 0 then
    .ok fun I => ∑ j, ∑ c, ((1 / σ / σ) * keopsGauss σ x (supp j) * (x c - supp j c)) * P j (I 0) c
  else if h : k = 1 then
    let r : Fin n → Fin d → Fin d → ℝ := fun j c e =>
      -(1 / σ / σ) * keopsGauss σ x (supp j) *
        ((1 / σ / σ) * ((x c - supp j c) * (x e - supp j e)) - eye c e)
    let out : Fin d → Fin d → ℝ := fun c b => ∑ j, ∑ e, r j c e * P j b e
    .ok fun I => out (I ⟨1, by omega⟩) (I 0)
  else .error .runtime

/-- `StructuredField_p._compute_moment_matrix` (StructuredField_pm.py 58-59). -/
def symPart (M : Mat d) : Mat d := fun b c => (M b c + M c b) / 2
/-- `StructuredField_m._compute_moment_matrix` (StructuredField_pm.py 66-67). -/
def skewPart (M : Mat d) : Mat d := fun b c => (M b c - M c b) / 2

/-- `StructuredField_1._compute_reduction_torch` (StructuredField_1.py 15-26). There is no
KeOps version: the inherited one raises NotImplementedError. `(-1)**k * None` raises
TypeError. -/
def field1Torch {n : Nat} (supp : Fin n → Vec d) (mom : Fin n → ℝ) (σ : ℝ) (k : Nat) (x : Vec d) :
    Py (Tens d (k + 1)) :=
  if k = 0 then
    match kerRows σ (0 + 1) (fun j => relDiff (supp j) x) .attribute with
    | .error e => .error e
    | .ok ker => .ok fun I => ∑ j, ker j (fun _ => I 0) * mom j
  else
    match kerRows σ (k + 1) (fun j => relDiff (supp j) x) .type with
    | .error e => .error e
    | .ok ker => .ok fun I => ∑ j, ((-1) ^ k * ker j I) * mom j

/-- `StructuredField_Affine.__call__` (StructuredField_Affine.py 29-35):
`bmm(points - x0, A^T) + u`. -/
def fieldAffine (A : Mat d) (x0 u : Vec d) (k : Nat) (x : Vec d) : Tens d (k + 1) :=
  if k = 0 then fun I => (∑ c, (x c - x0 c) * A (I 0) c) + u (I 0)
  else if h : k = 1 then fun I => A (I 0) (I ⟨1, by omega⟩)
  else fun _ => 0

/-- `ConstantField.__call__` (ConstantField.py 15-21). -/
def fieldConst (m : Vec d) (k : Nat) (_x : Vec d) : Tens d (k + 1) :=
  if k = 0 then fun I => m (I 0) else fun _ => 0

mutual
/-- `field(points, k)`, the row of the point `x`. -/
def FieldExpr.eval (k : Nat) : FieldExpr d → Vec d → Py (Tens d (k + 1))
  | .f0 .torch supp mom σ, x => field0Torch supp mom σ k x
  | .f0 .keops supp mom σ, x => field0Keops supp mom σ k x
  | .f0u _ supp mom dir σ, x => field0uTorch supp mom dir σ k x
  | .fp .torch supp mom σ, x => fieldPmTorch supp (fun j => symPart (mom j)) σ k x
  | .fp .keops supp mom σ, x => fieldPmKeops supp (fun j => symPart (mom j)) σ k x
  | .fm .torch supp mom σ, x => fieldPmTorch supp (fun j => skewPart (mom j)) σ k x
  | .fm .keops supp mom σ, x => fieldPmKeops supp (fun j => skewPart (mom j)) σ k x
  | .f1 .torch supp mom σ, x => field1Torch supp mom σ k x
  | .f1 .keops _ _ _, _ => .error .notImplemented
  | .affine A x0 u, x => .ok (fieldAffine A x0 u k x)
  | .const m, x => .ok (fieldConst m k x)
  | .null, _ => .ok fun _ => 0
  | .sum fields, x => FieldExpr.evalSum k fields x
/-- `sum([field(points, k) for field in fields])` (Abstract.py 118-119); the members are
evaluated in order and the first exception is raised. -/
def FieldExpr.evalSum (k : Nat) : List (FieldExpr d) → Vec d → Py (Tens d (k + 1))
  | [], _ => .ok fun _ => 0
  | f :: fs, x =>
    match FieldExpr.eval k f x with
    | .error e => .error e
    | .ok t =>
      match FieldExpr.evalSum k fs x with
      | .error e => .error e
      | .ok ts => .ok fun I => t I + ts I
end

/-- `SumStructuredField(fields)` (Abstract.py 100-109): an empty list has no dimension and
fails the assertion. All members have dimension `d` here. -/
def mkSumField (fields : List (FieldExpr d)) : Py (FieldExpr d) :=
  match fields with
  | [] => .error .assertion
  | fs => .ok (.sum fs)

end
end Imodal
