import Verif.Model.Coords
/-!
# Matrices applied to whole point tensors, `imodal/Utilities/usefulfunctions.py` 20-40

`Model/Coords` applies a matrix to one point. Here the tensors have their shapes, and the batched
product, the view and the slice of the code are followed. Entries are real numbers; both tensors are of
the default dtype on one device, and the matrix has two axes.
-/
set_option autoImplicit false
namespace Imodal
noncomputable section

/-- `x.view(N, c)` of an `N × k × 1` tensor with as many entries, in row-major order. -/
def viewRows {N k c : Nat} (h : N * k = N * c) (x : Fin N → Fin k → ℝ) : Fin N → Fin c → ℝ := fun n j =>
  let i := finProdFinEquiv.symm (Fin.cast h.symm (finProdFinEquiv (n, j)))
  x i.1 i.2

/-- `torch.bmm(A.repeat(N, 1, 1), points.unsqueeze(2))`, an `N × k × 1` tensor: RuntimeError if the
matrix does not have as many columns as the points have coordinates. -/
def batchedProduct {N c k e : Nat} (A : Matrix (Fin k) (Fin e) ℝ) (points : Fin N → Fin c → ℝ) : Py (Fin N → Fin k → ℝ) :=
  if h : e = c then .ok fun n i => ∑ j : Fin e, A i j * points n (Fin.cast h j) else .error .runtime

/-- `linear_transform(points, A)` (usefulfunctions.py 20-35): the view raises RuntimeError if the
numbers of entries differ. -/
def linearTransform {N c k e : Nat} (points : Fin N → Fin c → ℝ) (A : Matrix (Fin k) (Fin e) ℝ) : Py (Fin N → Fin c → ℝ) :=
  match batchedProduct A points with
  | .error err => .error err
  | .ok x => if h : N * k = N * c then .ok (viewRows h x) else .error .runtime

/-- `torch.cat([points, torch.ones(N, 1)], dim=1)` (usefulfunctions.py 39). -/
def withOnes {N c : Nat} (points : Fin N → Fin c → ℝ) : Fin N → Fin (c + 1) → ℝ := fun n j => Fin.lastCases 1 (points n) j

/-- `x[:, 0:3]` (usefulfunctions.py 40). -/
def firstThree {N c : Nat} (x : Fin N → Fin c → ℝ) : Fin N → Fin (min 3 c) → ℝ := fun n j => x n (Fin.castLE (min_le_right 3 c) j)

/-- `apply_linear_transform_3d(points, A)` (usefulfunctions.py 38-40). -/
def applyTransform3d {N c k e : Nat} (points : Fin N → Fin c → ℝ) (A : Matrix (Fin k) (Fin e) ℝ) : Py (Fin N → Fin (min 3 (c + 1)) → ℝ) :=
  match linearTransform (withOnes points) A with
  | .error err => .error err
  | .ok x => .ok (firstThree x)

end
end Imodal
