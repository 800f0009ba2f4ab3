import Verif.Model.Field
import Mathlib.Data.Matrix.Basic
import Mathlib.Data.Fin.VecNotation
/-!
# Actions, pairings and dual fields of the manifolds, `imodal/Manifolds/`

The values of a manifold: positions, directions or frames together with the momentum.
Devices, dtypes and the container objects are left out (the containers are modelled in
`Model/Manifold.lean`); here every tensor is the array of its entries.
-/
set_option autoImplicit false
namespace Imodal
noncomputable section
variable {d : Nat}

/-- The two values accepted by `LandmarksDirection.__init__` (LandmarkDirection.py 19-20). -/
inductive Transport | vector | orthogonal
  deriving DecidableEq

/-- A manifold with its descriptors `gd` and momentum `cotan`. -/
inductive Mfd (d : Nat)
  /-- `Landmarks` (Landmark.py 7-15). -/
  | landmarks {n : Nat} (gd cot : Fin n → Vec d)
  /-- `LandmarksDirection` (LandmarkDirection.py 7-22), `gd = (gd, dir)`, `cotan = (cot, cdir)`. -/
  | direction (t : Transport) {n : Nat} (gd dir cot cdir : Fin n → Vec d)
  /-- `NormalFrame` (NormalFrame.py 10-24), `gd = (gd, R)`, `cotan = (cot, cR)`. -/
  | frame {n : Nat} (gd : Fin n → Vec d) (R : Fin n → Mat d) (cot : Fin n → Vec d) (cR : Fin n → Mat d)
  /-- `EmptyManifold` (Empty.py 7-13). -/
  | empty
  /-- `CompoundManifold` (Compound.py 6-11). -/
  | compound (ms : List (Mfd d))

/-- The tangent stored in the manifold returned by `infinitesimal_action`. The trailing axis
of length 1 of a direction tangent is left out. -/
inductive Tan (d : Nat)
  | landmarks {n : Nat} (v : Fin n → Vec d)
  | direction {n : Nat} (v w : Fin n → Vec d)
  | frame {n : Nat} (v : Fin n → Vec d) (W : Fin n → Mat d)
  | empty
  | compound (ts : List (Tan d))

/-- `field(points, k)` on a list of points. An order that is not available raises also for an
empty list of points. -/
def FieldExpr.batch (k : Nat) (f : FieldExpr d) {n : Nat} (pts : Fin n → Vec d) :
    Py (Fin n → Tens d (k + 1)) :=
  match f.eval k (fun _ => 0) with
  | .error e => .error e
  | .ok _ => .ok fun i =>
    match f.eval k (pts i) with
    | .ok t => t
    | .error _ => fun _ => 0

/-- `field(points)`, an array of vectors. -/
def FieldExpr.values (f : FieldExpr d) {n : Nat} (pts : Fin n → Vec d) : Py (Fin n → Vec d) :=
  match f.batch 0 pts with
  | .error e => .error e
  | .ok t => .ok fun i b => t i fun _ => b

/-- `field(points, k=1)`, an array of matrices. -/
def FieldExpr.jacobians (f : FieldExpr d) {n : Nat} (pts : Fin n → Vec d) : Py (Fin n → Mat d) :=
  match f.batch 1 pts with
  | .error e => .error e
  | .ok t => .ok fun i b c => t i ![b, c]

/-- `torch.dot(a.flatten(), b.flatten())` of two arrays of vectors. -/
def dotFlat {n : Nat} (a b : Fin n → Vec d) : ℝ := ∑ i, ∑ c, a i c * b i c

/-- `Landmarks.infinitesimal_action` (Landmark.py 25-28). -/
def actLandmarks {n : Nat} (gd : Fin n → Vec d) (f : FieldExpr d) : Py (Fin n → Vec d) :=
  f.values gd

/-- `LandmarksDirection.infinitesimal_action` (LandmarkDirection.py 37-44). -/
def actDirection (t : Transport) {n : Nat} (gd dir : Fin n → Vec d) (f : FieldExpr d) :
    Py ((Fin n → Vec d) × (Fin n → Vec d)) :=
  match f.values gd with
  | .error e => .error e
  | .ok v =>
    match f.jacobians gd with
    | .error e => .error e
    | .ok J =>
      match t with
      | .vector => .ok (v, fun i b => ∑ c, J i b c * dir i c)
      | .orthogonal => .ok (v, fun i b => -∑ c, J i c b * dir i c)

/-- `NormalFrame.infinitesimal_action` (NormalFrame.py 35-43). -/
def actFrame {n : Nat} (gd : Fin n → Vec d) (R : Fin n → Mat d) (f : FieldExpr d) :
    Py ((Fin n → Vec d) × (Fin n → Mat d)) :=
  match f.values gd with
  | .error e => .error e
  | .ok v =>
    match f.jacobians gd with
    | .error e => .error e
    | .ok J =>
      let S : Fin n → Mat d := fun i b c => 0.5 * (J i b c - J i c b)
      .ok (v, fun i b k => ∑ c, S i b c * R i c k)

mutual
/-- `infinitesimal_action(field)` (Landmark.py 25, LandmarkDirection.py 37, NormalFrame.py 35,
Empty.py 136, Compound.py 158). -/
def Mfd.action (f : FieldExpr d) : Mfd d → Py (Tan d)
  | .landmarks gd _ =>
    match actLandmarks gd f with
    | .error e => .error e
    | .ok v => .ok (.landmarks v)
  | .direction t gd dir _ _ =>
    match actDirection t gd dir f with
    | .error e => .error e
    | .ok vw => .ok (.direction vw.1 vw.2)
  | .frame gd R _ _ =>
    match actFrame gd R f with
    | .error e => .error e
    | .ok vw => .ok (.frame vw.1 vw.2)
  | .empty => .ok .empty
  | .compound ms =>
    match Mfd.actionAll f ms with
    | .error e => .error e
    | .ok ts => .ok (.compound ts)
/-- The loop of Compound.py 159-161. -/
def Mfd.actionAll (f : FieldExpr d) : List (Mfd d) → Py (List (Tan d))
  | [] => .ok []
  | m :: ms =>
    match Mfd.action f m with
    | .error e => .error e
    | .ok t =>
      match Mfd.actionAll f ms with
      | .error e => .error e
      | .ok ts => .ok (t :: ts)
end

mutual
/-- `inner_prod_field(field)` (Landmark.py 21-23, LandmarkDirection.py 32-35,
NormalFrame.py 30-33, Empty.py 133-134, Compound.py 155-156). -/
def Mfd.innerProd (f : FieldExpr d) : Mfd d → Py ℝ
  | .landmarks gd cot =>
    match actLandmarks gd f with
    | .error e => .error e
    | .ok v => .ok (dotFlat cot v)
  | .direction t gd dir cot cdir =>
    match actDirection t gd dir f with
    | .error e => .error e
    | .ok vw => .ok (dotFlat cot vw.1 + dotFlat cdir vw.2)
  | .frame gd R cot cR =>
    match actFrame gd R f with
    | .error e => .error e
    | .ok vw => .ok (dotFlat cot vw.1 + ∑ i, ∑ b, ∑ c, cR i b c * vw.2 i b c)
  | .empty => .ok 0
  | .compound ms => Mfd.innerProdAll f ms
/-- `sum([m.inner_prod_field(field) for m in manifolds])`. -/
def Mfd.innerProdAll (f : FieldExpr d) : List (Mfd d) → Py ℝ
  | [] => .ok 0
  | m :: ms =>
    match Mfd.innerProd f m with
    | .error e => .error e
    | .ok a =>
      match Mfd.innerProdAll f ms with
      | .error e => .error e
      | .ok b => .ok (a + b)
end

mutual
/-- `cot_to_vs(sigma, backend)` (Landmark.py 30-31, LandmarkDirection.py 46-54,
NormalFrame.py 45-51, Empty.py 140-141, Compound.py 152-153). The oriented field of a
direction manifold is built with the default backend, which makes no difference to it. -/
def Mfd.cotToVs (σ : ℝ) (r : Reduction) : Mfd d → Py (FieldExpr d)
  | .landmarks gd cot => .ok (.f0 r gd cot σ)
  | .direction .vector gd dir cot cdir => mkSumField [.f0 r gd cot σ, .f0u r gd cdir dir σ]
  | .direction .orthogonal gd dir cot cdir =>
    mkSumField [.f0 r gd cot σ, .f0u r gd (fun i c => -dir i c) cdir σ]
  | .frame gd R cot cR =>
    mkSumField [.f0 r gd cot σ, .fm r gd (fun i b c => ∑ k, cR i b k * R i c k) σ]
  | .empty => .ok .null
  | .compound ms =>
    match Mfd.cotToVsAll σ r ms with
    | .error e => .error e
    | .ok fs => mkSumField fs
/-- The list comprehension of Compound.py 153. -/
def Mfd.cotToVsAll (σ : ℝ) (r : Reduction) : List (Mfd d) → Py (List (FieldExpr d))
  | [] => .ok []
  | m :: ms =>
    match Mfd.cotToVs σ r m with
    | .error e => .error e
    | .ok f =>
      match Mfd.cotToVsAll σ r ms with
      | .error e => .error e
      | .ok fs => .ok (f :: fs)
end

end
end Imodal
