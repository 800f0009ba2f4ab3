import Verif.Model.Action
/-!
# `CompoundLandmarks`, `imodal/Manifolds/CompoundLandmarks.py`

A manifold of two groups of points. Beside its own tensors the object keeps two `Landmarks`, built
without tensors, that nothing fills later. Left out: tangents, devices, dtypes.
-/
set_option autoImplicit false
namespace Imodal
noncomputable section
variable {d : Nat}

/-- `CompoundLandmarks(dim, [n, m])` (CompoundLandmarks.py 12-20) with the tensors of its containers; `none` stands
for the zeros of `TensorContainer.__init__` (tensor_container.py 10-12). The tensors given have `n` and `m` points. -/
structure PairLandmarks (d n m : Nat) where
  gd : Option ((Fin n → Vec d) × (Fin m → Vec d))
  cot : Option ((Fin n → Vec d) × (Fin m → Vec d))

/-- What is done to the object: `fill_gd` and `fill_cotan` (Abstract.py 337-347). -/
inductive PairOp (d n m : Nat)
  | fillGd (x : Fin n → Vec d) (y : Fin m → Vec d)
  | fillCotan (p : Fin n → Vec d) (q : Fin m → Vec d)

/-- One of them. -/
def PairLandmarks.apply {n m : Nat} (P : PairLandmarks d n m) : PairOp d n m → PairLandmarks d n m
  | .fillGd x y => { P with gd := some (x, y) }
  | .fillCotan p q => { P with cot := some (p, q) }

/-- The object after a sequence of them. -/
def PairLandmarks.run {n m : Nat} (P : PairLandmarks d n m) (ops : List (PairOp d n m)) : PairLandmarks d n m := ops.foldl .apply P

/-- `self.manifolds` (CompoundLandmarks.py 18): two `Landmarks` whose tensors are zeros. -/
def PairLandmarks.manifolds {n m : Nat} (_ : PairLandmarks d n m) : Mfd d × Mfd d :=
  (.landmarks (n := n) 0 0, .landmarks (n := m) 0 0)

/-- `shape_gd` (Abstract.py 287-289 with CompoundLandmarks.py 17): both shapes have the first number of points. -/
def PairLandmarks.shapeGd {n m : Nat} (_ : PairLandmarks d n m) : List (Nat × Nat) := [(n, d), (n, d)]

/-- `numel_gd` (Abstract.py 297-299). -/
def PairLandmarks.numelGd {n m : Nat} (P : PairLandmarks d n m) : List Nat := P.shapeGd.map fun s => s.1 * s.2

/-- `inner_prod_field` (CompoundLandmarks.py 26-27). -/
def PairLandmarks.innerProd {n m : Nat} (P : PairLandmarks d n m) (f : FieldExpr d) : Py ℝ :=
  match P.manifolds.1.innerProd f with
  | .error e => .error e
  | .ok a =>
    match P.manifolds.2.innerProd f with
    | .error e => .error e
    | .ok b => .ok (a + b)

/-- `infinitesimal_action` (CompoundLandmarks.py 29-35): there is no attribute `manifold`. -/
def PairLandmarks.action {n m : Nat} (_ : PairLandmarks d n m) (_ : FieldExpr d) : Py (Tan d) := .error .attribute

/-- `cot_to_vs` (CompoundLandmarks.py 37-41). Descriptors without momenta, or the converse, are left out. -/
def PairLandmarks.cotToVs {n m : Nat} (P : PairLandmarks d n m) (σ : ℝ) (r : Reduction) : Py (FieldExpr d) :=
  match P.gd, P.cot with
  | some x, some p => mkSumField [.f0 r x.1 p.1 σ, .f0 r x.2 p.2 σ]
  | none, none => mkSumField [.f0 r (n := n) 0 0 σ, .f0 r (n := n) 0 0 σ]
  | _, _ => .error .unmodelled

end
end Imodal
