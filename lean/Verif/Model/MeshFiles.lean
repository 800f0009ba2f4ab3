import Verif.Model.Varifold
/-!
# Mesh files, `imodal/Utilities/usefulfunctions.py` 295-335 and `imodal/Models/deformable.py` 145-227

A mesh file is what `meshio.write_points_cells` was given: points, cells and data of the points.
`meshio.read` gives the same back; formats that change arrays (such as those that add a third
coordinate to points of the plane) and the rounding in text form are not modelled, and neither
are conversions between number types.
-/
set_option autoImplicit false
namespace Imodal
noncomputable section

/-- `a.reshape(*pre, -1, *post)`; numpy raises ValueError and torch RuntimeError (`e`) if the size
of the open axis is not determined or not a whole number. -/
def Tensor.reshapeOpen (e : PyErr) (t : Tensor) (pre post : List Nat) : Py Tensor :=
  if pre.prod * post.prod = 0 then .error e
  else if h : t.data.length % (pre.prod * post.prod) = 0 then
    .ok ⟨pre ++ (t.data.length / (pre.prod * post.prod)) :: post, t.data, by
      rw [List.prod_append, List.prod_cons]
      calc t.data.length = t.data.length / (pre.prod * post.prod) * (pre.prod * post.prod) := (Nat.div_mul_cancel (Nat.dvd_of_mod_eq_zero h)).symm
        _ = pre.prod * (t.data.length / (pre.prod * post.prod) * post.prod) := by ring⟩
  else .error e

/-- `a[:, :, k]` of an array with three axes. -/
def Tensor.column (t : Tensor) (k : Nat) : Py Tensor :=
  match t.shape with
  | [n, m, p] =>
    if k < p then .ok ⟨[n, m], List.ofFn fun q : Fin (n * m) => t.data.getD (q * p + k) 0, by simp⟩
    else .error .index
  | _ => .error .index

/-- The contents of a mesh file: the points, the cells with their types, and the data of the points. -/
structure MeshFile where
  points : Tensor
  cells : List (String × List (List Nat))
  pointData : List (String × Tensor)

/-- `meshio.write_points_cells`: ValueError if some data have not one row for each point. Points that
are not a matrix are not modelled. -/
def writeMesh (points : Tensor) (cells : List (String × List (List Nat))) (pointData : List (String × Tensor)) : Py MeshFile :=
  match points.shape with
  | [n, _] =>
    if pointData.all (fun a => a.2.shape.head? == some n) then .ok ⟨points, cells, pointData⟩ else .error .value
  | _ => .error .unmodelled

/-- `[('polygon'+str(n), torch.arange(n).view(1, -1).numpy())]`. -/
def polygonCells (n : Nat) : List (String × List (List Nat)) := [("polygon" ++ toString n, [List.range n])]

/-- `export_mesh` (usefulfunctions.py 295-296). -/
def exportMesh (points : Tensor) (triangles : List (List Nat)) : Py MeshFile := writeMesh points [("triangle", triangles)] []

/-- `export_mesh_points` (usefulfunctions.py 299-300) and `DeformablePoints.save_to_mesh` (deformable.py 186-189). -/
def exportPoints (points : Tensor) : Py MeshFile := writeMesh points (polygonCells (points.shape.headD 0)) []

/-- `export_implicit1_growth` (usefulfunctions.py 302-305). -/
def exportGrowth (points growth : Tensor) : Py MeshFile :=
  match growth.shape[2]? with
  | none => .error .index
  | some k =>
    if k ≠ 1 then .error .assertion
    else
      match points.shape[1]? with
      | none => .error .index
      | some d =>
        match growth.reshapeOpen .value [] [d] with
        | .error e => .error e
        | .ok g => writeMesh points (polygonCells (points.shape.headD 0)) [("growth", g)]

/-- `export_point_basis` (usefulfunctions.py 308-309). -/
def exportBasis (points basis : Tensor) : Py MeshFile :=
  match basis.column 0 with
  | .error e => .error e
  | .ok x =>
    match basis.column 1 with
    | .error e => .error e
    | .ok y =>
      match basis.column 2 with
      | .error e => .error e
      | .ok z => writeMesh points (polygonCells (points.shape.headD 0)) [("basis_x", x), ("basis_y", y), ("basis_z", z)]

/-- `mesh.point_data[fieldname]` after the check of the name; RuntimeError if it is missing. -/
def MeshFile.field (f : MeshFile) (name : String) : Py Tensor :=
  match f.pointData.lookup name with
  | none => .error .runtime
  | some t => .ok t

/-- `import_implicit1_growth` (usefulfunctions.py 312-317). -/
def importGrowth (f : MeshFile) (name : String) : Py (Tensor × Tensor) :=
  match f.field name with
  | .error e => .error e
  | .ok t =>
    match t.reshapeOpen .runtime [f.points.shape.headD 0] [1] with
    | .error e => .error e
    | .ok g => .ok (f.points, g)

/-- `import_point_basis` (usefulfunctions.py 320-335): `torch.stack` needs equal shapes, and
`torch.tensor(mesh.points, dype=dtype)` raises TypeError, since there is no argument `dype`. -/
def importBasis (f : MeshFile) (name : String) : Py (Tensor × Tensor) :=
  match f.field (name ++ "_x") with
  | .error e => .error e
  | .ok x =>
    match f.field (name ++ "_y") with
    | .error e => .error e
    | .ok y =>
      match f.field (name ++ "_z") with
      | .error e => .error e
      | .ok z => if x.shape = y.shape ∧ y.shape = z.shape then .error .type else .error .runtime

/-- `DeformablePoints.load_from_mesh` (deformable.py 145-148): the tensor of the points. -/
def loadMeshPoints (f : MeshFile) : Py Tensor := .ok f.points

/-- `DeformableMesh.save_to_file` (deformable.py 225-227). -/
def saveDeformableMesh (points : Tensor) (triangles : List (List Nat)) : Py MeshFile := writeMesh points [("triangle", triangles)] []

/-- `DeformableMesh.load_from_file` (deformable.py 209-223): a mesh of meshio has `cells_dict` but no
`cell_dict`, so line 222 raises AttributeError. -/
def loadDeformableMesh (_ : MeshFile) : Py (Tensor × List (List Nat)) := .error .attribute

end
end Imodal
