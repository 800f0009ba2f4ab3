import Verif.Model.Kernel
/-!
# Loading and saving points, `imodal/Models/deformable.py`

A file name is the list of its characters. File contents are what the writers put there: for
csv the numbers line by line, for pickle the object. Rounding in text form and in conversions
between number types is not modelled, and neither are mesh files.
-/
set_option autoImplicit false
namespace Imodal
noncomputable section

/-- `os.path.split(filename)[1]`: what follows the last slash. -/
def pathTail (filename : List Char) : List Char := (filename.reverse.takeWhile (· ≠ '/')).reverse

/-- The readers and writers. -/
inductive FileFormat
  | csv
  | pickle
  | mesh
  deriving DecidableEq

/-- The choice of the reader and writer in `load_from_file` and `save_to_file`
(deformable.py 111-120, 160-169); `keys` are the keys of `meshio.extension_to_filetype`. -/
def fileDispatch (keys : List (List Char)) (filename : List Char) : Py FileFormat :=
  let fileExtension := pathTail filename
  if fileExtension = ".csv".toList then .ok .csv
  else if fileExtension = ".pickle".toList ∨ fileExtension = ".pkl".toList then .ok .pickle
  else if fileExtension ∈ keys then .ok .mesh
  else .error .runtime

/-- What `load_from_file` returns: a deformable, or a bare tensor (`load_from_mesh`, 145-148). -/
inductive LoadResult
  | deformable
  | tensor
  deriving DecidableEq

/-- The kind of result of `load_from_file` when reading succeeds (deformable.py 96-148). -/
def loadedKind (keys : List (List Char)) (filename : List Char) : Py LoadResult :=
  match fileDispatch keys filename with
  | .error e => .error e
  | .ok .csv => .ok .deformable
  | .ok .pickle => .ok .deformable
  | .ok .mesh => .ok .tensor

/-- An array of at most two axes. -/
inductive NArr
  | scalar (x : ℝ)
  | vec (l : List ℝ)
  | mat (cols : Nat) (rows : List (List ℝ))

/-- `torch.tensor` of a list of lists; ragged lists are rejected. -/
def ofNested : List (List ℝ) → Py NArr
  | [] => .ok (.vec [])
  | r :: rs => if rs.all (fun s => s.length == r.length) then .ok (.mat r.length (r :: rs)) else .error .value

/-- `DeformablePoints(points)` (deformable.py 86-89): dimension and rows; `points.shape[1]` needs
two axes. -/
def arrayPoints : NArr → Py (Nat × List (List ℝ))
  | .mat d rows => .ok (d, rows)
  | _ => .error .index

/-- `numpy.savetxt` of a list of rows (171-172): the lines. -/
def savetxt (rows : List (List ℝ)) : List (List ℝ) := rows

/-- `numpy.loadtxt`: empty lines are skipped, axes of length one are dropped. -/
def loadtxt (lines : List (List ℝ)) : Py NArr :=
  match lines.filter (fun l => !l.isEmpty) with
  | [] => .ok (.vec [])
  | [[x]] => .ok (.scalar x)
  | [r] => .ok (.vec r)
  | r :: rs =>
    if rs.all (fun s => s.length == r.length) then
      if r.length = 1 then .ok (.vec ((r :: rs).flatten)) else .ok (.mat r.length (r :: rs))
    else .error .value

/-- `load_from_csv` (122-128). -/
def loadCsv (lines : List (List ℝ)) : Py (Nat × List (List ℝ)) := do
  let a ← loadtxt lines
  arrayPoints a

/-- A pickled object: nested lists, a dictionary with or without the key `'points'`, or something
that is not iterable. -/
inductive PickleObj
  | rows (r : List (List ℝ))
  | dict (points : Option (List (List ℝ)))
  | other

/-- `save_to_pickle` (174-184): the object written. -/
def savePickle (rows : List (List ℝ)) (container : String) : Py PickleObj :=
  if container = "array" then .ok (.rows rows)
  else if container = "dict" then .ok (.dict (some rows))
  else .error .runtime

/-- `load_from_pickle` (130-143). -/
def loadPickle : PickleObj → Py (Nat × List (List ℝ))
  | .dict none => .error .key
  | .dict (some r) => do
    let a ← ofNested r
    arrayPoints a
  | .rows r => do
    let a ← ofNested r
    arrayPoints a
  | .other => .error .runtime

end
end Imodal
