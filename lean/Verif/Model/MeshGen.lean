import Verif.Model.MeshUtils
import Mathlib.Analysis.SpecialFunctions.Trigonometric.Basic
/-!
# Generated outlines, `imodal/Utilities/meshgen.py`

A tensor of points of the plane is given by its two columns until it is returned as the list of
its rows. Element types are not modelled.
-/
set_option autoImplicit false
namespace Imodal
noncomputable section

/-- `column[i:j] = values`: bounds beyond the end are cut; another number of values raises. -/
def setSlice (col : List ℝ) (i j : Nat) (vals : List ℝ) : Py (List ℝ) :=
  if vals.length = min j col.length - min i col.length then .ok (col.take i ++ vals ++ col.drop (max i j)) else .error .runtime

/-- `column[i:j] = value`. -/
def setSliceConst (col : List ℝ) (i j : Nat) (v : ℝ) : Py (List ℝ) := setSlice col i j (List.replicate (min j col.length - min i col.length) v)

/-- `torch.linspace(a, b, n + 1)[1:]`. -/
def linspaceTail (a b : ℝ) (n : Nat) : List ℝ := (linspace a b (n + 1)).tail

/-- `generate_unit_square` (meshgen.py 7-32). -/
def generateUnitSquare (n : Nat) : Py (List (ℝ × ℝ)) := do
  let x0 := List.replicate (4 * n) 0
  let y0 := List.replicate (4 * n) 0
  let x1 ← setSlice x0 0 n (linspaceTail 0 1 n)
  let y1 ← setSlice y0 n (2 * n) (linspaceTail 0 1 n)
  let x2 ← setSliceConst x1 (n - 1) (2 * n) 1
  let x3 ← setSlice x2 (2 * n) (3 * n) (linspaceTail 1 0 n)
  let y2 ← setSliceConst y1 (2 * n) (3 * n) 1
  let y3 ← setSlice y2 (3 * n) (4 * n) (linspaceTail 1 0 n)
  return (x3.zip y3).map fun q => (q.1 - 0.5, q.2 - 0.5)

/-- `generate_unit_circle` (meshgen.py 35-53). -/
def generateUnitCircle (n : Nat) : List (ℝ × ℝ) :=
  ((linspace 0 (2 * Real.pi) (n + 1)).dropLast.map Real.cos).zip ((linspace 0 (2 * Real.pi) (n + 1)).dropLast.map Real.sin)

/-- `kmax[i]` (`xmax`, `ymax`: aabb.py 151-173). -/
def AABB.upper (b : AABB ℝ) (i : Nat) : Py ℝ :=
  match b.kmax[i]? with
  | some x => .ok x
  | none => .error .index

/-- `generate_rectangle` (meshgen.py 56-97); `torch.zeros` and `torch.linspace` reject negative
sizes. -/
def generateRectangle (b : AABB ℝ) (density : ℝ) : Py (List (ℝ × ℝ)) :=
  if b.dim ≠ 2 then .error .notImplemented else do
  let w ← b.side 0
  let h ← b.side 1
  let xmin ← b.lower 0
  let ymin ← b.lower 1
  let xmax ← b.upper 0
  let ymax ← b.upper 1
  if ⌈w * density⌉ < 0 ∨ ⌈h * density⌉ < 0 then .error .runtime else do
  let nx := ⌈w * density⌉.toNat
  let ny := ⌈h * density⌉.toNat
  let x0 := List.replicate (2 * (nx + ny)) 0
  let y0 := List.replicate (2 * (nx + ny)) 0
  let x1 ← setSlice x0 0 nx (linspaceTail xmin xmax nx)
  let y1 ← setSlice y0 0 nx (List.replicate nx ymin)
  let x2 ← setSlice x1 nx (nx + ny) (List.replicate ny xmax)
  let y2 ← setSlice y1 nx (nx + ny) (linspaceTail ymin ymax ny)
  let x3 ← setSlice x2 (nx + ny) (2 * nx + ny) (linspaceTail xmax xmin nx)
  let y3 ← setSlice y2 (nx + ny) (2 * nx + ny) (List.replicate nx ymax)
  let x4 ← setSlice x3 (2 * nx + ny) x3.length (List.replicate ny xmin)
  let y4 ← setSlice y3 (2 * nx + ny) y3.length (linspaceTail ymax ymin ny)
  return x4.zip y4

/-- One circle of `generate_disc_density` (meshgen.py 142-145). -/
def discCircle (density r : ℝ) : Py (List (ℝ × ℝ)) :=
  if ⌈2 * Real.pi * r * density⌉ < 0 then .error .runtime
  else
    let a := linspace 0 (2 * Real.pi) ⌈2 * Real.pi * r * density⌉.toNat
    .ok ((a.map fun t => r * Real.cos t).zip (a.map fun t => r * Real.sin t))

open Classical in
/-- `generate_disc_density` (meshgen.py 119-145); `torch.cat` rejects an empty list. -/
def generateDiscDensity (density outer inner : ℝ) : Py (List (ℝ × ℝ)) :=
  if ¬ inner < outer then .error .assertion
  else if ⌈(outer - inner) * density⌉ < 0 then .error .runtime
  else do
    let radials := linspace inner outer ⌈(outer - inner) * density⌉.toNat
    let parts ← radials.mapM (discCircle density)
    if parts = [] then .error .runtime else return parts.flatten

end
end Imodal
