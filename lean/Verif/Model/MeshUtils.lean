import Verif.Model.Kernel
import Verif.Model.Coords
import Mathlib.Analysis.SpecialFunctions.Pow.Real
/-!
# Areas, shapes and curves, `imodal/Utilities/meshutils.py`

A tensor of points is the list of its rows. Keyword arguments that may be missing are `Option`s.
Not modelled: `area_convex_hull`, `extract_convex_hull` and the three-dimensional branch of
`area_convex_shape` (scipy).
-/
set_option autoImplicit false
namespace Imodal
noncomputable section
variable {d : Nat}

/-- `torch.dist(x, y)`, `torch.norm(x - y)`. -/
def tdist (x y : Vec d) : ℝ := Real.sqrt (sqDistance x y)

open Classical in
/-- `torch.sign`. -/
def sgn (x : ℝ) : ℤ := if x < 0 then -1 else if 0 < x then 1 else 0

/-- The expression of `area_side` and `point_side` before `torch.sign` (60, 431). -/
def crossAt (p0 p1 p : Vec 2) : ℝ := (p1 0 - p0 0) * (p 1 - p0 1) - (p1 1 - p0 1) * (p 0 - p0 0)

/-- `point_side` (meshutils.py 414-431). -/
def pointSide (p p0 p1 : Vec 2) : ℤ := sgn (crossAt p0 p1 p)

/-- The keyword arguments that give a line or a segment. -/
structure LineArgs (d : Nat) where
  origin : Option (Vec d) := none
  direction : Option (Vec d) := none
  p0 : Option (Vec d) := none
  p1 : Option (Vec d) := none

/-- The choice of the two points (36-45, 326-335). -/
def LineArgs.ends (a : LineArgs d) : Py (Vec d × Vec d) :=
  match a.origin, a.direction, a.p0, a.p1 with
  | some o, some v, _, _ => .ok (o, fun c => o c + v c)
  | _, _, some p0, some p1 => .ok (p0, p1)
  | _, _, _, _ => .error .runtime

/-- The test of `area_side` for one point (60-64). -/
def onSide (p0 p1 : Vec 2) (side : ℤ) (intersect : Bool) (p : Vec 2) : Bool :=
  if intersect then sgn (crossAt p0 p1 p) == side || sgn (crossAt p0 p1 p) == 0 else sgn (crossAt p0 p1 p) == side

/-- `area_side` (meshutils.py 10-66). -/
def areaSide (points : List (Vec 2)) (a : LineArgs 2) (side : Option ℤ) (intersect : Option Bool) : Py (List Bool) := do
  let e ← a.ends
  return points.map (onSide e.1 e.2 (side.getD 1) (intersect.getD false))

/-- `close_shape` (meshutils.py 355-368); `shape[0, :]` raises for a shape without rows. -/
def closeShape {β : Type} : List β → Py (List β)
  | [] => .error .index
  | a :: l => .ok (a :: l ++ [a])

open Classical in
/-- `is_shape_closed` (meshutils.py 371-385). -/
def isShapeClosed (shape : List (Vec d)) : Py Bool :=
  match shape.head?, shape.getLast? with
  | some a, some b => .ok (decide (∀ c, a c = b c))
  | _, _ => .error .index

/-- The pairs `(shape[i], shape[i+1])` of the loops over `range(shape.shape[0] - 1)`. -/
def edges {β : Type} : List β → List (β × β)
  | a :: b :: l => (a, b) :: edges (b :: l)
  | _ => []

/-- `area_convex_shape` for points of the plane (meshutils.py 105-157). -/
def areaConvexShape (points : List (Vec 2)) (shape : Option (List (Vec 2))) (side : Option ℤ) (intersect : Option Bool) : Py (List Bool) :=
  match shape with
  | none => .error .runtime
  | some shape =>
    if side.getD 1 ≠ -1 ∧ side.getD 1 ≠ 1 then .error .runtime else do
    let closed ← closeShape shape
    return points.map fun p => !(edges closed).any fun e => onSide e.1 e.2 (side.getD 1) (!intersect.getD false) p

open Classical in
/-- `distance_segment` (meshutils.py 388-411). -/
def distanceSegment (p p0 p1 : Vec d) : ℝ :=
  if tdist p0 p1 ^ 2 = 0 then tdist p0 p
  else
    let t := max 0 (min 1 ((∑ c, (p c - p0 c) * (p1 c - p0 c)) / tdist p0 p1 ^ 2))
    tdist p fun c => p0 c + t * (p1 c - p0 c)

open Classical in
/-- `area_segment` (meshutils.py 303-352). -/
def areaSegment (points : List (Vec d)) (a : LineArgs d) (width : Option ℝ) : Py (List Bool) := do
  let e ← a.ends
  match width with
  | none => .error .runtime
  | some w => return points.map fun p => decide (distanceSegment p e.1 e.2 ≤ w)

open Classical in
/-- `area_polyline_outline` (meshutils.py 200-244). -/
def areaPolylineOutline (points : List (Vec d)) (polyline : Option (List (Vec d))) (width : Option ℝ) (close : Option Bool) : Py (List Bool) :=
  match polyline with
  | none => .error .runtime
  | some polyline => do
    let polyline ← if close.getD false then closeShape polyline else .ok polyline
    return points.map fun p => (edges polyline).any fun e => decide (distanceSegment p e.1 e.2 ≤ width.getD 0)

open Classical in
/-- `area_disc` (meshutils.py 247-277). -/
def areaDisc (points : List (Vec d)) (center : Option (Vec d)) (radius : Option ℝ) : Py (List Bool) :=
  match center, radius with
  | some c, some r => .ok (points.map fun p => decide (tdist p c ≤ r))
  | _, _ => .error .runtime

open Classical in
/-- One iteration of the loop of `winding_order` (456-464). -/
def windingStep (p : Vec 2) (side : ℤ) (a b : Vec 2) : ℤ :=
  if a 1 ≤ p 1 then
    if b 1 > p 1 then
      if onSide a b side false p then 1 else 0
    else 0
  else if b 1 ≤ p 1 then
    if onSide a b (-side) false p then -1 else 0
  else 0

/-- `winding_order` (meshutils.py 434-466). -/
def windingOrder (p : Vec 2) (shape : List (Vec 2)) (side : ℤ) : ℤ :=
  (edges shape).foldl (fun wn e => wn + windingStep p side e.1 e.2) 0

/-- `area_shape` (meshutils.py 160-197). -/
def areaShape (points : List (Vec 2)) (shape : Option (List (Vec 2))) (side : Option ℤ) : Py (List Bool) :=
  match shape with
  | none => .error .runtime
  | some shape => do
    let closed ← closeShape shape
    return points.map fun p => windingOrder p closed (side.getD 1) != 0

/-- `grid[mask]`: the rows whose flag is set; a mask of another length raises. -/
def selectRows {β : Type} (rows : List β) (mask : List Bool) : Py (List β) :=
  if mask.length = rows.length then .ok (((rows.zip mask).filter fun e => e.2).map fun e => e.1) else .error .index

/-- An `area` callable with its keyword arguments: a flag for every row. -/
abbrev AreaFn := List (List ℝ) → Py (List Bool)

/-- `fill_area_uniform` (meshutils.py 503-527). -/
def fillAreaUniform (area : AreaFn) (b : AABB ℝ) (spacing : ℝ) : Py (List (List ℝ)) := do
  let grid ← b.fillUniformSpacing spacing
  let mask ← area grid
  selectRows grid mask

open Classical in
/-- `fill_area_uniform_density` (meshutils.py 530-549): `1./math.sqrt(density)` raises for a
density that is not positive. -/
def fillAreaUniformDensity (area : AreaFn) (b : AABB ℝ) (density : ℝ) : Py (List (List ℝ)) :=
  if density < 0 then .error .value
  else if density = 0 then .error .zeroDivision
  else fillAreaUniform area b (1 / Real.sqrt density)

/-- `points[i, :] = point` for a row of `torch.zeros(N, 2)` (573, 581): one column is broadcast,
any other number of columns than two raises. -/
def storeRow : List ℝ → Py (List ℝ)
  | [x] => .ok [x, x]
  | [x, y] => .ok [x, y]
  | _ => .error .runtime

/-- The inner loop of `fill_area_random` (576-581) on the uniform variates still to be drawn:
the stored point and what is left; `none` when the given variates do not suffice. -/
def drawPoint (area : AreaFn) (b : AABB ℝ) : List (List ℝ) → Py (Option (List ℝ × List (List ℝ)))
  | [] => .ok none
  | u :: us => do
    let mask ← area (b.fillRandom [u])
    if mask.all id then
      match b.fillRandom [u] with
      | row :: _ => do
        let r ← storeRow row
        return some (r, us)
      | [] => .error .unmodelled
    else drawPoint area b us

/-- `fill_area_random` (meshutils.py 552-583). -/
def fillAreaRandom (area : AreaFn) (b : AABB ℝ) : Nat → List (List ℝ) → Py (Option (List (List ℝ)))
  | 0, _ => .ok (some [])
  | n + 1, us => do
    match ← drawPoint area b us with
    | none => .ok none
    | some (row, us) =>
      match ← fillAreaRandom area b n us with
      | none => .ok none
      | some rows => .ok (some (row :: rows))

/-- `AABB.area` (aabb.py 205-207). -/
def AABB.area (b : AABB ℝ) : Py ℝ :=
  if b.dim ≠ 2 then .error .assertion else do
  let w ← b.side 0
  let h ← b.side 1
  return |w| * |h|

/-- `int(x)`: rounding towards zero. -/
def pyInt (x : ℝ) : ℤ := by
  classical exact if 0 ≤ x then ⌊x⌋ else ⌈x⌉

/-- `fill_area_random_density` (meshutils.py 586-607); `torch.zeros` rejects negative sizes. -/
def fillAreaRandomDensity (area : AreaFn) (b : AABB ℝ) (density : ℝ) (us : List (List ℝ)) : Py (Option (List (List ℝ))) := do
  let a ← b.area
  if pyInt (a * density) < 0 then .error .runtime else fillAreaRandom area b (pyInt (a * density)).toNat us

/-- `area_AABB` (meshutils.py 280-300) on rows of `cols` columns. -/
def areaAABB (cols : Nat) (points : List (Nat → ℝ)) (aabb : Option (AABB ℝ)) : Py (List Bool) :=
  match aabb with
  | none => .error .runtime
  | some b => points.mapM (b.isInside cols)

/-- `centers` of `compute_centers_normals_lengths` (meshutils.py 615), one triangle. -/
def faceCenter (v0 v1 v2 : Vec 3) : Vec 3 := fun c => 0.5 * (v0 c + v1 c + v2 c)

/-- `torch.cross` of two vectors. -/
def cross3 (a b : Vec 3) : Vec 3 := ![a 1 * b 2 - a 2 * b 1, a 2 * b 0 - a 0 * b 2, a 0 * b 1 - a 1 * b 0]

/-- `normals` (616). -/
def faceNormal (v0 v1 v2 : Vec 3) : Vec 3 := fun c => 0.5 * cross3 (relDiff v1 v0) (relDiff v2 v0) c

/-- `lengths` (617). -/
def faceLength (v0 v1 v2 : Vec 3) : ℝ := Real.sqrt (∑ c, faceNormal v0 v1 v2 c ^ 2)

/-- A triangle as its three vertices. -/
abbrev Tri := Vec 3 × Vec 3 × Vec 3

/-- The normals of a list of triangles (616). `torch.cross` without `dim` takes the first axis of
size 3: the coordinates, except for exactly three triangles, where it is the axis of the
triangles. -/
def faceNormals : List Tri → List (Vec 3)
  | [t0, t1, t2] =>
    let a (t : Tri) : Vec 3 := relDiff t.2.1 t.1
    let b (t : Tri) : Vec 3 := relDiff t.2.2 t.1
    [fun c => 0.5 * (a t1 c * b t2 c - a t2 c * b t1 c), fun c => 0.5 * (a t2 c * b t0 c - a t0 c * b t2 c),
      fun c => 0.5 * (a t0 c * b t1 c - a t1 c * b t0 c)]
  | ts => ts.map fun t => faceNormal t.1 t.2.1 t.2.2

/-- One triangle of a mesh (614); `index_select` raises `IndexError` for an index that is too large. -/
def selectFace (vertices : List (Vec 3)) (f : Nat × Nat × Nat) : Py Tri :=
  match vertices[f.1]?, vertices[f.2.1]?, vertices[f.2.2]? with
  | some v0, some v1, some v2 => .ok (v0, v1, v2)
  | _, _, _ => .error .index

/-- The row of the result for one triangle: centre, normal, length (615-617). -/
def faceRow (t : Tri) (n : Vec 3) : Vec 3 × Vec 3 × ℝ := (faceCenter t.1 t.2.1 t.2.2, n, Real.sqrt (∑ c, n c ^ 2))

/-- `compute_centers_normals_lengths` (meshutils.py 610-618). -/
def centersNormalsLengths (vertices : List (Vec 3)) (faces : List (Nat × Nat × Nat)) : Py (List (Vec 3 × Vec 3 × ℝ)) := do
  let ts ← faces.mapM (selectFace vertices)
  return List.zipWith faceRow ts (faceNormals ts)

/-- `kernel_smooth` (meshutils.py 621-626): one row; `k` is the kernel of two points. -/
def kernelSmooth (k : Vec d → Vec d → ℝ) {n : Nat} (x : Fin n → Vec d) (i : Fin n) : Vec d :=
  fun c => (∑ j, k (x i) (x j) * x j c) / ∑ j, k (x i) (x j)

/-- `gaussian_kernel_smooth` (meshutils.py 629-633). -/
def gaussianKernelSmooth (σ : ℝ) {n : Nat} (x : Fin n → Vec d) : Fin n → Vec d := kernelSmooth (kXY σ) x

open Classical in
/-- The loop of `resample_curve` (652-659) with `m` iterations left. -/
def resampleLoop (curve : List (Vec d)) (lengths : List ℝ) (interval : ℝ) : Nat → Vec d → Vec d → ℝ → Nat → Py (List (Vec d))
  | 0, _, _, _, _ => .ok []
  | m + 1, p0, p1, cur, idx =>
    match lengths[idx]? with
    | none => .error .index
    | some len => do
      let t := (cur - (lengths.take idx).sum) * len
      let out : Vec d := fun c => t * p1 c - p0 c
      let cur := cur + interval
      if cur ≥ (lengths.take idx).sum then
        match curve[idx + 2]? with
        | none => .error .index
        | some q => do
          let rest ← resampleLoop curve lengths interval m p1 q cur (idx + 1)
          return out :: rest
      else
        let rest ← resampleLoop curve lengths interval m p0 p1 cur idx
        return out :: rest

open Classical in
/-- `resample_curve` (meshutils.py 636-661): `close_shape(curve)[:-2]` are the points but the
last, so `lengths` are the distances of consecutive points. -/
def resampleCurve (curve : List (Vec d)) (density : ℝ) : Py (List (Vec d)) :=
  match curve with
  | p0 :: p1 :: _ =>
    let lengths := (edges curve).map fun e => tdist e.2 e.1
    if ⌊lengths.sum * density⌋ < 0 then .error .runtime
    else if density = 0 then .error .zeroDivision
    else resampleLoop curve lengths (1 / density) ⌊lengths.sum * density⌋.toNat p0 p1 0 0
  | _ => .ok curve

end
end Imodal
