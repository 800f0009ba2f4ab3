import Verif.Model.ListUtils
import Mathlib.Algebra.Order.Field.Basic
import Mathlib.Algebra.Order.Floor.Ring
/-!
# Axis aligned bounding boxes and grids (`imodal/Utilities/aabb.py`)

Numbers are elements of an arbitrary linearly ordered field `𝕜` (exact arithmetic).
A tensor of points of shape `(N, cols)` is a list of `N` rows; a row is a function
from column numbers, of which only the first `cols` are meaningful.
-/
set_option autoImplicit false
namespace Imodal

variable {𝕜 : Type}

/-- The three private attributes of `AABB` (aabb.py 40-42). Tuples and lists are not
distinguished: the code never mutates them in place. -/
structure AABB (𝕜 : Type) where
  dim : Nat
  kmin : List 𝕜
  kmax : List 𝕜
  deriving DecidableEq

/-- A positional constructor argument: a number or an iterable of numbers. -/
inductive BoxArg (𝕜 : Type)
  | num (x : 𝕜)
  | iter (l : List 𝕜)

section ctor
variable [LinearOrder 𝕜]

/-- The loop `for _kmin, _kmax in zip(kmin, kmax): if _kmin > _kmax: raise ValueError`
(aabb.py 36-38, 50-52). -/
def checkOrder : List 𝕜 → List 𝕜 → Py Unit
  | a :: as, b :: bs => if a > b then .error .value else checkOrder as bs
  | _, _ => .ok ()

/-- `__init_from_two_iterables` (aabb.py 33-42). -/
def AABB.ofTwo (kmin kmax : List 𝕜) : Py (AABB 𝕜) :=
  if kmin.length ≠ kmax.length then .error .assertion else
  match checkOrder kmin kmax with
  | .error e => .error e
  | .ok _ => .ok ⟨kmin.length, kmin, kmax⟩

/-- `iterable[::2]`. -/
def evens : List 𝕜 → List 𝕜
  | [] => []
  | [a] => [a]
  | a :: _ :: l => a :: evens l

/-- `iterable[1::2]`. -/
def odds : List 𝕜 → List 𝕜
  | [] => []
  | [_] => []
  | _ :: b :: l => b :: odds l

/-- `__init_from_iterable` (aabb.py 44-56). -/
def AABB.ofFlat (l : List 𝕜) : Py (AABB 𝕜) :=
  if l.length % 2 ≠ 0 then .error .assertion else
  match checkOrder (evens l) (odds l) with
  | .error e => .error e
  | .ok _ => .ok ⟨l.length / 2, evens l, odds l⟩

/-- All arguments are numbers. -/
def BoxArg.nums : List (BoxArg 𝕜) → Py (List 𝕜)
  | [] => .ok []
  | .num x :: l =>
    match BoxArg.nums l with
    | .error e => .error e
    | .ok xs => .ok (x :: xs)
  | .iter _ :: _ => .error .unmodelled

/-- `AABB(*args)` with at least one positional argument (aabb.py 16-31).  A mixture of
numbers and iterables is not modelled; no positional and no keyword argument fails the
assertion of line 23. -/
def AABB.ofArgs : List (BoxArg 𝕜) → Py (AABB 𝕜)
  | [] => .error .assertion
  | [.iter a, .iter b] => AABB.ofTwo a b
  | args =>
    match BoxArg.nums args with
    | .error e => .error e
    | .ok l => AABB.ofFlat l

/-- `AABB.dim_prefix` (aabb.py 13). -/
def dimPrefix : List String := ["x", "y", "z"]

/-- The loop of `__init_from_kwargs` (aabb.py 63-73), with its early `break`. -/
def kwargsLoop (kw : Dict String 𝕜) : List String → List 𝕜 → List 𝕜 → Py (List 𝕜 × List 𝕜)
  | [], mins, maxs => .ok (mins, maxs)
  | p :: ps, mins, maxs =>
    match kw.get? (p ++ "min"), kw.get? (p ++ "max") with
    | some a, some b => if a > b then .error .value else kwargsLoop kw ps (mins ++ [a]) (maxs ++ [b])
    | _, _ => .ok (mins, maxs)

/-- `__init_from_kwargs` (aabb.py 58-77), and the assertion of line 23. -/
def AABB.ofKwargs (kw : Dict String 𝕜) : Py (AABB 𝕜) :=
  if kw.isEmpty then .error .assertion else
  match kwargsLoop kw dimPrefix [] [] with
  | .error e => .error e
  | .ok (mins, maxs) => .ok ⟨mins.length, mins, maxs⟩

/-- `build_from_points` (aabb.py 79-89); `torch.min(points, dim=0)` raises `IndexError`
without rows. -/
def AABB.buildFromPoints (cols : Nat) : List (Nat → 𝕜) → Py (AABB 𝕜)
  | [] => .error .index
  | r :: rs => AABB.ofTwo
      ((List.range cols).map fun j => rs.foldl (fun m p => min m (p j)) (r j))
      ((List.range cols).map fun j => rs.foldl (fun m p => max m (p j)) (r j))

/-- `tocouple` (aabb.py 130-139). -/
def AABB.tocouple (b : AABB 𝕜) : List (𝕜 × 𝕜) := b.kmin.zip b.kmax

/-- `totuple` (aabb.py 108-116). -/
def AABB.totuple (b : AABB 𝕜) : List 𝕜 := b.tocouple.flatMap fun c => [c.1, c.2]

/-- `d.update(...)` on a list of entries. -/
def dictUpdate (d : Dict String 𝕜) : List (String × 𝕜) → Dict String 𝕜
  | [] => d
  | (k, v) :: l => dictUpdate (d.set k v) l

/-- `todict` (aabb.py 118-128). -/
def AABB.todict (b : AABB 𝕜) : Dict String 𝕜 :=
  dictUpdate
    (dictUpdate [] ((dimPrefix.zip b.kmin).map fun e => (e.1 ++ "min", e.2)))
    ((dimPrefix.zip b.kmax).map fun e => (e.1 ++ "max", e.2))

end ctor

section arith
variable [Field 𝕜] [LinearOrder 𝕜]

/-- Column `i` of `is_inside`: `torch.where((p >= kmin[i]) & (p <= kmax[i]), 1., 0.)`
for one row (aabb.py 286). -/
def insideCol (b : AABB 𝕜) (row : Nat → 𝕜) (i : Nat) : Option 𝕜 :=
  match b.kmin[i]?, b.kmax[i]? with
  | some lo, some hi => some (if lo ≤ row i ∧ row i ≤ hi then 1 else 0)
  | _, _ => none

/-- `list(itertools.accumulate(xs, lambda x, y: x*y))[-1]` for one row: the product from
the left; `IndexError` when there is no column. -/
def accumulateLast : List 𝕜 → Py 𝕜
  | [] => .error .index
  | x :: xs => .ok (xs.foldl (· * ·) x)

/-- `is_inside` (aabb.py 284-286) for one row; `cols` is `points.shape[1]`.  A missing
column or bound raises `IndexError`. `.to(bool)` tests for non-zero. -/
def AABB.isInside (b : AABB 𝕜) (cols : Nat) (row : Nat → 𝕜) : Py Bool :=
  if b.dim > cols then .error .index else
  match (List.range b.dim).mapM (insideCol b row) with
  | none => .error .index
  | some xs =>
    match accumulateLast xs with
    | .error e => .error e
    | .ok v => .ok (decide (v ≠ 0))

/-- `shape` (aabb.py 175-193): `kmax[i] - kmin[i]` for `i in range(dim)`. -/
def AABB.shape (b : AABB 𝕜) : List 𝕜 := List.zipWith (fun hi lo => hi - lo) b.kmax b.kmin

/-- `centers` (aabb.py 195-197). -/
def AABB.centers (b : AABB 𝕜) : List 𝕜 := List.zipWith (fun hi lo => (1/2) * (hi + lo)) b.kmax b.kmin

/-- `tuple(scale*(k-center)+center for scale, k, center in zip(scales, ks, centers))`
(aabb.py 298-299, 327-328). -/
def scaleSide : List 𝕜 → List 𝕜 → List 𝕜 → List 𝕜
  | s :: ss, k :: ks, c :: cs => (s * (k - c) + c) :: scaleSide ss ks cs
  | _, _, _ => []

/-- `scale_` with one factor per dimension, or one for all (aabb.py 314-328). -/
def AABB.scaleInPlace (b : AABB 𝕜) : BoxArg 𝕜 → Py (AABB 𝕜)
  | .num f => .ok ⟨b.dim, scaleSide (List.replicate b.dim f) b.kmin b.centers,
      scaleSide (List.replicate b.dim f) b.kmax b.centers⟩
  | .iter fs =>
    if fs.length ≠ b.dim then .error .assertion else
    .ok ⟨b.dim, scaleSide fs b.kmin b.centers, scaleSide fs b.kmax b.centers⟩

/-- `max(range(len(shape)), key=lambda i: shape[i])` followed by `shape[...]`: the value at
the first maximal position (aabb.py 294-295); `ValueError` on an empty range. -/
def pyMax : List 𝕜 → Py 𝕜
  | [] => .error .value
  | x :: xs => .ok (xs.foldl (fun m y => if m < y then y else m) x)

/-- `[top/shape for shape in self.shape]`; Python raises on a zero divisor. -/
def divAll (top : 𝕜) : List 𝕜 → Py (List 𝕜)
  | [] => .ok []
  | s :: ss =>
    if s = 0 then .error .zeroDivision else
    match divAll top ss with
    | .error e => .error e
    | .ok l => .ok (top / s :: l)

/-- `squared_` (aabb.py 289-299). -/
def AABB.squaredInPlace (b : AABB 𝕜) : Py (AABB 𝕜) :=
  if b.dim = 1 then .ok b else
  match pyMax b.shape with
  | .error e => .error e
  | .ok top =>
    match divAll top b.shape with
    | .error e => .error e
    | .ok scales => .ok ⟨b.dim, scaleSide scales b.kmin b.centers, scaleSide scales b.kmax b.centers⟩

/-- A Python heap of `AABB` objects, addressed by number. -/
abbrev Boxes (𝕜 : Type) := List (AABB 𝕜)

/-- Method call with effect on object `i`; an exception leaves the object as it was,
because `scale_` and `squared_` assign only after all computations. -/
def boxMethod (i : Nat) (f : AABB 𝕜 → Py (AABB 𝕜)) : Prog (Boxes 𝕜) Unit := fun s =>
  match s[i]? with
  | none => (.error .name, s)
  | some b =>
    match f b with
    | .error e => (.error e, s)
    | .ok b' => (.ok (), s.set i b')

/-- `copy.copy(self)` then the in-place method on the copy, returning it
(`squared` 301-312, `scale` 330-337). -/
def boxCopyMethod (i : Nat) (f : AABB 𝕜 → Py (AABB 𝕜)) : Prog (Boxes 𝕜) Nat := fun s =>
  match s[i]? with
  | none => (.error .name, s)
  | some b =>
    match boxMethod s.length f (s ++ [b]) with
    | (.error e, s') => (.error e, s')
    | (.ok _, s') => (.ok s.length, s')

/-- `scale_`. -/
def boxScale_ (i : Nat) (f : BoxArg 𝕜) : Prog (Boxes 𝕜) Unit := boxMethod i (·.scaleInPlace f)
/-- `scale`. -/
def boxScale (i : Nat) (f : BoxArg 𝕜) : Prog (Boxes 𝕜) Nat := boxCopyMethod i (·.scaleInPlace f)
/-- `squared_`. -/
def boxSquared_ (i : Nat) : Prog (Boxes 𝕜) Unit := boxMethod i AABB.squaredInPlace
/-- `squared`. -/
def boxSquared (i : Nat) : Prog (Boxes 𝕜) Nat := boxCopyMethod i AABB.squaredInPlace

/-- `torch.linspace(a, b, n)` in exact arithmetic. -/
def linspace (a b : 𝕜) : Nat → List 𝕜
  | 0 => []
  | 1 => [a]
  | n + 2 => (List.range (n + 2)).map fun i : Nat => a + (i : 𝕜) * ((b - a) / ((n : 𝕜) + 1))

end arith

/-- Number of elements of the grid spanned by the axes. -/
def gridSize {α : Type} : List (List α) → Nat
  | [] => 1
  | l :: ls => l.length * gridSize ls

/-- `torch.meshgrid(axes)` (matrix indexing), each output tensor given by its flattened
row-major data: the first axis varies slowest. -/
def meshgrid {α : Type} : List (List α) → List (List α)
  | [] => []
  | l :: ls => (l.flatMap fun x => List.replicate (gridSize ls) x) ::
      (meshgrid ls).map fun t => (List.replicate l.length t).flatten

/-- `torch.cat([g.view(1, -1) for g in grids], 0).t()` (usefulfunctions.py 10-12) on
flattened grids with `n` elements each: row `j` collects the `j`-th element of each. -/
def stackRows {α : Type} (n : Nat) : List (List α) → List (List α)
  | [] => List.replicate n []
  | g :: gs => List.zipWith (fun x r => x :: r) g (stackRows n gs)

/-- `grid2vec(*grids)`: `torch.cat` rejects an empty list and different sizes. -/
def grid2vec {α : Type} (gs : List (List α)) : Py (List (List α)) :=
  match gs with
  | [] => .error .runtime
  | g :: rest =>
    if rest.all (fun t => t.length == g.length) then .ok (stackRows g.length gs)
    else .error .runtime

/-- `vec.t()[i]`. -/
def vecCol {α : Type} (rows : List (List α)) (i : Nat) : Option (List α) := rows.mapM (·[i]?)

/-- `vec.t()[i].view(shape)`. -/
def viewCol {α : Type} (cols : Nat) (rows : List (List α)) (shape : List Nat) (i : Nat) :
    Py (List α) :=
  if i < cols then
    match vecCol rows i with
    | none => .error .index
    | some c => if c.length = shape.prod then .ok c else .error .runtime
  else .error .index

/-- `vec2grid(vec, *shape)` (usefulfunctions.py 15-17), flattened results. `cols` is
`vec.shape[1]`. Row `i` of the transpose must exist and `view` needs a matching size. -/
def vec2grid {α : Type} (cols : Nat) (rows : List (List α)) (shape : List Nat) :
    Py (List (List α)) :=
  (List.range shape.length).mapM (viewCol cols rows shape)

section fill
variable [Field 𝕜] [LinearOrder 𝕜] [IsStrictOrderedRing 𝕜]

/-- `zip(kmin, kmax, counts)` with `linspace` (aabb.py 247). -/
def linspaces : List 𝕜 → List 𝕜 → List Nat → List (List 𝕜)
  | a :: as, b :: bs, n :: ns => linspace a b n :: linspaces as bs ns
  | _, _, _ => []

/-- `fill_count` (aabb.py 234-248): one count per dimension. -/
def AABB.fillCount (b : AABB 𝕜) (counts : List Nat) : Py (List (List 𝕜)) :=
  if counts.length ≠ b.dim then .error .assertion else
  grid2vec (meshgrid (linspaces b.kmin b.kmax counts))

/-- `fill_count` with one integer for all dimensions (aabb.py 244-245). -/
def AABB.fillCountInt (b : AABB 𝕜) (count : Nat) : Py (List (List 𝕜)) :=
  b.fillCount (List.replicate b.dim count)

/-- `torch.arange(a, b, step)`: `ceil((b-a)/step)` values `a + i*step`; torch rejects a zero
step and bounds inconsistent with the sign of the step. -/
def arange [FloorRing 𝕜] (a b step : 𝕜) : Py (List 𝕜) :=
  if step = 0 then .error .runtime
  else if (0 < step ∧ b < a) ∨ (step < 0 ∧ a < b) then .error .runtime
  else .ok ((List.range (⌈(b - a) / step⌉.toNat)).map fun i : Nat => a + (i : 𝕜) * step)

/-- `zip(kmin, kmax)` with `arange`. -/
def aranges [FloorRing 𝕜] (step : 𝕜) : List 𝕜 → List 𝕜 → Py (List (List 𝕜))
  | a :: as, b :: bs =>
    match arange a b step with
    | .error e => .error e
    | .ok l =>
      match aranges step as bs with
      | .error e => .error e
      | .ok ls => .ok (l :: ls)
  | _, _ => .ok []

/-- `fill_uniform_spacing` (aabb.py 262-272). -/
def AABB.fillUniformSpacing [FloorRing 𝕜] (b : AABB 𝕜) (spacing : 𝕜) : Py (List (List 𝕜)) :=
  match aranges spacing b.kmin b.kmax with
  | .error e => .error e
  | .ok ls => grid2vec (meshgrid ls)

/-- `fill_random` (aabb.py 214-222) for the uniform variates `u` (one list of `dim`
numbers of `[0, 1)` per point). -/
def AABB.fillRandom (b : AABB 𝕜) (us : List (List 𝕜)) : List (List 𝕜) :=
  us.map fun u => List.zipWith (fun a m => a + m) (List.zipWith (fun s x => s * x) b.shape u) b.kmin

end fill

end Imodal
