import Verif.Model.Aabb
import Verif.Model.MeshUtils
import Mathlib.Analysis.SpecialFunctions.Pow.Real
/-!
# Items, sizes and density fills of boxes (`imodal/Utilities/aabb.py`)

Numbers are real numbers (exact arithmetic).  `AABB.area` is in `Verif/Model/MeshUtils.lean`.
-/
set_option autoImplicit false
namespace Imodal

/-- The argument of `__getitem__`: an integer, a string or anything else. -/
inductive BoxKey
  | int (i : Int)
  | str (s : String)
  | other

/-- `t[i]` for a Python tuple: negative numbers count from the end. -/
def pyItem {α : Type} (l : List α) (i : Int) : Py α :=
  match l[(if i < 0 then i + l.length else i).toNat]? with
  | some x => if (if i < 0 then i + l.length else i) < 0 then .error .index else .ok x
  | none => .error .index

/-- `__length_index` (aabb.py 171-172). -/
def AABB.lengthIndex (b : AABB ℝ) (i : Int) : Py ℝ :=
  match pyItem b.kmax i with
  | .error e => .error e
  | .ok hi =>
    match pyItem b.kmin i with
    | .error e => .error e
    | .ok lo => .ok (hi - lo)

/-- The numeric properties (aabb.py 152-184) as `getattr(self, key)` reads them.  Other
attribute names are not modelled. -/
def AABB.attr (b : AABB ℝ) : String → Py ℝ
  | "xmin" => pyItem b.kmin 0
  | "xmax" => pyItem b.kmax 0
  | "ymin" => pyItem b.kmin 1
  | "ymax" => pyItem b.kmax 1
  | "zmin" => pyItem b.kmin 2
  | "zmax" => pyItem b.kmax 2
  | "width" => b.lengthIndex 0
  | "height" => b.lengthIndex 1
  | "depth" => b.lengthIndex 2
  | _ => .error .unmodelled

/-- `__getitem__` (aabb.py 94-100). -/
def AABB.item (b : AABB ℝ) : BoxKey → Py ℝ
  | .int i => pyItem b.totuple i
  | .str s => b.attr s
  | .other => .error .value

/-- `length` (aabb.py 199-202). -/
def AABB.length (b : AABB ℝ) : Py ℝ :=
  if b.dim = 1 then b.attr "width" else .error .assertion

/-- `abs(self.kmax - self.kmin)` for two properties. -/
def AABB.absDiff (b : AABB ℝ) (hi lo : String) : Py ℝ :=
  match b.attr hi with
  | .error e => .error e
  | .ok x =>
    match b.attr lo with
    | .error e => .error e
    | .ok y => .ok |x - y|

/-- `volume` (aabb.py 209-212). -/
def AABB.volume (b : AABB ℝ) : Py ℝ :=
  if b.dim = 3 then do
    let x ← b.absDiff "xmax" "xmin"
    let y ← b.absDiff "ymax" "ymin"
    let z ← b.absDiff "zmax" "zmin"
    .ok (x * y * z)
  else .error .assertion

/-- `fill_random_density` (aabb.py 224-232).  `rand n` is what `torch.rand(n, dim)` returns;
torch rejects a negative size. -/
noncomputable def AABB.fillRandomDensity (b : AABB ℝ) (density : ℝ) (rand : Nat → List (List ℝ)) :
    Py (List (List ℝ)) :=
  if pyInt (b.shape.prod * density) < 0 then .error .runtime
  else .ok (b.fillRandom (rand (pyInt (b.shape.prod * density)).toNat))

/-- `fill_uniform_density` (aabb.py 274-282).  `1./dim` and `1./density**…` raise for a zero
divisor.  A root of a negative density is a complex number in dimension two and above, which
`torch.arange` rejects with `TypeError`; in dimension one the power is the number itself. -/
noncomputable def AABB.fillUniformDensity (b : AABB ℝ) (density : ℝ) : Py (List (List ℝ)) :=
  if b.dim = 0 then .error .zeroDivision
  else if density = 0 then .error .zeroDivision
  else if density < 0 then
    if b.dim = 1 then b.fillUniformSpacing (1 / density) else .error .type
  else b.fillUniformSpacing (1 / density ^ ((1 : ℝ) / b.dim))

end Imodal
