import Verif.Model.Aabb
/-!
# Specification notions for bounding boxes
-/
set_option autoImplicit false
namespace Imodal
variable {𝕜 : Type}

/-- A proper box: as many bounds as dimensions, lower bounds not above upper bounds. -/
structure AABB.WF [LE 𝕜] (b : AABB 𝕜) : Prop where
  lmin : b.kmin.length = b.dim
  lmax : b.kmax.length = b.dim
  le : ∀ (i : Nat) (lo hi : 𝕜), b.kmin[i]? = some lo → b.kmax[i]? = some hi → lo ≤ hi

/-- A point (given by its coordinates) lies in the box. -/
def AABB.Contains [LE 𝕜] (b : AABB 𝕜) (p : Nat → 𝕜) : Prop :=
  ∀ (i : Nat) (lo hi : 𝕜), b.kmin[i]? = some lo → b.kmax[i]? = some hi → lo ≤ p i ∧ p i ≤ hi

/-- A point given as a list of coordinates lies in the box. -/
def AABB.ContainsL [LE 𝕜] (b : AABB 𝕜) (p : List 𝕜) : Prop :=
  p.length = b.dim ∧ ∀ (i : Nat) (lo hi x : 𝕜), b.kmin[i]? = some lo → b.kmax[i]? = some hi →
    p[i]? = some x → lo ≤ x ∧ x ≤ hi

/-- Row-major position of a multi-index. -/
def rowMajor : List Nat → List Nat → Nat
  | _ :: ns, i :: is => i * ns.prod + rowMajor ns is
  | _, _ => 0

/-- A multi-index within a shape. -/
def InShape : List Nat → List Nat → Prop
  | [], [] => True
  | n :: ns, i :: is => i < n ∧ InShape ns is
  | _, _ => False

end Imodal
