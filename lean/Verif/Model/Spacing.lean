import Verif.Model.Aabb
/-!
# Boxes filled with grids

`AABB.fill_uniform_spacing_grid` (`imodal/Utilities/aabb.py` 250-260), with the shapes of the tensors.
-/
set_option autoImplicit false
namespace Imodal
variable {𝕜 : Type}

/-- A tensor: its shape, and its entries in row-major order. -/
structure GridTensor (𝕜 : Type) where
  shape : List Nat
  data : List 𝕜

/-- `fill_uniform_spacing_grid(spacing)` (aabb.py 250-260): the tensors of `torch.meshgrid`, as they
are. `torch.meshgrid` raises RuntimeError without axes. -/
def AABB.fillUniformSpacingGrid [Field 𝕜] [LinearOrder 𝕜] [IsStrictOrderedRing 𝕜] [FloorRing 𝕜] (b : AABB 𝕜) (spacing : 𝕜) :
    Py (List (GridTensor 𝕜)) :=
  match aranges spacing b.kmin b.kmax with
  | .error e => .error e
  | .ok [] => .error .runtime
  | .ok (l :: ls) => .ok ((meshgrid (l :: ls)).map fun t => ⟨(l :: ls).map List.length, t⟩)

end Imodal
