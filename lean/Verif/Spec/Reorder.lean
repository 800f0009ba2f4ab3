import Verif.Model.Registration
import Verif.Spec.Shooting
/-! Listing the same modules in another order. -/
set_option autoImplicit false
namespace Imodal
noncomputable section
variable {d : Nat}

/-- Each of the numbers below the length once. -/
def IsOrder (is : List Nat) : Prop := is.Perm (List.range is.length)

/-- The entries of a list in the order `is`: the entry listed at `k` is the one that was listed at
`is[k]`. A list of another length stays. -/
def reorder {α : Type} (is : List Nat) (l : List α) : List α := if l.length = is.length then is.filterMap (l[·]?) else l

/-- The same for the members of compounds. -/
def Mfd.reorder (is : List Nat) : Mfd d → Mfd d
  | .compound l => .compound (Imodal.reorder is l)
  | m => m
def DefModule.reorder (is : List Nat) : DefModule d → DefModule d
  | .compound l => .compound (Imodal.reorder is l)
  | m => m
def Ctrl.reorder (is : List Nat) : Ctrl d → Ctrl d
  | .list l => .list (Imodal.reorder is l)
  | c => c

/-- What shooting leaves behind, listed in another order. -/
def Shot.reorder (is : List Nat) (r : Shot d) : Shot d :=
  ⟨r.module.reorder is, r.costs, r.states.map (Mfd.reorder is), r.ctrls.map (Ctrl.reorder is)⟩

variable {G T : Type}

/-- The registration with the deformation modules listed in another order: the initial manifolds and
the learnable controls are listed accordingly; the deformables stay. -/
def RegModel.reorder (is : List Nat) (M : RegModel d G T) : RegModel d G T :=
  { M with
    modules := Imodal.reorder is M.modules
    init := M.init.take M.deformables.length ++ Imodal.reorder is (M.init.drop M.deformables.length)
    learned := M.learned.map fun l => (l.1, l.2.map (Imodal.reorder is)) }

end
end Imodal
