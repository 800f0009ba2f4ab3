import Verif.Model.Shooting
import Verif.Spec.Modules
/-! Notions used in the statements about shooting. -/
set_option autoImplicit false
namespace Imodal
noncomputable section
variable {d : Nat}

/-- Both raise, or both return related values. -/
def PyRel {α β : Type} (Q : α → β → Prop) : Py α → Py β → Prop
  | .ok a, .ok b => Q a b
  | .error _, .error _ => True
  | _, _ => False

/-- The manifold has no momentum. -/
def Mfd.ZeroCot (M : Mfd d) : Prop := ∀ a ∈ M.unrollCot.flatten, a = 0

mutual
/-- Some of the modules asks the dual field for Jacobians when it computes its geodesic controls. -/
def DefModule.ReadsJac : DefModule d → Prop
  | .translations _ => False
  | .implicit0 _ => False
  | .oriented _ => False
  | .constrained _ => False
  | .globalTranslation _ => False
  | .linear _ => False
  | .implicit1 _ => True
  | .divFree _ => True
  | .arap _ => True
  | .silent _ => False
  | .compound ms => DefModule.SomeReadsJac ms
def DefModule.SomeReadsJac : List (DefModule d) → Prop
  | [] => False
  | m :: ms => m.ReadsJac ∨ DefModule.SomeReadsJac ms
end

/-- A manifold without momentum that dual fields can be computed for. If a module of `m` reads
Jacobians of the dual field, then the manifold adds no directions where `m` has none. -/
structure Mfd.Passive (M : Mfd d) (m : DefModule d) : Prop where
  zero : M.ZeroCot
  noEmpty : M.NoEmptyCompound
  dir : m.ReadsJac → m.manifold.NoDirections → M.NoDirections

/-- A compound without its `i`-th member. -/
def Mfd.without (i : Nat) : Mfd d → Mfd d
  | .compound l => .compound (l.eraseIdx i)
  | m => m
def DefModule.without (i : Nat) : DefModule d → DefModule d
  | .compound l => .compound (l.eraseIdx i)
  | m => m
def Ctrl.without (i : Nat) : Ctrl d → Ctrl d
  | .list l => .list (l.eraseIdx i)
  | c => c

/-- The `i`-th member of a compound. -/
def Mfd.member (i : Nat) : Mfd d → Mfd d
  | .compound l => l.getD i .empty
  | m => m

/-- `r'` is what `r` is without the `i`-th module: final modules, costs, intermediate states and
intermediate controls. -/
structure Shot.Without (i : Nat) (r r' : Shot d) : Prop where
  module : r'.module = r.module.without i
  costs : r'.costs = r.costs
  states : r'.states = r.states.map (Mfd.without i)
  ctrls : r'.ctrls = r.ctrls.map (Ctrl.without i)

mutual
/-- The sum of the momenta of the points. -/
def Mfd.momentum : Mfd d → Vec d
  | .landmarks _ cot => fun c => ∑ i, cot i c
  | .direction _ _ _ cot _ => fun c => ∑ i, cot i c
  | .frame _ _ cot _ => fun c => ∑ i, cot i c
  | .empty => 0
  | .compound ms => Mfd.momentumAll ms
def Mfd.momentumAll : List (Mfd d) → Vec d
  | [] => 0
  | m :: ms => m.momentum + Mfd.momentumAll ms
end

mutual
/-- All points moved by `v`. Directions and frames stay. -/
def Mfd.shift (v : Vec d) : Mfd d → Mfd d
  | .landmarks gd cot => .landmarks (fun i => gd i + v) cot
  | .direction t gd dir cot cdir => .direction t (fun i => gd i + v) dir cot cdir
  | .frame gd R cot cR => .frame (fun i => gd i + v) R cot cR
  | .empty => .empty
  | .compound ms => .compound (Mfd.shiftAll v ms)
def Mfd.shiftAll (v : Vec d) : List (Mfd d) → List (Mfd d)
  | [] => []
  | m :: ms => m.shift v :: Mfd.shiftAll v ms
end

mutual
/-- What moving all points by `v` adds to the entries of the descriptors. -/
def Mfd.displacement (v : Vec d) : Mfd d → List ℝ
  | @Mfd.landmarks _ n _ _ => flatVecs fun _ : Fin n => v
  | @Mfd.direction _ _ n _ _ _ _ => flatVecs (fun _ : Fin n => v) ++ flatVecs (0 : Fin n → Vec d)
  | @Mfd.frame _ n _ _ _ _ => flatVecs (fun _ : Fin n => v) ++ flatMats (0 : Fin n → Mat d)
  | .empty => []
  | .compound ms => Mfd.displacementAll v ms
def Mfd.displacementAll (v : Vec d) : List (Mfd d) → List ℝ
  | [] => []
  | m :: ms => m.displacement v ++ Mfd.displacementAll v ms
end

end
end Imodal
