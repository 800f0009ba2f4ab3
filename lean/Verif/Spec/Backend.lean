import Verif.Model.Registration
import Verif.Spec.Shooting
/-! The same modules built with another compute backend. -/
set_option autoImplicit false
namespace Imodal
noncomputable section
variable {d : Nat}

mutual
/-- The module built with the torch backend, with the same parameters, descriptors, momenta,
controls and cached results. -/
def DefModule.torch : DefModule d → DefModule d
  | .translations m => .translations { m with r := .torch }
  | .implicit0 m => .implicit0 { m with r := .torch }
  | .implicit1 m => .implicit1 { m with r := .torch }
  | .compound ms => .compound (DefModule.torchAll ms)
  | m => m
def DefModule.torchAll : List (DefModule d) → List (DefModule d)
  | [] => []
  | m :: ms => m.torch :: DefModule.torchAll ms
end

/-- The modules differ at most in the compute backends they were built with. -/
def SameButBackend (m m' : DefModule d) : Prop := m.torch = m'.torch

/-- Two fields with the same values and first derivatives. -/
def FieldExpr.Alike (f g : FieldExpr d) : Prop := f.eval 0 = g.eval 0 ∧ f.eval 1 = g.eval 1

/-- Two results of shooting that differ at most in the backends of the final modules. -/
structure Shot.SameButBackend (r r' : Shot d) : Prop where
  module : Imodal.SameButBackend r.module r'.module
  costs : r.costs = r'.costs
  states : r.states = r'.states
  ctrls : r.ctrls = r'.ctrls

/-- Two results of deforming that differ at most in the backends of the modules. -/
structure Deformed.SameButBackend {G : Type} (r r' : Deformed d G) : Prop where
  geometries : r.geometries = r'.geometries
  cost : r.cost = r'.cost
  shot : r.shot.SameButBackend r'.shot
  compound : Imodal.SameButBackend r.compound r'.compound

/-- Two registration models that differ at most in the backends of their modules. -/
structure RegModel.SameButBackend {G T : Type} (M M' : RegModel d G T) : Prop where
  deformables : M.deformables = M'.deformables
  modules : DefModule.torchAll M.modules = DefModule.torchAll M'.modules
  attachments : M.attachments = M'.attachments
  init : M.init = M'.init
  learned : M.learned = M'.learned
  lam : M.lam = M'.lam
  reduce : M.reduce = M'.reduce

end
end Imodal
