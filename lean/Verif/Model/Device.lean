import Verif.Model.Params
/-!
# Moving a registration model, and giving it another initial state

Models `RegistrationModel.to_device` (imodal/Models/registration_model.py 149-155; the class defines
the method twice and Python keeps the second definition, 142-147 is never used) and
`fill_init_manifold` (120-122), on the heap of `Verif.Model.Manifold`.

Simplified: a device is a string and every device exists. Of a module only the manifold is
represented; the tensors a module keeps elsewhere (its controls, the matrix of a linear module, growth
constants) are not followed. The triangles and the bitmap of a deformable are not represented
(deformable.py 237-239, deformable_image2d.py 96-98).
-/
set_option autoImplicit false
namespace Imodal
variable {α : Type}

/-- `BaseManifold.to_(device=…)` (Manifolds/Abstract.py 38-57), for a compound manifold on each member
in turn (Compound.py 13-16); an empty manifold has no tensors (Empty.py 18-19). -/
def Man.toDevice (dev : String) : Man → PM α Unit
  | .empty => pure ()
  | .leaf i => leafToDevice i dev
  | .compound ms => devList ms
where
  devList : List Man → PM α Unit
  | [] => pure ()
  | m :: ms => do
      m.toDevice dev
      devList ms

/-- What `to_` of a deformation module finds: the manifold of the module (e.g. Translation.py 32-33), or
a `CompoundModule`, which has no method `to_` (Combination.py 12-131). -/
inductive Movable
  | single (m : Man)
  | compound (ms : List Man)

def Movable.toDevice (dev : String) : Movable → PM α Unit
  | .single m => m.toDevice dev
  | .compound _ => Prog.throw .attribute

/-- `[deformation_module.to_(device=device) for deformation_module in self.__deformation_modules]` (150-151). -/
def modulesToDevice (dev : String) : List Movable → PM α Unit
  | [] => pure ()
  | m :: ms => do
      m.toDevice dev
      modulesToDevice dev ms

/-- `RegistrationModel.to_device` (149-155) for a model over the modules `mods` and deformables with
manifolds `Ds` (`Deformable.to_device`, deformable.py 73-75, 155-157); the result is the new parameter dict. -/
def ParamModel.toDevice (M : ParamModel) (mods : List Movable) (Ds : List Man) (dev : String) : PM α (Dict String (List Ref)) := do
  modulesToDevice dev mods
  Man.toDevice.devList dev Ds
  Man.toDevice.devList dev M.init
  computeParameters M

/-- `fill_init_manifold` (120-122): the given manifold replaces the initial state by reference. -/
def ParamModel.fillInit (M : ParamModel) (init : List Man) : PM α (ParamModel × Dict String (List Ref)) := do
  let M' := { M with init := init }
  let P ← computeParameters M'
  pure (M', P)

end Imodal
