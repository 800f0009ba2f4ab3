import Verif.Model.Py
import Verif.Model.ListUtils
/-!
# Global registries

`imodal/Models/optimizer.py` (20-48), `imodal/Utilities/compute_backend.py`,
`imodal/Utilities/factory.py`, and the places that read the compute backend:
`StructuredFields/Abstract.py` 24-43, `DeformationModules/Abstract.py` 69-81,
`Attachment/attachment_varifold.py` 158-178.
-/
namespace Imodal

/-- `d.keys()` in insertion order. -/
def Dict.keys {κ ν : Type} (d : Dict κ ν) : List κ := d.map (·.1)

/-! ## Optimiser registry -/

/-- The two module variables of optimizer.py 20-21. `μ` are models, `ω` optimisers;
a registered builder is called with the model and may raise. -/
structure OptRegistry (μ ω : Type) where
  optimizers : Dict String (μ → Py ω)
  defaultOptimizer : String

namespace OptRegistry
variable {μ ω : Type}

/-- optimizer.py 20-21 at import time of the module. -/
def initial : OptRegistry μ ω := ⟨[], "scipy_l-bfgs-b"⟩

/-- `is_valid_optimizer` (optimizer.py 46-47). -/
def isValid (r : OptRegistry μ ω) (method : String) : Bool := method ∈ r.optimizers.keys

/-- `create_optimizer` (optimizer.py 24-26). -/
def create (r : OptRegistry μ ω) (method : String) (model : μ) : Py ω :=
  if r.isValid method then
    match r.optimizers.get? method with
    | some b => b model
    | none => .error .key
  else .error .assertion

/-- `set_default_optimizer` (optimizer.py 29-31). The assignment in line 31 is to a
*local* name (there is no `global` statement), so the module variable keeps its value. -/
def setDefault (method : String) : Prog (OptRegistry μ ω) Unit := fun r =>
  if r.isValid method then (.ok (), r) else (.error .assertion, r)

/-- `get_default_optimizer` (optimizer.py 34-35). -/
def getDefault (r : OptRegistry μ ω) : String := r.defaultOptimizer

/-- `register_optimizer` (optimizer.py 38-39). -/
def register (method : String) (b : μ → Py ω) : Prog (OptRegistry μ ω) Unit := fun r =>
  (.ok (), { r with optimizers := r.optimizers.set method b })

/-- `list_optimizers` (optimizer.py 42-43). -/
def list (r : OptRegistry μ ω) : List String := r.optimizers.keys

end OptRegistry

/-- One call changing (or trying to change) the optimiser registry. -/
inductive OptCall (μ ω : Type)
  | register (method : String) (b : μ → Py ω)
  | setDefault (method : String)
  | create (method : String) (model : μ)

/-- Effect of one call on the registry, whether it returns or raises. -/
def OptCall.exec {μ ω : Type} : OptCall μ ω → OptRegistry μ ω → OptRegistry μ ω
  | .register m b, r => (OptRegistry.register m b r).2
  | .setDefault m, r => (OptRegistry.setDefault m r).2
  | .create _ _, r => r

/-- Effect of a sequence of calls, in order. -/
def OptCall.execAll {μ ω : Type} (h : List (OptCall μ ω)) (r : OptRegistry μ ω) :
    OptRegistry μ ω := h.foldl (fun r c => c.exec r) r

/-! ## Compute backend -/

/-- `__compute_backend` (compute_backend.py 1) is one string. -/
abbrev BackendVar := String

def initialBackend : BackendVar := "torch"

/-- `__compute_backends` (compute_backend.py 2). -/
def computeBackends : List String := ["keops", "torch"]

/-- `set_compute_backend` (compute_backend.py 5-17). -/
def setComputeBackend (b : String) : Prog BackendVar Unit := fun v =>
  if b ≠ "torch" ∧ b ≠ "keops" then (.error .runtime, v) else (.ok (), b)

/-- `get_compute_backend` (compute_backend.py 20-23). -/
def getComputeBackend (v : BackendVar) : String := v

/-- `is_valid_backend` (compute_backend.py 26-27). -/
def isValidBackend (b : String) : Bool := b ∈ computeBackends

/-- The reduction routine a structured field ends up with. -/
inductive Reduction | torch | keops
  deriving DecidableEq, Repr

/-- `StructuredField.__init__` (StructuredFields/Abstract.py 25-39): the stored
backend name and the selected reduction. -/
def buildField (backend : Option String) (v : BackendVar) : Py (String × Reduction) :=
  let b := match backend with
    | none => getComputeBackend v
    | some b => b
  if isValidBackend b then
    if b = "torch" then .ok (b, .torch)
    else if b = "keops" then .ok (b, .keops)
    else .error .notImplemented
  else .error .assertion

/-- `create_deformation_module` (DeformationModules/Abstract.py 69-81). -/
def createModule {α ω : Type} (buildTorch buildKeops : α → Py ω) (args : α)
    (backend : Option String) (v : BackendVar) : Py ω :=
  let b := match backend with
    | none => getComputeBackend v
    | some b => b
  if b = "torch" then buildTorch args
  else if b = "keops" then buildKeops args
  else .error .notImplemented

/-- The class built by `VarifoldAttachment` (attachment_varifold.py 158-178). -/
inductive VarifoldClass | d2 (r : Reduction) | d3 (r : Reduction)
  deriving DecidableEq, Repr

def varifoldAttachment (dim : Int) (backend : Option String) (v : BackendVar) :
    Py VarifoldClass :=
  let b := match backend with
    | none => getComputeBackend v
    | some b => b
  if dim = 2 then
    if b = "torch" then .ok (.d2 .torch)
    else if b = "keops" then .ok (.d2 .keops)
    else .error .runtime
  else if dim = 3 then
    if b = "torch" then .ok (.d3 .torch)
    else if b = "keops" then .ok (.d3 .keops)
    else .error .runtime
  else .error .runtime

/-! ## Object factory -/

/-- A registered builder: `α` are keyword arguments, `ω` results. `None` (or another
falsy object) may also be registered; it is treated like an absent builder. -/
structure Factory (κ α ω : Type) where
  builders : Dict κ (Option (α → Py ω))

namespace Factory
variable {κ α ω : Type} [DecidableEq κ]

/-- `dict.update` (factory.py 5). -/
def updateDict {ν : Type} (d e : Dict κ ν) : Dict κ ν := e.foldl (fun d x => d.set x.1 x.2) d

/-- `ObjectFactory.__init__` (factory.py 2-5). -/
def init (builders : Option (Dict κ (Option (α → Py ω)))) : Factory κ α ω :=
  match builders with
  | none => ⟨[]⟩
  | some b => ⟨updateDict [] b⟩

/-- `ObjectFactory.__call__` (factory.py 7-8): `spawn` is not defined at module level,
so the call raises NameError whatever the key. -/
def call (_f : Factory κ α ω) (_key : κ) (_args : α) : Py ω := .error .name

/-- `ObjectFactory.register_builder` (factory.py 10-11). -/
def registerBuilder (f : Factory κ α ω) (key : κ) (b : Option (α → Py ω)) : Factory κ α ω :=
  ⟨f.builders.set key b⟩

/-- `ObjectFactory.spawn` (factory.py 13-19). -/
def spawn (f : Factory κ α ω) (key : κ) (args : α) : Py ω :=
  match f.builders.get? key with
  | none => .error .key
  | some none => .error .key
  | some (some b) => b args

end Factory

end Imodal
