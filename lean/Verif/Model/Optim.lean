import Verif.Model.Registry
import Verif.Model.XFloat
import Mathlib.Algebra.BigOperators.Group.List.Basic
/-!
# Optimisers and the fitter

`Models/optimizer_scipy.py` 112-134 (packing), `Models/optimizer_gd.py` 47-78, 80-125,
`Models/optimizer_torch.py` 30-81 (the loop), `Models/fitter.py` 31-103.

Simplifications: numbers are exact, so the conversion of parameters to float64 and back
loses nothing; scipy's `minimize` and the `step` methods of the torch optimisers are
arbitrary functions.
-/
set_option autoImplicit false
namespace Imodal

/-! ## Packing -/

/-- A parameter tensor: shape, row-major content, memory contiguity and gradient content
(`none` when `.grad is None`). -/
structure Param (𝕜 : Type) where
  shape : List Nat
  data : List 𝕜
  contiguous : Bool
  grad : Option (List 𝕜)

/-- `param.numel()`. -/
def Param.numel {𝕜 : Type} (p : Param 𝕜) : Nat := p.shape.prod

/-- Tensors by reference, so that one tensor may appear twice among the parameters. -/
abbrev PStore (𝕜 : Type) := Nat → Param 𝕜

/-- `__parameters_to_list` on a dictionary (optimizer_scipy.py 106-108). -/
def parametersToList {κ : Type} (parameters : Dict κ (List Nat)) : List Nat :=
  (parameters.map (·.2)).flatten

/-- `__model_to_numpy(model, False)` (optimizer_scipy.py 112-123); `hstack([])` raises
ValueError. -/
def modelToNumpy {𝕜 : Type} (refs : List Nat) (st : PStore 𝕜) : Py (List 𝕜) :=
  if refs.all (fun r => (st r).contiguous) then
    match refs with
    | [] => .error .value
    | _ => .ok (refs.map (fun r => (st r).data)).flatten
  else .error .value

/-- `[param.grad.data.flatten() for …]`: AttributeError when a gradient is missing. -/
def collectGrads {𝕜 : Type} (st : PStore 𝕜) : List Nat → Py (List (List 𝕜))
  | [] => .ok []
  | r :: rs =>
    match (st r).grad with
    | none => .error .attribute
    | some g =>
      match collectGrads st rs with
      | .error e => .error e
      | .ok gs => .ok (g :: gs)

/-- `__model_to_numpy(model, True)` (optimizer_scipy.py 112-123). -/
def modelGradToNumpy {𝕜 : Type} (refs : List Nat) (st : PStore 𝕜) : Py (List 𝕜) :=
  if refs.all (fun r => (st r).contiguous) then
    match refs with
    | [] => .error .value
    | _ =>
      match collectGrads st refs with
      | .error e => .error e
      | .ok gs => .ok gs.flatten
  else .error .value

/-- `param.data = torch.from_numpy(x[i:i+offset]).view(size)` (optimizer_scipy.py 131): the
slice stops at the end of `x`; `view` raises RuntimeError when the number of elements
does not fit. The new data is contiguous. -/
def writeParam {𝕜 : Type} (r : Nat) (i : Nat) (x : List 𝕜) : Prog (PStore 𝕜) Unit := fun st =>
  let slice := (x.drop i).take (st r).numel
  if slice.length = (st r).numel then
    (.ok (), Function.update st r { st r with data := slice, contiguous := true })
  else (.error .runtime, st)

/-- The loop of `__numpy_to_model` (optimizer_scipy.py 127-132); returns the final `i`. -/
def numpyToModelLoop {𝕜 : Type} (x : List 𝕜) : List Nat → Nat → Prog (PStore 𝕜) Nat
  | [], i => pure i
  | r :: rs, i => fun st =>
    let offset := (st r).numel
    (do
      writeParam r i x
      numpyToModelLoop x rs (i + offset)) st

/-- `__numpy_to_model(x)` (optimizer_scipy.py 125-134). -/
def numpyToModel {𝕜 : Type} (refs : List Nat) (x : List 𝕜) : Prog (PStore 𝕜) Unit := do
  let i ← numpyToModelLoop x refs 0
  if i = x.length then pure () else Prog.throw .assertion

/-! ## Gradient descent -/

section GD
variable {𝕜 E : Type}

/-- Options of one parameter group that the optimiser looks at
(optimizer_gd.py 35-38, 108-111). -/
structure GroupOpts (𝕜 : Type) where
  stepLength : Option 𝕜
  gamma1 : Option 𝕜
  gamma2 : Option 𝕜

/-- `reset` (optimizer_gd.py 28-38): the initial step lengths. -/
def gdInitSteps (initStep : 𝕜) (opts : List (GroupOpts 𝕜)) : List 𝕜 :=
  opts.map (fun o => o.stepLength.getD initStep)

/-- `__update_step_length` (optimizer_gd.py 106-111): multiply every step by the group's
factor, or the default one. -/
def gdUpdateSteps [Mul 𝕜] (sel : GroupOpts 𝕜 → Option 𝕜) (dflt : 𝕜)
    (opts : List (GroupOpts 𝕜)) (steps : List 𝕜) : List 𝕜 :=
  List.zipWith (fun o s => (sel o).getD dflt * s) opts steps

/-- `x_k_p1` of `__line_search_step` (optimizer_gd.py 96-98). -/
def gdMove [Sub E] [SMul 𝕜 E] (xk d : List (List E)) (steps : List 𝕜) : List (List E) :=
  List.zipWith (fun gd s => List.zipWith (fun p dp => p - s • dp) gd.1 gd.2) (xk.zip d) steps

/-- Write the elements of `ys` over the elements of `g`, stopping at the shorter one. -/
def overwrite : List E → List E → List E
  | x :: xs, y :: ys => y :: overwrite xs ys
  | xs, _ => xs

/-- `__fill_model_parameters` (optimizer_gd.py 116-118): both group lists are flattened and
zipped; the groups of the model keep their sizes. -/
def gdFill : List (List E) → List E → List (List E)
  | [], _ => []
  | g :: gs, ys => overwrite g ys :: gdFill gs (ys.drop g.length)

variable [Field 𝕜] [LinearOrder 𝕜] [Sub E] [SMul 𝕜 E]

/-- What the optimiser sees of the model: the cost at parameters and its gradient (same
group structure as the parameters). -/
structure GDProblem (𝕜 E : Type) where
  cost : List (List E) → XF 𝕜
  grad : List (List E) → List (List E)

/-- The state changed by `step`: model parameters and step lengths. -/
structure GDState (𝕜 E : Type) where
  params : List (List E)
  steps : List 𝕜

/-- The settings: factors of `__init__` and group options. -/
structure GDConf (𝕜 : Type) where
  gamma1 : 𝕜
  gamma2 : 𝕜
  opts : List (GroupOpts 𝕜)

/-- The `while` loop of `step` (optimizer_gd.py 55-78), with at most `fuel` line search
steps; `none` means that the loop is still running. `k` is `line_seach_step`. -/
def gdLoop (pb : GDProblem 𝕜 E) (cf : GDConf 𝕜) (xk d : List (List E)) (costK : XF 𝕜) :
    Nat → Nat → GDState 𝕜 E → Option (GDState 𝕜 E)
  | 0, _, _ => none
  | fuel + 1, k, s =>
    let params := gdFill s.params (gdMove xk d s.steps).flatten
    let cost := pb.cost params
    if cost.lt costK ∧ cost.isFinite then
      if k = 1 then
        some ⟨params, gdUpdateSteps GroupOpts.gamma2 cf.gamma2 cf.opts s.steps⟩
      else some ⟨params, s.steps⟩
    else if cost.eq costK then some ⟨params, s.steps⟩
    else gdLoop pb cf xk d costK fuel (k + 1)
      ⟨params, gdUpdateSteps GroupOpts.gamma1 cf.gamma1 cf.opts s.steps⟩

/-- `step` (optimizer_gd.py 47-78). -/
def gdStep (pb : GDProblem 𝕜 E) (cf : GDConf 𝕜) (fuel : Nat) (s : GDState 𝕜 E) :
    Option (GDState 𝕜 E) :=
  let xk := s.params
  let params := gdFill s.params xk.flatten
  gdLoop pb cf xk (pb.grad params) (pb.cost params) fuel 1 ⟨params, s.steps⟩

end GD

/-! ## The torch loop -/

/-- The dictionary returned by `optimize` (the messages as an enumeration). -/
inductive OptMessage | nan | converged | maxIter
  deriving DecidableEq, Repr

structure OptResult (𝕜 : Type) where
  success : Bool
  final : XF 𝕜
  message : OptMessage

section Torch
variable {𝕜 : Type} [Field 𝕜] [LinearOrder 𝕜]

/-- The `for` loop of `optimize` (optimizer_torch.py 64-79). `total i` is the total cost of
the last evaluation made by the i-th call of the optimiser's `step`. The result lists
the iterations for which the callback was called, and what is returned; `last` is
`none` while `total_cost` is unbound. -/
def torchLoop (total : Nat → XF 𝕜) (tol : 𝕜) (miniter maxIter : Nat) :
    Nat → Nat → XF 𝕜 → List Nat × Option (OptResult 𝕜)
  | 0, _, _ => ([], none)
  | n + 1, i, last =>
    let t := total i
    if t.isNan then ([i], some ⟨false, .nan, .nan⟩)
    else if ((last.sub t).div (XF.max3 t last (.fin 1))).le (.fin tol) ∧ miniter ≤ i then
      ([i], some ⟨true, t, .converged⟩)
    else
      let r := torchLoop total tol miniter maxIter n (i + 1) t
      (i :: r.1, r.2)

/-- `optimize` (optimizer_torch.py 30-81) after the construction of the torch optimiser.
The default tolerance is `1e-10`. With `max_iter = 0` the name `total_cost` in line 81 is
unbound. -/
def torchOptimize (total : Nat → XF 𝕜) (tol : Option 𝕜) (miniter maxIter : Nat) :
    List Nat × Py (OptResult 𝕜) :=
  let r := torchLoop total (tol.getD (1 / 10 ^ 10)) miniter maxIter maxIter 0 .pinf
  match r.2 with
  | some res => (r.1, .ok res)
  | none =>
    if maxIter = 0 then (r.1, .error .unboundLocal)
    else (r.1, .ok ⟨false, total (maxIter - 1), .maxIter⟩)

end Torch

/-! ## The fitter -/

/-- Parameter lists of the two `optimize` methods (optimizer_scipy.py 29,
optimizer_torch.py 30), without `self`; `true` marks a default value. -/
def scipyParams : List (String × Bool) :=
  [("target", false), ("max_iter", false), ("post_iteration_callback", false), ("costs", false),
   ("shoot_solver", false), ("shoot_it", false), ("tol", false), ("options", true)]
def torchParams : List (String × Bool) := scipyParams ++ [("miniter", true)]

/-- Python's argument binding for `f(p1, …, pn, **kw)` with distinct keywords. -/
def bindCall (params : List (String × Bool)) (nPos : Nat) (kws : List String) : Py Unit :=
  if params.length < nPos then .error .type
  else if kws.all (fun k => k ∈ (params.drop nPos).map (·.1)) then
    if (params.drop nPos).all (fun p => p.2 || p.1 ∈ kws) then .ok () else .error .type
  else .error .type

/-- What `fit` extracts from the options (fitter.py 34-55); `none` stands for the
built-in default (`'euler'`, `10`, `None`). -/
structure FitSettings (ν : Type) where
  solver : Option ν
  it : Option ν
  tol : Option ν

/-- `del d[k]`. -/
def Dict.erase {κ ν' : Type} [DecidableEq κ] (d : Dict κ ν') (k : κ) : Dict κ ν' :=
  d.filter (fun e => e.1 ≠ k)

/-- `if k in d: x = d[k]; del d[k]`. -/
def Dict.pop {κ ν' : Type} [DecidableEq κ] (d : Dict κ ν') (k : κ) : Option ν' × Dict κ ν' :=
  match d.get? k with
  | some v => (some v, d.erase k)
  | none => (none, d)

/-- The options part of `fit` (fitter.py 44-55). -/
def fitOptions {ν : Type} (options : Dict String ν) : FitSettings ν × Dict String ν :=
  let (solver, o1) := options.pop "shoot_solver"
  let (it, o2) := o1.pop "shoot_it"
  let (tol, o3) := o2.pop "tol"
  (⟨solver, it, tol⟩, o3)

/-- An optimiser as the fitter uses it: the parameter list of its `optimize`, and for given
settings the dictionaries passed to the callback, in order, with the result. `rest` are
the remaining options. -/
structure FitOptimizer (ν C R : Type) where
  params : List (String × Bool)
  run : FitSettings ν → Dict String ν → List (Dict String C) × Py R

/-- The optimiser's model: its `evaluate` at the current state with the given settings,
and whether it has the attribute `deformation_modules`. -/
structure FitModel (ν C : Type) where
  evaluate : FitSettings ν → Py (Dict String C)
  hasDeformationModules : Bool

/-- State that outlives a call of `fit`: the options dictionary, the cost history passed by
the caller and the iteration counter `__it`. -/
structure FitState (ν C : Type) where
  options : Dict String ν
  costs : Option (Dict String (List C))
  it : Nat

/-- `_post_iteration_callback` (fitter.py 68-89). Printing is left out; with `disp` the
access `model.deformation_modules[0]` raises AttributeError on models without it. -/
def fitCallback {ν C : Type} (m : FitModel ν C) (disp : Bool) (last : Dict String C) :
    Prog (FitState ν C) Unit := fun s =>
  if disp && !m.hasDeformationModules then (.error .attribute, s)
  else
    (.ok (), { s with
      it := s.it + 1
      costs := match s.costs with
        | some [] => some []
        | some (e :: d) => some (appendInDictOfList (e :: d) last)
        | none => none })

/-- Call the callback on each dictionary. -/
def fitCallbacks {ν C : Type} (m : FitModel ν C) (disp : Bool) :
    List (Dict String C) → Prog (FitState ν C) Unit
  | [] => pure ()
  | l :: ls => do fitCallback m disp l; fitCallbacks m disp ls

/-- `fit` (fitter.py 31-103); the returned dictionary of internal costs is left out and
replaced by the optimiser's result. -/
def fit {ν C R : Type} (o : FitOptimizer ν C R) (m : FitModel ν C) (disp : Bool) :
    Prog (FitState ν C) R := do
  let s ← Prog.get
  let (st, rest) := fitOptions s.options
  Prog.modify (fun s => { s with options := rest })
  if s.costs.isSome || disp then
    let c0 ← Prog.lift (m.evaluate st)
    Prog.modify (fun s => { s with costs := s.costs.map (fun c => appendInDictOfList c c0) })
  Prog.lift (bindCall o.params 7 ["miniter", "options"])
  let (dicts, r) := o.run st rest
  fitCallbacks m disp dicts
  Prog.lift r

end Imodal

namespace Imodal

/-- The registered optimisers (optimizer_scipy.py 151-156, optimizer_torch.py 94-98) with
the parameter list of their `optimize`, in order of registration. -/
def registeredOptimizers : Dict String (List (String × Bool)) :=
  [("scipy_nelder-mead", scipyParams), ("scipy_powell", scipyParams), ("scipy_cg", scipyParams),
   ("scipy_bfgs", scipyParams), ("scipy_newton-cg", scipyParams), ("scipy_l-bfgs-b", scipyParams),
   ("torch_sgd", torchParams), ("torch_lbfgs", torchParams), ("gd", torchParams)]

end Imodal
