import Verif.Model.Optim
/-!
# The SciPy optimisers, `imodal/Models/optimizer_scipy.py`

`minimize` of SciPy is any program that evaluates the function it is given at points of its choice, calls
the callback and stops with a result. The model that is optimised is seen through the contents of its
parameters: the costs `evaluate` returns and the gradients its `backward` accumulates are functions of
them. Simplifications: numbers are extended numbers without rounding; printing is left out.
-/
set_option autoImplicit false
namespace Imodal
variable {K : Type} [Field K] [LinearOrder K]

/-- `a + b`. -/
def XF.add : XF K → XF K → XF K
  | .fin a, .fin b => .fin (a + b)
  | .nan, _ => .nan
  | _, .nan => .nan
  | .pinf, .ninf => .nan
  | .ninf, .pinf => .nan
  | .pinf, _ => .pinf
  | _, .pinf => .pinf
  | .ninf, _ => .ninf
  | _, .ninf => .ninf

/-- `sum(costs.values())`. -/
def sumCosts (costs : Dict String (XF K)) : XF K := (costs.map Prod.snd).foldl XF.add (.fin 0)

/-- What the optimiser sees of a model: its parameters, and the costs and gradients at the contents of
all tensors. -/
structure ScipyModel (K : Type) where
  refs : List Nat
  costs : (Nat → List (XF K)) → Py (Dict String (XF K))
  grads : (Nat → List (XF K)) → Nat → List (XF K)

/-- The contents of the tensors. -/
def contents (st : PStore (XF K)) : Nat → List (XF K) := fun r => (st r).data

/-- What `backward` adds to `param.grad`. -/
def accumulate (old : Option (List (XF K))) (g : List (XF K)) : List (XF K) :=
  match old with
  | none => g
  | some o => List.zipWith XF.add o g

/-- `__last_costs`: not there before the first evaluation; a number after a cost was NaN. -/
inductive LastCosts (K : Type)
  | unset
  | costs (d : Dict String (XF K))
  | inf

/-- One evaluation that returned: the point, the costs of the model, and what is given to SciPy. -/
structure ScipyEval (K : Type) where
  x : List (XF K)
  costs : Dict String (XF K)
  value : XF K
  grad : Option (List (XF K))

/-- The tensors and `__last_costs`. `evals` and `calls` record what happens: the evaluations that
returned, and the costs given to the post iteration callback, each with the number of evaluations before. -/
structure ScipyState (K : Type) where
  store : PStore (XF K)
  last : LastCosts K
  evals : List (ScipyEval K)
  calls : List (Nat × Dict String (XF K))

/-- `__zero_grad` (optimizer_scipy.py 136-141). -/
def scipyZeroGrad (refs : List Nat) (st : PStore (XF K)) : PStore (XF K) := fun r =>
  if r ∈ refs then { st r with grad := (st r).grad.map fun g => g.map fun _ => .fin 0 } else st r

/-- `model.evaluate(target, shoot_solver, shoot_it)`; `graph` is false within `torch.autograd.no_grad()`,
where `evaluate` does not call `backward` (registration_model.py 255-260). -/
def ScipyModel.evaluate (M : ScipyModel K) (graph : Bool) : Prog (PStore (XF K)) (Dict String (XF K)) := fun st =>
  match M.costs (contents st) with
  | .error e => (.error e, st)
  | .ok c => (.ok c, if graph then fun r =>
      if r ∈ M.refs then { st r with grad := some (accumulate (st r).grad (M.grads (contents st) r)) } else st r
    else st)

/-- The function given to `minimize` (optimizer_scipy.py 54-82 if `needGrad`, else 84-104). With the
option `naninf`, costs that contain NaN are replaced by the number `inf`, which has no `values`: the
last line raises AttributeError. -/
def ScipyModel.closure (M : ScipyModel K) (needGrad naninf : Bool) (x : List (XF K)) : Prog (ScipyState K) (XF K × Option (List (XF K))) := fun s =>
  match numpyToModel M.refs x (scipyZeroGrad M.refs s.store) with
  | (.error e, st) => (.error e, { s with store := st })
  | (.ok (), st) =>
    match M.evaluate needGrad st with
    | (.error e, st) => (.error e, { s with store := st })
    | (.ok costs, st) =>
      let bad := costs.any fun c => c.2.isNan
      if bad && !naninf then (.error .value, { s with store := st })
      else
        match (if needGrad then (modelGradToNumpy M.refs st).map some else .ok none : Py (Option (List (XF K)))) with
        | .error e => (.error e, { s with store := st })
        | .ok g =>
          let badGrad := (g.getD []).any XF.isNan
          if badGrad && !naninf then (.error .value, { s with store := st })
          else if bad then (.error .attribute, { s with store := st, last := .inf })
          else
            let g := if badGrad then g.map fun l => l.map fun _ => XF.fin 0 else g
            (.ok (sumCosts costs, g), { s with store := st, last := .costs costs, evals := s.evals ++ [⟨x, costs, sumCosts costs, g⟩] })

/-- What `minimize` returns, as far as it is read. -/
structure ScipyRes (K : Type) where
  value : XF K
  success : Bool
  message : String
  nfev : Nat
  njev : Nat

/-- A run of `minimize`. -/
inductive Minimizer (K : Type)
  | stop (res : ScipyRes K)
  | eval (x : List (XF K)) (next : XF K → Option (List (XF K)) → Minimizer K)
  | callback (x : List (XF K)) (next : Minimizer K)

/-- `_post_iteration_callback` (optimizer_scipy.py 36-38): the argument is not looked at. `given` says
whether a callback was given to `optimize`. -/
def scipyCallback (given : Bool) : Prog (ScipyState K) Unit := fun s =>
  if given then
    match s.last with
    | .unset => (.error .attribute, s)
    | .inf => (.error .unmodelled, s)
    | .costs d => (.ok (), { s with calls := s.calls ++ [(s.evals.length, d)] })
  else (.ok (), s)

/-- `minimize(closure, x0, callback=…)`. -/
def Minimizer.run (M : ScipyModel K) (needGrad naninf given : Bool) : Minimizer K → Prog (ScipyState K) (ScipyRes K)
  | .stop res => fun s => (.ok res, s)
  | .eval x next => fun s =>
    match M.closure needGrad naninf x s with
    | (.error e, s') => (.error e, s')
    | (.ok v, s') => (next v.1 v.2).run M needGrad naninf given s'
  | .callback _ next => fun s =>
    match scipyCallback given s with
    | (.error e, s') => (.error e, s')
    | (.ok (), s') => next.run M needGrad naninf given s'

/-- The values of the dictionary that `optimize` returns. -/
inductive ResVal (K : Type)
  | num (x : XF K)
  | flag (b : Bool)
  | text (s : String)
  | count (n : Nat)

/-- `optimize` (optimizer_scipy.py 29-52) of an optimiser: `minimizer x0` is what SciPy does from `x0`.
Line 50 is an annotation and stores nothing. -/
def ScipyModel.optimize (M : ScipyModel K) (needGrad naninf given : Bool) (minimizer : List (XF K) → Minimizer K) :
    Prog (ScipyState K) (Dict String (ResVal K)) := fun s =>
  match modelToNumpy M.refs s.store with
  | .error e => (.error e, s)
  | .ok x0 =>
    match (minimizer x0).run M needGrad naninf given s with
    | (.error e, s') => (.error e, s')
    | (.ok res, s') => (.ok [("final", .num res.value), ("success", .flag res.success), ("message", .text res.message), ("neval", .count res.nfev)], s')

end Imodal
