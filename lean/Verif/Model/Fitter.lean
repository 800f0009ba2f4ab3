import Verif.Model.Optim
/-!
# Fitters as objects

`Fitter` (`imodal/Models/fitter.py` 10-109): its constructor, `reset` and `fit`, by what can be seen from
outside: which model is evaluated, which numbers are printed as iterations, when the optimiser is
reset and when the callback of the caller runs. Costs, options and times are in `Model/Optim.lean`.
-/
set_option autoImplicit false
namespace Imodal
variable {M K : Type}

/-- What can be seen. -/
inductive FitSeen (M K : Type)
  | evaluated (m : M)
  | iteration (n : Nat)
  | optimizerReset
  | called (callback : K)

/-- An optimiser: the model it was made for and the parameters of its `optimize`. -/
structure FitterOpt (M : Type) where
  model : M
  params : List (String × Bool)

/-- The argument `optimizer`. -/
inductive OptArg (M : Type)
  | default
  | name (s : String)
  | object (o : FitterOpt M)

structure Fitter (M K : Type) where
  model : M
  optimizer : FitterOpt M
  callback : Option K
  it : Nat

/-- `reset` (fitter.py 27-29). -/
def Fitter.reset (f : Fitter M K) : Fitter M K × List (FitSeen M K) := ({ f with it := 0 }, [.optimizerReset])

/-- `Fitter(model, optimizer, post_iteration_callback)` (fitter.py 11-25) for a model that is a `BaseModel`. -/
def Fitter.new (r : OptRegistry M (FitterOpt M)) (model : M) (optimizer : OptArg M) (callback : Option K) :
    Py (Fitter M K × List (FitSeen M K)) :=
  let o : Py (FitterOpt M) :=
    match optimizer with
    | .object o => .ok o
    | .name s => r.create s model
    | .default => r.create r.getDefault model
  match o with
  | .error e => .error e
  | .ok o => .ok (Fitter.reset ⟨model, o, callback, 0⟩)

/-- The optimisers registered on import (optimizer_scipy.py 144-156, optimizer_torch.py 87-98): each
builder makes an optimiser for the model it is called with. -/
def standardRegistry : OptRegistry M (FitterOpt M) :=
  ⟨registeredOptimizers.map fun e => (e.1, fun m => .ok ⟨m, e.2⟩), OptRegistry.initial (μ := M) (ω := FitterOpt M) |>.defaultOptimizer⟩

/-- How a call of `fit` goes: its flags, what the first evaluation answers, how often each iteration of
the optimiser evaluates the model, how often it is evaluated after the last one, and how that ends. -/
structure FitRun where
  disp : Bool
  costs : Bool
  first : Py Unit
  iterations : List Nat
  after : Nat
  result : Py Unit

/-- `_post_iteration_callback` (fitter.py 68-89): with `disp` the number is printed, then the modules of
the model are read, which raises AttributeError if it has none; then the counter advances. -/
def Fitter.onIteration (hasModules : M → Bool) (disp : Bool) (f : Fitter M K) : Py Unit × Fitter M K × List (FitSeen M K) :=
  let printed : List (FitSeen M K) := if disp then [.iteration f.it] else []
  if disp && !hasModules f.optimizer.model then (.error .attribute, f, printed) else (.ok (), { f with it := f.it + 1 }, printed)

/-- The iterations of the optimiser: it evaluates its own model. -/
def Fitter.iterate (hasModules : M → Bool) (run : FitRun) : List Nat → Fitter M K → Py Unit × Fitter M K × List (FitSeen M K)
  | [], f => (run.result, f, List.replicate run.after (.evaluated f.optimizer.model))
  | n :: ns, f =>
    let evals := List.replicate n (FitSeen.evaluated f.optimizer.model)
    match f.onIteration hasModules run.disp with
    | (.error e, f', l) => (.error e, f', evals ++ l)
    | (.ok (), f', l) =>
      let r := Fitter.iterate hasModules run ns f'
      (r.1, r.2.1, evals ++ l ++ r.2.2)

/-- `fit` (fitter.py 31-103). -/
def Fitter.fit (hasModules : M → Bool) (run : FitRun) (f : Fitter M K) : Py Unit × Fitter M K × List (FitSeen M K) :=
  let look := run.costs || run.disp
  let begun : List (FitSeen M K) := if look then [.evaluated f.model] else []
  match (if look then run.first else .ok ()) with
  | .error e => (.error e, f, begun)
  | .ok () =>
    match bindCall f.optimizer.params 7 ["miniter", "options"] with
    | .error e => (.error e, f, begun)
    | .ok () =>
      let r := f.iterate hasModules run run.iterations
      (r.1, r.2.1, begun ++ r.2.2)

/-- A call of a method. -/
inductive FitterCall
  | fit (run : FitRun)
  | reset

/-- Calls one after the other, each of which may raise. -/
def Fitter.calls (hasModules : M → Bool) : List FitterCall → Fitter M K → Fitter M K × List (FitSeen M K)
  | [], f => (f, [])
  | .fit run :: cs, f =>
    let r := f.fit hasModules run
    let s := Fitter.calls hasModules cs r.2.1
    (s.1, r.2.2 ++ s.2)
  | .reset :: cs, f =>
    let r := f.reset
    let s := Fitter.calls hasModules cs r.1
    (s.1, r.2 ++ s.2)

end Imodal
