import Verif.Model.Optim
import Verif.Model.Scipy
/-!
# The object that runs torch optimisers, `imodal/Models/optimizer_torch.py` 11-84

The torch optimiser (`SGD`, `LBFGS`, or the gradient descent of optimizer_gd.py) is an arbitrary pair
of a constructor and a `step`. `step` changes the optimiser and the parameters of the model, calls the
closure any number of times, and may raise; the closure's cost dictionaries are listed in order.
The callback is one that returns; what it is given is recorded. Printing is left out.
-/
set_option autoImplicit false
namespace Imodal

/-- What one call of `step` does (67). -/
structure TorchStep (S W K : Type) where
  result : Py Unit
  inner : S
  world : W
  evals : List (Dict String (XF K))

/-- A class of torch optimisers: the constructor with options (40, 42) and `step`. -/
structure TorchKind (O S W K : Type) where
  create : O → Py S
  step : S → W → TorchStep S W K

/-- The entry `'neval'` of the result: a count (77, 81) or, for NaN, the cost (74). -/
inductive NEval (K : Type)
  | count (n : Nat)
  | cost (x : XF K)

/-- The dictionary that is returned (74, 77, 81). -/
structure TorchRes (K : Type) where
  success : Bool
  final : XF K
  message : OptMessage
  neval : NEval K

/-- An `OptimizerTorch` with the parameters of its model: the torch optimiser if there is one,
`__eval_count` and `__last_costs`. -/
structure TorchObj (S W K : Type) where
  inner : Option S
  world : W
  count : Nat
  last : Option (Dict String (XF K))

/-- The state of the loop; `seen` is what the callback was given. -/
structure TorchRun (S W K : Type) where
  inner : S
  world : W
  count : Nat
  last : Option (Dict String (XF K))
  seen : List (W × Option (Dict String (XF K)))

variable {O S W K : Type} [Field K] [LinearOrder K]

/-- `__init__` (12-21). -/
def TorchObj.new (w : W) : TorchObj S W K := ⟨none, w, 0, none⟩

/-- `reset` (27-28). -/
def TorchObj.reset (o : TorchObj S W K) : TorchObj S W K := { o with inner := none }

/-- `self.__optimizer.step(closure=_evaluate)` (47-62, 67). -/
def TorchKind.stepOnce (k : TorchKind O S W K) (r : TorchRun S W K) : Py Unit × TorchRun S W K :=
  let s := k.step r.inner r.world
  (s.result, ⟨s.inner, s.world, r.count + s.evals.length, s.evals.getLast?.or r.last, r.seen⟩)

/-- The loop (64-79), from iteration `i` on; `none` when it ends without returning. -/
def TorchKind.loop (k : TorchKind O S W K) (tol : K) (miniter : Nat) : Nat → Nat → XF K → TorchRun S W K → Py (Option (TorchRes K)) × TorchRun S W K
  | 0, _, _, r => (.ok none, r)
  | n + 1, i, last, r =>
    match k.stepOnce r with
    | (.error e, r1) => (.error e, r1)
    | (.ok (), r1) =>
      let r2 := { r1 with seen := r1.seen ++ [(r1.world, r1.last)] }
      match r2.last with
      | none => (.error .attribute, r2)
      | some c =>
        let t := sumCosts c
        if t.isNan then (.ok (some ⟨false, .nan, .nan, .cost t⟩), r2)
        else if ((last.sub t).div (XF.max3 t last (.fin 1))).le (.fin tol) ∧ miniter ≤ i then
          (.ok (some ⟨true, t, .converged, .count r2.count⟩), r2)
        else k.loop tol miniter n (i + 1) t r2

/-- The torch optimiser of a call (37-42): the one there is, or else a new one. -/
def TorchKind.obtain (k : TorchKind O S W K) (o : TorchObj S W K) (options : O) : Py S :=
  match o.inner with
  | some s => .ok s
  | none => k.create options

/-- `optimize` (30-81): what it returns, what the callback was given, and the object afterwards. -/
def TorchKind.optimize (k : TorchKind O S W K) (o : TorchObj S W K) (options : O) (tol : Option K) (miniter maxIter : Nat) :
    Py (TorchRes K) × List (W × Option (Dict String (XF K))) × TorchObj S W K :=
  match k.obtain o options with
  | .error e => (.error e, [], o)
  | .ok s =>
    let out := k.loop (tol.getD (1 / 10 ^ 10)) miniter maxIter 0 .pinf ⟨s, o.world, 0, none, []⟩
    let o' : TorchObj S W K := ⟨some out.2.inner, out.2.world, out.2.count, out.2.last⟩
    match out.1 with
    | .error e => (.error e, out.2.seen, o')
    | .ok (some res) => (.ok res, out.2.seen, o')
    | .ok none =>
      match (if maxIter = 0 then none else out.2.last) with
      | none => (.error .unboundLocal, out.2.seen, o')
      | some c => (.ok ⟨false, sumCosts c, .maxIter, .count out.2.count⟩, out.2.seen, o')

end Imodal
