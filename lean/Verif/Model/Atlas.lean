import Verif.Model.Params
/-!
# The tensors of an atlas model

Models which tensors `AtlasModel` (imodal/Models/atlas.py) copies for each subject, records for
differentiation and gives to the optimiser (lines 14-81, 115-139), on the heap of
`Verif.Model.Manifold`. The values are in `Verif.Model.Registration`.

Simplified: of a parameter group only the list `'params'` is kept. The modules are distinct
objects, so that the memo of `copy.deepcopy` plays no part. Of the settings of the template only
what decides about exceptions is kept.
-/
set_option autoImplicit false
namespace Imodal
variable {α : Type}

/-- `copy.deepcopy` of a `Manifold` object: the containers are copied by
`TensorContainer.__deepcopy__` (tensor_container.py 27-30), which calls `clone` (32-43). -/
def leafDeepcopy (i : Nat) : PM α Nat := do
  let l ← getLeaf i
  let gd ← tcClone l.gd
  let tan ← tcClone l.tan
  let cotan ← tcClone l.cotan
  let w ← Prog.get
  Prog.set { w with leaves := w.leaves ++ [{ l with gd := gd, tan := tan, cotan := cotan }] }
  pure w.leaves.length

/-- `copy.deepcopy` of the manifold of a module. -/
def Man.deepcopy : Man → PM α Man
  | .empty => pure .empty
  | .leaf i => do
      let j ← leafDeepcopy i
      pure (.leaf j)
  | .compound ms => do
      let ms' ← deepcopyList ms
      pure (.compound ms')
where
  deepcopyList : List Man → PM α (List Man)
  | [] => pure []
  | m :: ms => do
      let m' ← Man.deepcopy m
      let ms' ← deepcopyList ms
      pure (m' :: ms')

/-- One entry of `registration_models`: the model, and the manifolds of the copies of the template
and of the modules it works with. -/
structure Subject where
  model : ParamModel
  template : Man
  modules : List Man

/-- `RegistrationModel(copy.deepcopy(template), copy.deepcopy(modules), …)` (atlas.py 53): `k` is the
number of attachments, of which the model asserts that there is one. -/
def newSubject (T : Man) (ms : List Man) (k : Nat) (others : Dict String (List Ref)) : PM α Subject := do
  let T' ← T.deepcopy
  let ms' ← Man.deepcopy.deepcopyList ms
  if k ≠ 1 then Prog.throw .assertion
  else
    let M ← ParamModel.new [T'] ms' [] none .none others
    pure ⟨M.1, T', ms'⟩

/-- The loop over the population (atlas.py 51-53). -/
def newSubjects (T : Man) (ms : List Man) (k : Nat) (others : Dict String (List Ref)) : Nat → PM α (List Subject)
  | 0 => pure []
  | n + 1 => do
      let S ← newSubject T ms k others
      let Ss ← newSubjects T ms k others n
      pure (S :: Ss)

/-- `model.init_manifold[i+1].gd_requires_grad_()` for every model (atlas.py 70-72). -/
def recordSubjects (i : Nat) : List Subject → PM α Unit
  | [] => pure ()
  | S :: Ss =>
    match S.model.init[i + 1]? with
    | none => Prog.throw .index
    | some m => do
        m.requiresGrad .gd (some true) (-1)
        recordSubjects i Ss

/-- The loop over the modules (atlas.py 68-72): only an element of `fit_gd` that is `True` counts;
without any subject there is no model to index. -/
def recordFit (fs : List FitGd) (Ss : List Subject) : List Nat → PM α Unit
  | [] => pure ()
  | i :: is =>
    match fs[i]? with
    | none => Prog.throw .index
    | some (.flag true) =>
      match Ss with
      | [] => Prog.throw .index
      | S :: Ss' => do
          recordSubjects i (S :: Ss')
          recordFit fs Ss is
    | some _ => recordFit fs Ss is

/-- An element of `fit_gd` is true as a condition: a flag that is set or a list with elements. -/
def FitGd.truthy : FitGd → Bool
  | .flag b => b
  | .tensors bs => !bs.isEmpty

/-- The loop over the modules in `_compute_parameters` (atlas.py 127-132): the descriptors of the
first subject. -/
def firstGd (fs : List FitGd) (Ss : List Subject) : List Nat → PM α (List Ref)
  | [] => pure []
  | i :: is =>
    match fs[i]? with
    | none => Prog.throw .index
    | some f =>
      if f.truthy then
        match Ss with
        | [] => Prog.throw .index
        | S :: _ =>
          match S.model.init[i + 1]? with
          | none => Prog.throw .index
          | some m => do
              let w ← Prog.get
              let rs ← firstGd fs Ss is
              pure (m.unroll w .gd ++ rs)
      else firstGd fs Ss is

/-- Indexing what was given as `fit_gd`: a boolean cannot be indexed. -/
def FitArg.loop {β : Type} (f : FitArg) (n : Nat) (b : β) (p : List FitGd → PM α β) : PM α β :=
  match f with
  | .none => pure b
  | .bool _ => if n = 0 then p [] else Prog.throw .type
  | .list fs => p fs

/-- The costates of all subjects (atlas.py 120-123); every registration model computes its own
parameters first. -/
def atlasCotan : List Subject → PM α (List Ref)
  | [] => pure []
  | S :: Ss => do
      let _ ← computeParameters S.model
      let w ← Prog.get
      let rs ← atlasCotan Ss
      pure (Man.unroll.unrollList w .cotan S.model.init ++ rs)

/-- The attributes of an `AtlasModel` that determine its parameters: `count` is the number of
modules, `ht` the costate of the template if it is optimised. -/
structure AtlasParams where
  subjects : List Subject
  count : Nat
  fitGd : FitArg
  others : Dict String (List Ref)
  ht : Option Ref

/-- `_compute_parameters` (atlas.py 115-139). -/
def AtlasParams.compute (A : AtlasParams) : PM α (Dict String (List Ref)) := do
  let cotan ← atlasCotan A.subjects
  let d : Dict String (List Ref) := Dict.set [] "cotan" cotan
  let gd ← A.fitGd.loop A.count [] fun fs => firstGd fs A.subjects (List.range A.count)
  let d := match A.fitGd with
    | .none => d
    | _ => d.set "gd" gd
  let d := A.others.foldl (fun d e => d.set e.1 e.2) d
  let d := match A.ht with
    | none => d
    | some r => d.set "ht" [r]
  pure d

/-- How a population is evaluated. -/
inductive AtlasMode
  | sequential
  | parallel

/-- `evaluate_mode` (atlas.py 18-26): the first check lets `'heterogeneous'` pass, the second does
not. -/
def AtlasMode.ofString (s : String) : Py AtlasMode :=
  if s ≠ "sequential" ∧ s ≠ "parallel" ∧ s ≠ "heterogeneous" then .error .runtime
  else if s = "sequential" then .ok .sequential
  else if s = "parallel" then .ok .parallel
  else .error .runtime

/-- The settings of the template (atlas.py 28-32): `sigma` says whether `ht_sigma` was given, `htgd`
whether that argument is true, `keys` are the keys of `htgd_settings`. -/
structure TemplateArgs where
  optimise : Bool
  sigma : Bool
  htgd : Bool
  keys : Option (List String)

def TemplateArgs.check (t : TemplateArgs) : Py Unit :=
  if t.optimise && !t.sigma then .error .runtime
  else if t.htgd then
    match t.keys with
    | none => .error .type
    | some ks => if "sigma" ∈ ks then .ok () else .error .runtime
  else .ok ()

/-- `torch.zeros_like(template.silent_module.manifold.gd, requires_grad=True, …)` (atlas.py 78-79):
several descriptors are a list, of which `zeros_like` raises. -/
def newHt (zero : α → α) (T : Man) (optimise : Bool) : PM α (Option Ref) :=
  if optimise then do
    let w ← Prog.get
    match T.get w .gd with
    | .tensor r => do
        let o ← getObj r
        let v ← readT r
        let t ← allocT o.device o.dtype true false (zero v)
        pure (some t)
    | _ => Prog.throw .type
  else pure none

/-- `AtlasModel.__init__` (atlas.py 14-81): `T` and `ms` are the manifolds of the template and of the
modules, `k` the number of attachments, `n` the number of subjects. -/
def AtlasParams.new (zero : α → α) (T : Man) (ms : List Man) (k n : Nat) (mode : String) (t : TemplateArgs) (fitGd : FitArg)
    (others : Dict String (List Ref)) : PM α (AtlasParams × Dict String (List Ref)) := do
  let _ ← Prog.lift (AtlasMode.ofString mode)
  Prog.lift t.check
  let Ss ← newSubjects T ms k others n
  fitGd.loop ms.length () fun fs => recordFit fs Ss (List.range ms.length)
  let ht ← newHt zero T t.optimise
  let A : AtlasParams := ⟨Ss, ms.length, fitGd, others, ht⟩
  let P ← A.compute
  pure (A, P)

end Imodal
