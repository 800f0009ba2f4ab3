import Verif.Model.Manifold
/-!
# The tensors of a registration model

Models which tensors `RegistrationModel` (imodal/Models/registration_model.py) copies, records for
differentiation and gives to the optimiser (lines 12-95, 176-210) and which tensors an evaluation
works on (276-291), on the heap of `Verif.Model.Manifold`.

Simplified: of a parameter group only the list `'params'` is kept, not learning rates. The modules
are given by their manifolds and their control tensors.
-/
set_option autoImplicit false
namespace Imodal
variable {α : Type}

/-- An element of `fit_gd`: a flag for all descriptors of a module, or one flag per tensor. -/
inductive FitGd
  | flag (b : Bool)
  | tensors (bs : List Bool)

/-- The argument `fit_gd`: not given, a single boolean, or one element per module. -/
inductive FitArg
  | none
  | bool (b : Bool)
  | list (l : List FitGd)

/-- The attributes of a `RegistrationModel` that determine its parameters. -/
structure ParamModel where
  deformables : Nat
  init : List Man
  fitGd : FitArg
  controls : Option (List (List Ref))
  others : Dict String (List Ref)

/-- The loop over the tensors of one manifold (195-198); `zip` stops at the shorter one. -/
def selectTensors : List Bool → List Ref → List Ref
  | b :: bs, r :: rs => if b then r :: selectTensors bs rs else selectTensors bs rs
  | _, _ => []

/-- The loop over the manifolds of the modules (188-198). -/
def fitLoop : List FitGd → List Man → PM α (List Ref)
  | .flag true :: fs, m :: ms => do
      m.requiresGrad .gd (some true) (-1)
      let w ← Prog.get
      let rs ← fitLoop fs ms
      pure (m.unroll w .gd ++ rs)
  | .flag false :: fs, _ :: ms => fitLoop fs ms
  | .tensors bs :: fs, m :: ms => do
      let w ← Prog.get
      let rs ← fitLoop fs ms
      pure (selectTensors bs (m.unroll w .gd) ++ rs)
  | _, _ => pure []

/-- The descriptors to optimise (185-198): `None`, `False` and `[]` are false; `zip(True, …)`
raises. -/
def fitTensors (M : ParamModel) : PM α (Option (List Ref)) :=
  match M.fitGd with
  | .none => pure none
  | .bool false => pure none
  | .bool true => Prog.throw .type
  | .list [] => pure none
  | .list (f :: fs) => do
      let rs ← fitLoop (f :: fs) (M.init.drop M.deformables)
      pure (some rs)

/-- `_compute_parameters` (171-210). -/
def computeParameters (M : ParamModel) : PM α (Dict String (List Ref)) := do
  let w ← Prog.get
  let cotan := Man.unroll.unrollList w .cotan M.init
  let gd ← fitTensors M
  let d : Dict String (List Ref) := Dict.set [] "cotan" cotan
  let d := match gd with
    | none => d
    | some rs => d.set "gd" rs
  let d := match M.controls with
    | none => d
    | some cs => d.set "controls" cs.flatten
  pure (M.others.foldl (fun d e => d.set e.1 e.2) d)

/-- `[initializer(m.controls, requires_grad=True) for m in deformation_modules]` (63-64): a new
tensor for each module; the controls of a compound module are a list, of which `zeros_like`
raises. `like` gives the zeros or ones. -/
def controlRow (like : α → α) : List (Option Ref) → PM α (List Ref)
  | [] => pure []
  | none :: _ => Prog.throw .type
  | some r :: cs => do
      let o ← getObj r
      let v ← readT r
      let t ← allocT o.device o.dtype true false (like v)
      let ts ← controlRow like cs
      pure (t :: ts)

/-- The loops over the iterations and the controls per iteration (61-64). -/
def controlRows (like : α → α) (cs : List (Option Ref)) : Nat → PM α (List (List Ref))
  | 0 => pure []
  | k + 1 => do
      let r ← controlRow like cs
      let rs ← controlRows like cs k
      pure (r :: rs)

/-- The controls of the model (54-66): none without `fit_controls`. -/
def newControls (cs : List (Option Ref)) : Option ((α → α) × Nat) → PM α (Option (List (List Ref)))
  | none => pure none
  | some p => do
      let rs ← controlRows p.1 cs p.2
      pure (some rs)

/-- `[manifold.cotan_requires_grad_() for manifold in self.__init_manifold]` (84). -/
def recordCotans : List Man → PM α Unit
  | [] => pure ()
  | m :: ms => do
      m.requiresGrad .cotan (some true) (-1)
      recordCotans ms

/-- What `RegistrationModel.__init__` (12-95) does with tensors: `Ds` and `ms` are the manifolds of
the deformables and of the modules, `cs` the controls of the modules, `fit` the initialiser and
the number of controls per module with `fit_controls`. -/
def ParamModel.new (Ds ms : List Man) (cs : List (Option Ref)) (fit : Option ((α → α) × Nat)) (fitGd : FitArg)
    (others : Dict String (List Ref)) : PM α (ParamModel × Dict String (List Ref)) := do
  let controls ← newControls cs fit
  let Ds' ← Man.clone.cloneList (some false) Ds
  let ms' ← Man.clone.cloneList (some false) ms
  recordCotans (Ds' ++ ms')
  let M : ParamModel := ⟨Ds.length, Ds' ++ ms', fitGd, controls, others⟩
  let d ← computeParameters M
  pure (M, d)

/-- The properties `gd`, `tan`, `cotan` (Abstract.py 319-335, Compound.py 86-93): the lone tensor or
the sequence. The empty tensor of `EmptyManifold` (Empty.py 75-82), which every other
`EmptyManifold` ignores, is `none`. -/
def Man.get (w : World α) (f : Fam) : Man → Arg Ref
  | .empty => .none
  | .leaf i =>
    match w.leaves[i]? with
    | none => .none
    | some l =>
      if (l.tc f).shapes.length = 1 then
        match (l.tc f).tensors with
        | r :: _ => .tensor r
        | [] => .none
      else .list ((l.tc f).tensors.map .tensor)
  | .compound ms => .list (getList ms)
where
  getList : List Man → List (Arg Ref)
  | [] => []
  | m :: ms => Man.get w f m :: getList ms

/-- `manifold.fill(other)` (Abstract.py 96-102, Compound.py 95-98). -/
def Man.fillFrom (m other : Man) : PM α Unit := do
  let w ← Prog.get
  Man.fill .gd ⟨false, some true⟩ m (other.get w .gd)
  let w ← Prog.get
  Man.fill .tan ⟨false, some true⟩ m (other.get w .tan)
  let w ← Prog.get
  Man.fill .cotan ⟨false, some true⟩ m (other.get w .cotan)

/-- The loop over the deformables (290-291). -/
def fillEach : List Man → List Man → PM α Unit
  | D :: Ds, m :: ms => do
      D.fillFrom m
      fillEach Ds ms
  | _, _ => pure ()

/-- The tensors an evaluation puts into the modules and deformables before it computes
(registration_model.py 284-291). -/
def ParamModel.load (M : ParamModel) (Ds ms : List Man) : PM α Unit := do
  let w ← Prog.get
  Man.fill .gd ⟨false, none⟩ (.compound ms) (.list (Man.get.getList w .gd (M.init.drop M.deformables)))
  let w ← Prog.get
  Man.fill .cotan ⟨false, none⟩ (.compound ms) (.list (Man.get.getList w .cotan (M.init.drop M.deformables)))
  fillEach Ds M.init

end Imodal
