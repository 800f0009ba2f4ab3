import Verif.Model.ListUtils
/-!
# Manifold tensor containers

Models `imodal/Manifolds/tensor_container.py`, `Abstract.py` (classes
`BaseManifold`, `Manifold`), `Compound.py`, `Empty.py`: bookkeeping only (which
tensor object sits where, who shares storage with whom, which exceptions are
raised and what state they leave behind).

Tensors and manifolds are objects on a heap (`World`).  A tensor object points to
a storage; two objects may share a storage (`detach()`), and the same object may be
held by several containers (fill by reference).  A compound manifold holds
references to child manifold objects; `CompoundModule.manifold` builds a new
compound over the same children each time.  The contents of a storage is an
abstract value of type `α` (an additive group where sums are needed): shapes of the
contents and broadcasting are not modelled.
-/
namespace Imodal

abbrev Ref := Nat

/-- A `torch.Tensor` object: its storage, device (as a string, the way
`tensors_device` compares them), dtype, `requires_grad` flag and whether it
carries an autograd graph (`grad_fn is not None`). -/
structure TObj where
  storage : Nat
  device : String
  dtype : String
  requiresGrad : Bool
  hasGraph : Bool
  deriving DecidableEq, Repr

/-- `TensorContainer` (tensor_container.py 6-17).  `isList` records whether the
private sequence is currently a list (after `to_device`, `to_dtype`,
`requires_grad_`) or a tuple. -/
structure TC where
  shapes : List (List Nat)
  tensors : List Ref
  isList : Bool
  device : String
  dtype : String
  deriving DecidableEq, Repr

/-- The three tensor families of a manifold. -/
inductive Fam | gd | tan | cotan
  deriving DecidableEq, Repr

/-- A `Manifold` object (Abstract.py 193-243).  Inside the class body of `Manifold`,
`self.__device` is the attribute `_Manifold__device` (`manDevice`, unset until the
first `fill_*`), whereas the `device` property of `BaseManifold` reads
`_BaseManifold__device` (`baseDevice`); likewise `baseDtype`. -/
structure Leaf where
  gd : TC
  tan : TC
  cotan : TC
  baseDevice : String
  baseDtype : String
  manDevice : Option String
  deriving DecidableEq, Repr

def Leaf.tc (l : Leaf) : Fam → TC
  | .gd => l.gd
  | .tan => l.tan
  | .cotan => l.cotan

def Leaf.setTc (l : Leaf) (c : TC) : Fam → Leaf
  | .gd => { l with gd := c }
  | .tan => { l with tan := c }
  | .cotan => { l with cotan := c }

/-- The heap: tensor objects, storages and manifold objects, addressed by position. -/
structure World (α : Type) where
  objs : List TObj
  stores : List α
  leaves : List Leaf

variable {α : Type}

/-- Contents of the tensor object `r`. -/
def World.read (w : World α) (r : Ref) : Option α :=
  match w.objs[r]? with
  | some o => w.stores[o.storage]?
  | none => none

/-- The Python interpreter state for manifold code. -/
abbrev PM (α : Type) := Prog (World α)

/-! ### Tensor primitives -/

/-- Dereference a tensor object (dangling references do not occur in Python). -/
def getObj (r : Ref) : PM α TObj := fun w =>
  match w.objs[r]? with
  | some o => (.ok o, w)
  | none => (.error .unmodelled, w)

def readT (r : Ref) : PM α α := fun w =>
  match w.read r with
  | some v => (.ok v, w)
  | none => (.error .unmodelled, w)

/-- A new tensor object with its own new storage. -/
def allocT (dev dt : String) (rg gr : Bool) (v : α) : PM α Ref := fun w =>
  (.ok w.objs.length,
    { w with objs := w.objs ++ [⟨w.stores.length, dev, dt, rg, gr⟩], stores := w.stores ++ [v] })

/-- A new tensor object on an existing storage. -/
def aliasT (o : TObj) : PM α Ref := fun w =>
  (.ok w.objs.length, { w with objs := w.objs ++ [o] })

/-- `t.clone()`: new storage, same contents; recorded for autograd if `t` is. -/
def cloneT (r : Ref) : PM α Ref := do
  let o ← getObj r
  let v ← readT r
  allocT o.device o.dtype o.requiresGrad o.requiresGrad v

/-- `t.detach().clone().requires_grad_(rg)`. -/
def detachCloneT (rg : Bool) (r : Ref) : PM α Ref := do
  let o ← getObj r
  let v ← readT r
  allocT o.device o.dtype rg false v

/-- `t.detach().requires_grad_(rg)`: a new object on the *same* storage.
`rg = none` models the argument `None`, which torch rejects with `TypeError`. -/
def detachT (rg : Option Bool) (r : Ref) : PM α Ref := do
  let o ← getObj r
  match rg with
  | none => Prog.throw .type
  | some b => aliasT { o with requiresGrad := b, hasGraph := false }

/-- `t.to(device=dev).detach().requires_grad_(t.requires_grad)`: `to` returns `t`
itself if it already is on the device, and a copy with its own storage otherwise. -/
def toDeviceT (dev : String) (r : Ref) : PM α Ref := do
  let o ← getObj r
  let v ← readT r
  if o.device = dev then aliasT { o with hasGraph := false }
  else allocT dev o.dtype o.requiresGrad false v

/-- `t.to(dtype=dt).detach().requires_grad_(t.requires_grad)`. The conversion is
taken to keep the value (exact arithmetic). -/
def toDtypeT (dt : String) (r : Ref) : PM α Ref := do
  let o ← getObj r
  let v ← readT r
  if o.dtype = dt then aliasT { o with hasGraph := false }
  else allocT o.device dt o.requiresGrad false v

/-- `a + b` as a new tensor. -/
def addT [Add α] (a b : Ref) : PM α Ref := do
  let oa ← getObj a
  let ob ← getObj b
  let x ← readT a
  let y ← readT b
  allocT oa.device oa.dtype (oa.requiresGrad || ob.requiresGrad)
    (oa.requiresGrad || ob.requiresGrad) (x + y)

/-- `-a` as a new tensor. -/
def negT [Neg α] (a : Ref) : PM α Ref := do
  let oa ← getObj a
  let x ← readT a
  allocT oa.device oa.dtype oa.requiresGrad oa.requiresGrad (-x)

/-- `[f(t) for t in ts]`. -/
def mapT (f : Ref → PM α Ref) : List Ref → PM α (List Ref)
  | [] => pure []
  | r :: rs => do
      let r' ← f r
      let rs' ← mapT f rs
      pure (r' :: rs')

/-- In-place writes a user (or an optimiser) can make through a tensor object. -/
inductive Write (α : Type)
  /-- `t.copy_(v)`, `t[...] = v`: writes the storage. -/
  | inPlace (r : Ref) (v : α)
  /-- `t.data = v`: the object gets a new storage (as in optimizer_scipy.py, optimizer_gd.py). -/
  | setData (r : Ref) (v : α)

/-- The object written through. -/
def Write.target : Write α → Ref
  | .inPlace r _ => r
  | .setData r _ => r

def World.write (w : World α) : Write α → World α
  | .inPlace r v =>
      match w.objs[r]? with
      | some o => { w with stores := w.stores.set o.storage v }
      | none => w
  | .setData r v =>
      match w.objs[r]? with
      | some o => { w with objs := w.objs.set r { o with storage := w.stores.length },
                           stores := w.stores ++ [v] }
      | none => w

/-! ### Arguments of `fill_*` -/

/-- `prop(x)` for an element of the argument: of a nested list it raises
`AttributeError`. -/
def argProp (w : World α) (p : TObj → String) : Arg Ref → Py (Option String)
  | .tensor r => match w.objs[r]? with
      | some o => .ok (some (p o))
      | none => .error .unmodelled
  | .list _ => .error .attribute
  | .none => .ok none

/-- `None` elements are skipped by `shared_tensors_property`. -/
def Arg.toOption {τ : Type} : Arg τ → Option (Arg τ)
  | .none => Option.none
  | a => some a

/-- `tensors_device(tensors)` / `tensors_dtype(tensors)` (usefulfunctions.py 251-280):
`None` is not iterable, a single tensor answers for itself, otherwise the shared
property of the elements. -/
def argShared (w : World α) (p : TObj → String) : Arg Ref → Py (Option String)
  | .none => .error .assertion
  | .tensor r => argProp w p (.tensor r)
  | .list l => sharedProperty (argProp w p) (l.map Arg.toOption)

/-- The references in a list argument; a nested list or `None` inside the list given
to a single manifold is not modelled. -/
def argRefs : List (Arg Ref) → Py (List Ref)
  | [] => .ok []
  | .tensor r :: l => do let rs ← argRefs l; return r :: rs
  | _ :: _ => .error .unmodelled

/-- `copy` / `requires_grad` arguments of `fill_*`. -/
structure FillMode where
  copy : Bool
  requiresGrad : Option Bool
  deriving DecidableEq, Repr

/-! ### Manifold objects -/

def getLeaf (i : Nat) : PM α Leaf := fun w =>
  match w.leaves[i]? with
  | some l => (.ok l, w)
  | none => (.error .unmodelled, w)

/-- Assign to the container of one family of manifold object `i`. -/
def modifyTc (i : Nat) (f : Fam) (g : TC → TC) : PM α Unit :=
  Prog.modify fun w =>
    { w with leaves := w.leaves.modify i (fun l => l.setTc (g (l.tc f)) f) }

/-- The new tensor sequence computed in `TensorContainer.fill` (107-112): a cloned,
recorded copy, a plain clone, or the given tensors themselves. -/
def fillTensors (m : FillMode) (rs : List Ref) : PM α (List Ref) :=
  if m.copy then
    match m.requiresGrad with
    | some b => mapT (detachCloneT b) rs
    | none => mapT cloneT rs
  else pure rs

/-- The tensors a container with `n` shapes takes from the argument (104-105).  A tensor argument to a
container with several shapes would be iterated row by row; not modelled. -/
def fillRefs (n : Nat) : Arg Ref → Py (List Ref)
  | .tensor r => if n = 1 then .ok [r] else .error .unmodelled
  | .list l => argRefs l
  | .none => .error .assertion

/-- `TensorContainer.fill` (tensor_container.py 76-112) on family `f` of object `i`. -/
def tcFill (i : Nat) (f : Fam) (m : FillMode) (a : Arg Ref) : PM α Unit := do
  let w ← Prog.get
  match ← Prog.lift (argShared w TObj.device a) with
  | none => Prog.throw .runtime
  | some dev =>
    modifyTc i f (fun c => { c with device := dev })
    match ← Prog.lift (argShared w TObj.dtype a) with
    | none => Prog.throw .runtime
    | some dt =>
      modifyTc i f (fun c => { c with dtype := dt })
      let l ← getLeaf i
      let rs ← Prog.lift (fillRefs (l.tc f).shapes.length a)
      let ts ← fillTensors m rs
      modifyTc i f (fun c => { c with tensors := ts, isList := false })

/-- `Manifold.fill_gd`, `fill_tan`, `fill_cotan` (Abstract.py 337-347): the container
is filled, then `_Manifold__device` is set; nothing touches `_BaseManifold__device`. -/
def leafFill (i : Nat) (f : Fam) (m : FillMode) (a : Arg Ref) : PM α Unit := do
  tcFill i f m a
  Prog.modify fun w =>
    { w with leaves := w.leaves.modify i (fun l => { l with manDevice := some (l.tc f).device }) }

/-- `n` times `l.pop(0)`; `IndexError` when the list is exhausted. -/
def popN {τ : Type} : Nat → List τ → Py (List τ × List τ)
  | 0, l => .ok ([], l)
  | _ + 1, [] => .error .index
  | n + 1, t :: l =>
    match popN n l with
    | .ok (ts, rest) => .ok (t :: ts, rest)
    | .error e => .error e

/-- `TensorContainer.roll` (64-71) for `n` shapes: returns the rolled argument and what
is left of the list the code pops from. -/
def rollShapes {τ : Type} (n : Nat) (l : List τ) : Py (Arg τ × List τ) :=
  if n = 0 then .ok (.none, l)
  else if n = 1 then
    match l with
    | [] => .error .index
    | t :: l => .ok (.tensor t, l)
  else
    match popN n l with
    | .ok (ts, rest) => .ok (.list (ts.map .tensor), rest)
    | .error e => .error e

/-- `TensorContainer.requires_grad_` (136-150) on family `f` of object `i`.  Item
assignment on a tuple raises `TypeError` (the new tensor has been built but is
dropped).  Negative indices other than -1 count from the end. -/
def tcRequiresGrad (i : Nat) (f : Fam) (rg : Option Bool) (index : Int) : PM α Unit := do
  let l ← getLeaf i
  let c := l.tc f
  if index = -1 then
    let rs ← mapT (detachT rg) c.tensors
    modifyTc i f (fun c => { c with tensors := rs, isList := true })
  else
    let n : Int := c.tensors.length
    let j : Int := if index < 0 then index + n else index
    if j < 0 ∨ n ≤ j then Prog.throw .index
    else match c.tensors[j.toNat]? with
      | none => Prog.throw .index
      | some r =>
        let r' ← detachT rg r
        if c.isList then modifyTc i f (fun c => { c with tensors := c.tensors.set j.toNat r' })
        else Prog.throw .type

/-- `TensorContainer.to_device` (45-48): the device attribute is set first. -/
def tcToDevice (i : Nat) (f : Fam) (dev : String) : PM α Unit := do
  modifyTc i f (fun c => { c with device := dev })
  let l ← getLeaf i
  let rs ← mapT (toDeviceT dev) (l.tc f).tensors
  modifyTc i f (fun c => { c with tensors := rs, isList := true })

/-- `TensorContainer.to_dtype` (50-53). -/
def tcToDtype (i : Nat) (f : Fam) (dt : String) : PM α Unit := do
  modifyTc i f (fun c => { c with dtype := dt })
  let l ← getLeaf i
  let rs ← mapT (toDtypeT dt) (l.tc f).tensors
  modifyTc i f (fun c => { c with tensors := rs, isList := true })

/-- `BaseManifold.device` setter with `Manifold._to_device` (Abstract.py 24-26, 271-274). -/
def leafToDevice (i : Nat) (dev : String) : PM α Unit := do
  Prog.modify fun w => { w with leaves := w.leaves.modify i (fun l => { l with baseDevice := dev }) }
  tcToDevice i .gd dev
  tcToDevice i .tan dev
  tcToDevice i .cotan dev

/-- `BaseManifold.dtype` setter with `Manifold._to_dtype` (Abstract.py 31-33, 276-279). -/
def leafToDtype (i : Nat) (dt : String) : PM α Unit := do
  Prog.modify fun w => { w with leaves := w.leaves.modify i (fun l => { l with baseDtype := dt }) }
  tcToDtype i .gd dt
  tcToDtype i .tan dt
  tcToDtype i .cotan dt

/-- `TensorContainer.fill_zeros` (116-124) and `Manifold.fill_gd_zeros` etc. (Abstract.py
349-356): new tensors on the container's own device and dtype labels; `zero` gives the
zero content of a shape. -/
def tcFillZeros (zero : List Nat → α) (i : Nat) (f : Fam) (rg : Bool) : PM α Unit := do
  let l ← getLeaf i
  let rs ← zeros (l.tc f) (l.tc f).shapes
  modifyTc i f (fun c => { c with tensors := rs, isList := false })
where
  zeros (c : TC) : List (List Nat) → PM α (List Ref)
  | [] => pure []
  | s :: ss => do
      let r ← allocT c.device c.dtype rg false (zero s)
      let rs ← zeros c ss
      pure (r :: rs)

/-- The `zip` loop of `TensorContainer.add` (156): stops at the shorter sequence. -/
def addZip [Add α] : List Ref → List Ref → PM α (List Ref)
  | a :: as, b :: bs => do
      let r ← addT a b
      let rs ← addZip as bs
      pure (r :: rs)
  | _, _ => pure []

/-- The operands of `TensorContainer.add` (154-155).  With one shape the argument is
wrapped, so a list or `None` reaches `tensor + list`, a `TypeError`. -/
def addRefs (n : Nat) (a : Arg Ref) : Py (List Ref) :=
  if n = 1 then
    match a with
    | .tensor r => .ok [r]
    | _ => .error .type
  else match a with
    | .list l => argRefs l
    | .none => .error .type
    | .tensor _ => .error .unmodelled

/-- `TensorContainer.add` (152-156) on family `f` of object `i`. -/
def tcAdd [Add α] (i : Nat) (f : Fam) (a : Arg Ref) : PM α Unit := do
  let l ← getLeaf i
  let rs ← Prog.lift (addRefs (l.tc f).shapes.length a)
  let ts ← addZip (l.tc f).tensors rs
  modifyTc i f (fun c => { c with tensors := ts, isList := false })

/-- `TensorContainer.negate` (158-160). -/
def tcNegate [Neg α] (i : Nat) (f : Fam) : PM α Unit := do
  let l ← getLeaf i
  let ts ← mapT negT (l.tc f).tensors
  modifyTc i f (fun c => { c with tensors := ts, isList := false })

/-- `TensorContainer.clone` (32-43) into a new container value: fresh zero tensors are
built and immediately replaced by `fill(self.__tensors, True)`; the discarded zero
tensors are not modelled.  Fails like `fill` if the tensors disagree on device/dtype. -/
def tcClone (c : TC) : PM α TC := do
  let w ← Prog.get
  match ← Prog.lift (argShared w TObj.device (.list (c.tensors.map .tensor))) with
  | none => Prog.throw .runtime
  | some dev =>
    match ← Prog.lift (argShared w TObj.dtype (.list (c.tensors.map .tensor))) with
    | none => Prog.throw .runtime
    | some dt =>
      let ts ← mapT cloneT c.tensors
      pure { c with tensors := ts, isList := false, device := dev, dtype := dt }

/-- `Manifold.clone(requires_grad)` (Abstract.py 254-269): `copy.deepcopy` (the
containers through `TensorContainer.__deepcopy__`, the other attributes copied), then
`requires_grad_(requires_grad)` on the three containers of the copy. -/
def leafClone (i : Nat) (rg : Option Bool) : PM α Nat := do
  let l ← getLeaf i
  let gd ← tcClone l.gd
  let tan ← tcClone l.tan
  let cotan ← tcClone l.cotan
  let w ← Prog.get
  let j := w.leaves.length
  Prog.set { w with leaves := w.leaves ++ [{ l with gd := gd, tan := tan, cotan := cotan }] }
  tcRequiresGrad j .gd rg (-1)
  tcRequiresGrad j .tan rg (-1)
  tcRequiresGrad j .cotan rg (-1)
  pure j

/-- Manifold trees: `EmptyManifold` (Empty.py), a `Manifold` object given by its
address, and `CompoundManifold` (Compound.py 6-11). -/
inductive Man
  | empty
  | leaf (i : Nat)
  | compound (ms : List Man)

/-- The manifold objects of a tree, in order. -/
def Man.ids : Man → List Nat
  | .empty => []
  | .leaf i => [i]
  | .compound ms => idsList ms
where
  idsList : List Man → List Nat
  | [] => []
  | m :: ms => Man.ids m ++ idsList ms

/-- `unroll_gd`, `unroll_tan`, `unroll_cotan` (Abstract.py 301-308, Compound.py 54-71,
Empty.py 57-64). -/
def Man.unroll (w : World α) (f : Fam) : Man → List Ref
  | .empty => []
  | .leaf i => match w.leaves[i]? with
      | some l => (l.tc f).tensors
      | none => []
  | .compound ms => unrollList ms
where
  unrollList : List Man → List Ref
  | [] => []
  | m :: ms => Man.unroll w f m ++ unrollList ms

/-- `roll_gd` / `roll_tan` / `roll_cotan` (Abstract.py 310-317, Compound.py 73-84,
Empty.py 66-73).  `CompoundManifold` has no `roll_tan`, so there the attribute lookup
fails. -/
def Man.roll {τ : Type} (w : World α) (f : Fam) : Man → List τ → Py (Arg τ × List τ)
  | .empty, l => .ok (.none, l)
  | .leaf i, l => match w.leaves[i]? with
      | some lf => rollShapes (lf.tc f).shapes.length l
      | none => .error .unmodelled
  | .compound ms, l =>
      if f = .tan then .error .attribute
      else match rollList ms l with
        | .ok (as, rest) => .ok (.list as, rest)
        | .error e => .error e
where
  rollList : List Man → List τ → Py (List (Arg τ) × List τ)
  | [], l => .ok ([], l)
  | m :: ms, l =>
    match Man.roll w f m l with
    | .error e => .error e
    | .ok (a, l') =>
      match rollList ms l' with
      | .error e => .error e
      | .ok (as, l'') => .ok (a :: as, l'')

/-- `fill_*` on a tree.  `EmptyManifold` ignores its argument (Empty.py 84-91).
`CompoundManifold.fill_tan/fill_cotan` (Compound.py 107-113) run one `zip` loop;
`fill_gd` (100-105) runs the `zip` loop and then an index loop over all children, which
raises `IndexError` at the first child without an element.  Each loop stops at the
first exception, leaving the earlier children filled. -/
def Man.fill (f : Fam) (m : FillMode) : Man → Arg Ref → PM α Unit
  | .empty, _ => pure ()
  | .leaf i, a => leafFill i f m a
  | .compound _, .none => Prog.throw .type
  | .compound _, .tensor _ => Prog.throw .unmodelled
  | .compound ms, .list as => do
      fillZip ms as
      if f = .gd then fillIdx ms as else pure ()
where
  fillZip : List Man → List (Arg Ref) → PM α Unit
  | m' :: ms, a :: as => do
      Man.fill f m m' a
      fillZip ms as
  | _, _ => pure ()
  fillIdx : List Man → List (Arg Ref) → PM α Unit
  | [], _ => pure ()
  | _ :: _, [] => Prog.throw .index
  | m' :: ms, a :: as => do
      Man.fill f m m' a
      fillIdx ms as

/-- `add_gd`, `add_tan`, `add_cotan` (Abstract.py 371-378, Compound.py 128-138,
Empty.py 115-122): the compound indexes its argument, so a short list raises
`IndexError` after the earlier children have been changed. -/
def Man.add [Add α] (f : Fam) : Man → Arg Ref → PM α Unit
  | .empty, _ => pure ()
  | .leaf i, a => tcAdd i f a
  | .compound [], _ => pure ()
  | .compound (_ :: _), .none => Prog.throw .type
  | .compound (_ :: _), .tensor _ => Prog.throw .unmodelled
  | .compound (m :: ms), .list as => addIdx (m :: ms) as
where
  addIdx : List Man → List (Arg Ref) → PM α Unit
  | [], _ => pure ()
  | _ :: _, [] => Prog.throw .index
  | m' :: ms, a :: as => do
      Man.add f m' a
      addIdx ms as

/-- `negate_gd`, `negate_tan`, `negate_cotan` (Abstract.py 380-387, Compound.py 140-150,
Empty.py 124-131). -/
def Man.negate [Neg α] (f : Fam) : Man → PM α Unit
  | .empty => pure ()
  | .leaf i => tcNegate i f
  | .compound ms => negList ms
where
  negList : List Man → PM α Unit
  | [] => pure ()
  | m :: ms => do
      Man.negate f m
      negList ms

/-- `clone(requires_grad)` (Abstract.py 254-269, Compound.py 28-29, Empty.py 15-16).
`EmptyManifold` accepts any flag. -/
def Man.clone (rg : Option Bool) : Man → PM α Man
  | .empty => pure .empty
  | .leaf i => do
      let j ← leafClone i rg
      pure (.leaf j)
  | .compound ms => do
      let ms' ← cloneList ms
      pure (.compound ms')
where
  cloneList : List Man → PM α (List Man)
  | [] => pure []
  | m :: ms => do
      let m' ← Man.clone rg m
      let ms' ← cloneList ms
      pure (m' :: ms')

/-- `gd_requires_grad_(requires_grad, index)` and its siblings on one manifold object
(Abstract.py 245-252); `CompoundManifold` inherits the `NotImplementedError` of
`BaseManifold` (Abstract.py 87-94) and `EmptyManifold` ignores the call. -/
def Man.requiresGrad (f : Fam) (rg : Option Bool) (index : Int) : Man → PM α Unit
  | .empty => pure ()
  | .leaf i => tcRequiresGrad i f rg index
  | .compound _ => Prog.throw .notImplemented

end Imodal
