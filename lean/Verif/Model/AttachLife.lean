import Verif.Model.Varifold
/-!
# Attachments as objects that are called again and again,
`imodal/Attachment/attachment.py` and `attachment_varifold.py`

`Model/Varifold` and `Model/Attachment` give the value of one call. Here an attachment is an object
with a state: the iterable it was given, which may be an iterator, and what the KeOps class keeps
between two calls. Source and target of a call are on one device and have one dtype.
-/
set_option autoImplicit false
namespace Imodal
noncomputable section

/-- An iterable handed over by the caller: a container, which starts afresh in every loop, or an
iterator (a generator, `map(...)`, `zip(...)`), which gives out every item once. -/
inductive Iter (α : Type)
  | container (items : List α)
  | once (rest : List α)

/-- What a loop over the iterable sees. -/
def Iter.items {α : Type} : Iter α → List α
  | .container l => l
  | .once l => l

/-- The iterable after `n` items have been taken by one loop. -/
def Iter.taken {α : Type} (n : Nat) : Iter α → Iter α
  | .container l => .container l
  | .once l => .once (l.drop n)

/-- Where and how a tensor is stored: `tensor.device` and `tensor.dtype`. -/
structure Storage where
  device : String
  dtype : String
  deriving DecidableEq

/-- The argument `sigmas` of the constructors: an iterable, or something else, such as a number. -/
inductive SigmasArg
  | iterable (i : Iter ℝ)
  | other

/-- A varifold attachment (attachment_varifold.py 12-19, 130-135). `kernel` is the private
`__keops_backend`, set along with `__K`: whether the routine is the one for GPU. `scales` lists
`__oos2`: for a width, the storage of the tensor that was made for it. -/
structure VarObj where
  cls : VarifoldClass
  weight : ℝ
  sigmas : Iter ℝ
  kernel : Option Bool
  scales : List (ℝ × Storage)

/-- `VarifoldAttachment(dim, sigmas, weight, backend)` (attachment_varifold.py 13-19, 158-178). -/
def VarObj.build (dim : Int) (sigmas : SigmasArg) (weight : ℝ) (backend : Option String) (v : BackendVar) : Py VarObj := do
  let c ← varifoldAttachment dim backend v
  match sigmas with
  | .iterable i => return ⟨c, weight, i, none, []⟩
  | .other => throw .assertion

open Classical in
/-- The storage kept for a width. -/
def scaleOf (σ : ℝ) : List (ℝ × Storage) → Option Storage
  | [] => none
  | (τ, k) :: l => if τ = σ then some k else scaleOf σ l

/-- Whether the routine is the one for GPU (attachment_varifold.py 138, 147-150). -/
def VarObj.onGpu (k : Storage) (o : VarObj) : Bool :=
  match o.kernel with
  | some g => g
  | none => decide (k.device ≠ "cpu")

/-- `varifold_scalar_product` up to the call of the KeOps routine (attachment_varifold.py 138-155)
for points stored as `k`: the storage of the scale that goes with the points, and whether the
routine is the one for GPU. -/
def VarObj.prepare (k : Storage) (σ : ℝ) : Prog VarObj (Storage × Bool) := fun o =>
  match scaleOf σ o.scales with
  | some s => (.ok (s, o.onGpu k), { o with kernel := some (o.onGpu k) })
  | none => (.ok (k, o.onGpu k), { o with kernel := some (o.onGpu k), scales := o.scales ++ [(σ, k)] })

/-- `cost_varifold` (attachment_varifold.py 54-80, 87-88, 98-109). The three scalar products of the
KeOps class prepare the same thing. What KeOps answers when points and scale are stored
differently, or for points on one device with the routine of the other, is not modelled. -/
def VarObj.cost (k : Storage) (s t : VShape) (σ : ℝ) : Prog VarObj (Option ℝ) := fun o =>
  match o.cls.cost s t σ with
  | .error e => (.error e, o)
  | .ok v =>
    if o.cls = .d3 .keops then
      match VarObj.prepare k σ o with
      | (.error e, o') => (.error e, o')
      | (.ok (s', g), o') => if s' = k ∧ g = decide (k.device ≠ "cpu") then (.ok v, o') else (.error .unmodelled, o')
    else (.ok v, o)

/-- The list of costs in `loss` (attachment_varifold.py 41), item by item: the iterable moves on,
then the cost is computed. -/
def VarObj.costs (k : Storage) (s t : VShape) : List ℝ → Prog VarObj (List (Option ℝ))
  | [] => pure []
  | σ :: l => do
    Prog.modify fun o => { o with sigmas := o.sigmas.taken 1 }
    let c ← VarObj.cost k s t σ
    let cs ← VarObj.costs k s t l
    return c :: cs

/-- `loss(source, target)` (attachment_varifold.py 40-41). -/
def VarObj.loss (k : Storage) (s t : VShape) : Prog VarObj (Option ℝ) := do
  let o ← Prog.get
  let cs ← VarObj.costs k s t o.sigmas.items
  return nsum cs

/-- `attachment(source, target)` (attachment.py 38-39). -/
def VarObj.call (k : Storage) (s t : VShape) : Prog VarObj (Option ℝ) := do
  let v ← VarObj.loss k s t
  let o ← Prog.get
  return v.map fun x => o.weight * x

/-- One call of a session: how the shapes are stored, source and target. -/
structure VarCall where
  storage : Storage
  source : VShape
  target : VShape

/-- A session: calls one after the other, an exception being caught by the caller. Gives all answers
and the object left. -/
def VarObj.session : List VarCall → VarObj → List (Py (Option ℝ)) × VarObj
  | [], o => ([], o)
  | c :: l, o =>
    let r := VarObj.call c.storage c.source c.target o
    let q := VarObj.session l r.2
    (r.1 :: q.1, q.2)

/-- What reading the attribute `dim` gives: a number, or a method that would have to be called. -/
inductive DimAttr
  | number (n : Int)
  | method (n : Int)
  deriving DecidableEq

/-- `attachment.dim` (attachment_varifold.py 48-50, 95-96): a property in two dimensions, a plain
method in three. -/
def VarObj.dim (o : VarObj) : DimAttr :=
  match o.cls with
  | .d2 _ => .number 2
  | .d3 _ => .method 3

/-- `attachment.sigmas` (attachment_varifold.py 30-35). -/
def VarObj.getSigmas (o : VarObj) : Iter ℝ := o.sigmas

/-! ## Compounds -/

/-- `CompoundAttachment(attachments, weight)` (attachment.py 48-57) of members whose `loss` keeps no
state. -/
structure CompAttach (S T : Type) where
  weight : ℝ
  members : Iter (S → T → Py ℝ)

/-- The list in `loss` (attachment.py 57). -/
def CompAttach.losses {S T : Type} (s : S) (t : T) : List (S → T → Py ℝ) → Prog (CompAttach S T) (List ℝ)
  | [] => pure []
  | f :: l => do
    Prog.modify fun o => { o with members := o.members.taken 1 }
    let c ← Prog.lift (f s t)
    let cs ← CompAttach.losses s t l
    return c :: cs

/-- `compound(source, target)` (attachment.py 38-39, 56-57). -/
def CompAttach.call {S T : Type} (s : S) (t : T) : Prog (CompAttach S T) ℝ := do
  let o ← Prog.get
  let cs ← CompAttach.losses s t o.members.items
  return o.weight * cs.sum

/-- Calls one after the other. -/
def CompAttach.session {S T : Type} : List (S × T) → CompAttach S T → List (Py ℝ) × CompAttach S T
  | [], o => ([], o)
  | c :: l, o =>
    let r := CompAttach.call c.1 c.2 o
    let q := CompAttach.session l r.2
    (r.1 :: q.1, q.2)

end
end Imodal
