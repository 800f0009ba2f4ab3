import Verif.Model.Manifold
/-!
# Specification notions for manifold trees
-/
set_option autoImplicit false
namespace Imodal

variable {α : Type}

/-- All tensors of the list exist and live on one device with one dtype. -/
def SameKind (w : World α) (rs : List Ref) : Prop :=
  ∃ d t, ∀ r ∈ rs, ∃ o, w.objs[r]? = some o ∧ o.device = d ∧ o.dtype = t

/-- Number of tensors per family of manifold object `i`. -/
def World.arity (w : World α) (i : Nat) : Nat :=
  match w.leaves[i]? with
  | some l => l.gd.shapes.length
  | none => 0

/-- Total number of tensors of a tree in one family: the sum over its objects. -/
def World.total (w : World α) (ids : List Nat) : Nat := (ids.map w.arity).sum

/-- The tensors of family `f` held by object `i`. -/
def World.held (w : World α) (f : Fam) (i : Nat) : List Ref :=
  match w.leaves[i]? with
  | some l => (l.tc f).tensors
  | none => []

/-- The way one manifold object takes its tensors: a lone tensor, or a list. -/
def Arg.ofRefs (l : List Ref) : Arg Ref :=
  match l with
  | [t] => .tensor t
  | l => .list (l.map .tensor)

/-- The nested argument that gives every object `i` of the tree the tensors `c i`. -/
def Man.arg (c : Nat → List Ref) : Man → Arg Ref
  | .empty => .none
  | .leaf i => Arg.ofRefs (c i)
  | .compound ms => .list (argList ms)
where
  argList : List Man → List (Arg Ref)
  | [] => []
  | m :: ms => Man.arg c m :: argList ms

/-- The objects `ids` exist and can take the tensors `c i`: the right number, at least
one, all of one kind (device and dtype). -/
def Ready (w : World α) (c : Nat → List Ref) (ids : List Nat) : Prop :=
  ∀ i ∈ ids, ∃ l, w.leaves[i]? = some l ∧ (∀ g, (l.tc g).shapes.length = (c i).length) ∧
    0 < (c i).length ∧ SameKind w (c i)

/-- No dangling pointers: every tensor object points to an existing storage and every
manifold holds existing tensor objects. -/
structure World.Valid (w : World α) : Prop where
  store : ∀ (r : Nat) (o : TObj), w.objs[r]? = some o → o.storage < w.stores.length
  leaf : ∀ (i : Nat) (l : Leaf), w.leaves[i]? = some l →
    ∀ g, ∀ r ∈ (l.tc g).tensors, r < w.objs.length

/-- Every tensor in the argument exists. -/
def Arg.Live (w : World α) : Arg Ref → Prop
  | .none => True
  | .tensor r => r < w.objs.length
  | .list l => liveList l
where
  liveList : List (Arg Ref) → Prop
  | [] => True
  | a :: l => Arg.Live w a ∧ liveList l

/-- A history of writes through tensor objects. -/
def World.writes (w : World α) (ws : List (Write α)) : World α := ws.foldl World.write w

/-- The values of all tensors of family `f` of a tree, in unrolling order. -/
def Man.values (w : World α) (f : Fam) (m : Man) : List (Option α) :=
  (m.unroll w f).map w.read

/-- The values of the tensors of family `f` held by object `i`. -/
def World.heldVals (w : World α) (f : Fam) (i : Nat) : List (Option α) :=
  (w.held f i).map w.read

/-- The contents of the tensors `c i`. -/
def World.valuesOf (w : World α) (c : Nat → List Ref) (i : Nat) : List (Option α) :=
  (c i).map w.read

/-- Sum of two values when both are there. -/
def addO [Add α] : Option α → Option α → Option α
  | some x, some y => some (x + y)
  | _, _ => none

/-- Fill by reference: `copy=False`. -/
def byRef : FillMode := ⟨false, none⟩

end Imodal
