import Verif.Model.Py
/-!
# Iterating over a `CompoundModule`, `imodal/DeformationModules/Combination.py`

The object is its own iterator: `__iter__` resets the attribute `current` and returns
`self`. The members are opaque here.
-/
set_option autoImplicit false
namespace Imodal
variable {α : Type}

/-- The attributes used by the iteration: the list `__modules` (Combination.py 23) and
`current`, which does not exist before the first `__iter__`. -/
structure CompObj (α : Type) where
  modules : List α
  current : Option Nat

/-- `CompoundModule(modules)` (Combination.py 20-23). -/
def CompObj.mk' (modules : List α) : CompObj α := ⟨modules, none⟩

/-- `__iter__` (Combination.py 56-58). -/
def CompObj.iter (o : CompObj α) : CompObj α := { o with current := some 0 }

/-- `__next__` (Combination.py 60-65); `none` stands for `StopIteration`. Reading `current`
before the first `__iter__` raises AttributeError. -/
def CompObj.next (o : CompObj α) : Py (Option α) × CompObj α :=
  match o.current with
  | none => (.error .attribute, o)
  | some c =>
    match o.modules[c]? with
    | none => (.ok none, o)
    | some a => (.ok (some a), { o with current := some (c + 1) })

/-- The part of a `for` statement after `iter(o)`: ask for the next member and run the body,
until `StopIteration`. The body may use the object. The result is the list of visited
members, or `none` when `fuel` members have been visited and the loop has not ended. -/
def CompObj.loop (body : α → CompObj α → CompObj α) : Nat → CompObj α → Option (List α × CompObj α)
  | 0, _ => none
  | fuel + 1, o =>
    match o.next with
    | (.ok (some a), o') =>
      match CompObj.loop body fuel (body a o') with
      | none => none
      | some (as, o'') => some (a :: as, o'')
    | (_, o') => some ([], o')

/-- `for module in o: body`. -/
def CompObj.forLoop (body : α → CompObj α → CompObj α) (fuel : Nat) (o : CompObj α) : Option (List α × CompObj α) :=
  CompObj.loop body fuel o.iter

/-- A use of the object by the iteration called `who`. -/
inductive ItOp
  | iter (who : Nat)
  | next (who : Nat)

/-- Run a history on the object and list the results of the `next` calls. -/
def CompObj.run : List ItOp → CompObj α → List (Py (Option α))
  | [], _ => []
  | .iter _ :: l, o => CompObj.run l o.iter
  | .next _ :: l, o => o.next.1 :: CompObj.run l o.next.2

end Imodal
