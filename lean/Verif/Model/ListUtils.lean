import Verif.Model.Py
/-!
# List helpers of `imodal/Utilities/usefulfunctions.py`

`flatten_tensor_list` (195-208), `shared_tensors_property` (212-248),
`append_in_dict_of_list` (283-288).
-/
namespace Imodal

/-- A nested Python value made of tensors, lists/tuples and other objects
(`None`, numbers), as accepted by `flatten_tensor_list` and the `fill_*` methods.
`τ` is the type of tensors (or tensor references). Strings are not covered. -/
inductive Arg (τ : Type)
  | none
  | tensor (t : τ)
  | list (l : List (Arg τ))

/-- `flatten_tensor_list(l)` (usefulfunctions.py 195-208), on the elements of the
outer list, with the accumulator `out_list` threaded exactly as in the code. -/
def flattenTensorList {τ : Type} : List (Arg τ) → List τ → List τ
  | [], out => out
  | .none :: l, out => flattenTensorList l out
  | .tensor t :: l, out => flattenTensorList l (out ++ [t])
  | .list l' :: l, out => flattenTensorList l (flattenTensorList l' out)

/-- `list(prop(t) for t in tensors if t is not None and prop(t) is not None)`: the
filter and the evaluation of `shared_tensors_property` (usefulfunctions.py 237, 243). -/
def collectProps {α β : Type} (prop : α → Py (Option β)) : List (Option α) → Py (List β)
  | [] => .ok []
  | none :: ts => collectProps prop ts
  | some t :: ts =>
    match prop t with
    | .error e => .error e
    | .ok none => collectProps prop ts
    | .ok (some b) =>
      match collectProps prop ts with
      | .error e => .error e
      | .ok bs => .ok (b :: bs)

/-- The list branch of `shared_tensors_property` (usefulfunctions.py 236-248).
Elements are `Option α` (`None` elements are dropped), `prop` may raise and may
return `None`.  The code evaluates `prop` in the filter, then on the first element,
then on all; a raising `prop` raises in the filter already. -/
def sharedProperty {α β : Type} [DecidableEq β] (prop : α → Py (Option β))
    (ts : List (Option α)) : Py (Option β) :=
  match collectProps prop ts with
  | .error e => .error e
  | .ok [] => .ok none
  | .ok (first :: rest) =>
      if (first :: rest).count first = (first :: rest).length then .ok (some first)
      else .ok none

/-- Python dictionaries as association lists in insertion order; keys are unique
in every dictionary built by the operations below. -/
abbrev Dict (κ ν : Type) := List (κ × ν)

/-- `d.get(k)` / `k in d`. -/
def Dict.get? {κ ν : Type} [DecidableEq κ] (d : Dict κ ν) (k : κ) : Option ν :=
  (d.find? (fun e => e.1 = k)).map (·.2)

/-- `d[k] = v`: overwrite in place or append. -/
def Dict.set {κ ν : Type} [DecidableEq κ] : Dict κ ν → κ → ν → Dict κ ν
  | [], k, v => [(k, v)]
  | (k', v') :: d, k, v => if k' = k then (k', v) :: d else (k', v') :: Dict.set d k v

/-- One loop iteration of `append_in_dict_of_list` (usefulfunctions.py 285-288). -/
def appendEntry {κ ν : Type} [DecidableEq κ] (base : Dict κ (List ν)) (e : κ × ν) :
    Dict κ (List ν) :=
  match base.get? e.1 with
  | none => base.set e.1 [e.2]
  | some l => base.set e.1 (l ++ [e.2])

/-- `append_in_dict_of_list(base, d)` (usefulfunctions.py 283-288). -/
def appendInDictOfList {κ ν : Type} [DecidableEq κ] (base : Dict κ (List ν)) (d : Dict κ ν) :
    Dict κ (List ν) :=
  d.foldl appendEntry base

end Imodal
