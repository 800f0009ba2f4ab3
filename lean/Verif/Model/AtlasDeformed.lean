import Verif.Model.Registration
import Verif.Model.Atlas
/-!
# Deforming the population of an atlas

`imodal/Models/atlas.py` 177-210. Building the atlas is in `Verif.Model.Atlas`, its evaluation in
`Verif.Model.Registration`.
-/
set_option autoImplicit false
namespace Imodal
noncomputable section
variable {d : Nat} {G T : Type}

/-- An element of a list in `intermediates`: the states or the controls of a subject, or what the
caller has put there. -/
inductive IEntry (d : Nat)
  | states (l : List (Mfd d))
  | controls (l : List (Ctrl d))
  | given (k : Nat)

/-- A value in `intermediates`: a list, or anything else. -/
inductive IVal (d : Nat)
  | list (l : List (IEntry d))
  | other (k : Nat)

/-- The argument `intermediates`: `None`, a dictionary, or anything else. -/
inductive Inter (d : Nat)
  | none
  | dict (D : Dict String (IVal d))
  | other

/-- `if not(key in intermediates.keys() and isinstance(intermediates[key], list))` (atlas.py 187-191). -/
def listFor (k : String) (D : Dict String (IVal d)) : Dict String (IVal d) :=
  match D.get? k with
  | some (.list _) => D
  | _ => D.set k (.list [])

/-- One round of `append_in_dict_of_list` (usefulfunctions.py 283-288); a value without `append`
raises AttributeError. -/
def appendIVal (D : Dict String (IVal d)) (k : String) (e : IEntry d) : Py (Dict String (IVal d)) :=
  match D.get? k with
  | none => .ok (D.set k (.list [e]))
  | some (.list l) => .ok (D.set k (.list (l ++ [e])))
  | some (.other _) => .error .attribute

/-- `append_in_dict_of_list(intermediates, deformed_intermediates)` (atlas.py 204-205), where
`deformed_intermediates` has been filled by `shoot` (shooting.py 56-59, 253-254, 289-307). -/
def appendShot (D : Option (Dict String (IVal d))) (r : Shot d) : Py (Option (Dict String (IVal d))) :=
  match D with
  | none => .ok none
  | some D =>
    match appendIVal D "states" (.states r.states) with
    | .error e => .error e
    | .ok D =>
      match appendIVal D "controls" (.controls r.ctrls) with
      | .error e => .error e
      | .ok D => .ok (some D)

/-- The loop over the population (atlas.py 193-207): the deformed geometries, `intermediates` and the
registration models afterwards. -/
def atlasDeformLoop (ht : Option (Hyper d)) (s : SolverName) (it : Nat) : List (RegModel d G T) → Option (Dict String (IVal d)) →
    Py (List G × Option (Dict String (IVal d)) × List (RegModel d G T))
  | [], D => .ok ([], D, [])
  | M :: Ms, D =>
    match useTemplate ht false with
    | .error e => .error e
    | .ok _ =>
      match M.computeDeformed s it false 1 with
      | .error e => .error e
      | .ok (r, M') =>
        match r.geometries.head? with
        | none => .error .index
        | some g =>
          match appendShot D r.shot with
          | .error e => .error e
          | .ok D' =>
            match atlasDeformLoop ht s it Ms D' with
            | .error e => .error e
            | .ok (gs, D'', Ms') => .ok (g :: gs, D'', M' :: Ms')

/-- `compute_deformed` (atlas.py 177-210). The function of the mode `'parallel'` needs one more
argument than it is given (180, 209): TypeError. -/
def atlasComputeDeformed (mode : AtlasMode) (ht : Option (Hyper d)) (Ms : List (RegModel d G T)) (s : SolverName) (it : Nat) (inter : Inter d) :
    Py (List G × Inter d × List (RegModel d G T)) :=
  match inter with
  | .other => .error .assertion
  | .none =>
    match mode with
    | .parallel => .error .type
    | .sequential =>
      match atlasDeformLoop ht s it Ms none with
      | .error e => .error e
      | .ok (gs, _, Ms') => .ok (gs, .none, Ms')
  | .dict D =>
    match mode with
    | .parallel => .error .type
    | .sequential =>
      match atlasDeformLoop ht s it Ms (some (listFor "controls" (listFor "states" D))) with
      | .error e => .error e
      | .ok (gs, D', Ms') => .ok (gs, D'.elim .none .dict, Ms')

end
end Imodal
