import Verif.Model.Py
import Mathlib.Data.Real.Basic
/-!
# Printing modules, their dimension, their members, and moving them

`imodal/DeformationModules/*.py`: `__str__`, `dim`, `device`, `to_`, and for compounds also `to`, `todict` and
`__getitem__`. Only the attributes used by these functions are kept. `showR` is `str` of a
number; the point sets have `n` points in dimension `dim`.
-/
set_option autoImplicit false
namespace Imodal
variable (showR : ℝ → String)

/-- What is given as `label`: nothing, a string, or a list of strings. -/
inductive ModLabel
  | none
  | str (s : String)
  | names (l : List String)

/-- The printed attributes of a module that is no compound. -/
inductive Card
  | translations (dim n : Nat) (σ : ℝ)
  | implicit0 (dim n : Nat) (σ ν coeff : ℝ)
  | oriented (dim n : Nat) (σ coeff : ℝ)
  | constrained (dim n : Nat) (desc : String) (σ coeff : ℝ)
  | globalTranslation (dim : Nat) (coeff : ℝ)
  | linear (dim : Nat) (coeff : ℝ)
  | implicit1 (dim n p : Nat) (σ ν coeff : ℝ)
  | divFree (dim N P : Nat)
  | arap (dim N P : Nat)
  /-- A silent module with the class name of its manifold. -/
  | silent (dim n : Nat) (cls : String)

/-- A module with its label. -/
inductive Labelled
  | leaf (label : ModLabel) (c : Card)
  | compound (label : ModLabel) (ms : List Labelled)

/-- `if self.label: outstr += "  Label=" + self.label + "\n"`: nothing and empty labels are
false; adding a list to a string raises TypeError. -/
def labelLine : ModLabel → Py String
  | .none => .ok ""
  | .str s => .ok (if s = "" then "" else "  Label=" ++ s ++ "\n")
  | .names [] => .ok ""
  | .names (_ :: _) => .error .type

/-- The text after the label: Translation.py 24-25, ImplicitModule0.py 27-30, OrientedTranslation.py 27-29,
LocalConstrainedTranslations.py 28-30, GlobalTranslation.py 21, ImplicitModule1.py 50-54,
SilentLandmark.py 21-22. `LinearDeformation` adds a number to a string (Linear.py 22). -/
def Card.body : Card → Py String
  | .translations _ n σ => .ok ("  Sigma=" ++ showR σ ++ "\n" ++ "  Nb pts=" ++ toString n ++ "\n")
  | .implicit0 _ n σ ν coeff =>
    .ok ("  Sigma=" ++ showR σ ++ "\n" ++ "  Nu=" ++ showR ν ++ "\n" ++ "  Coeff=" ++ showR coeff ++ "\n" ++ "  Nb pts=" ++ toString n)
  | .oriented _ n σ coeff => .ok ("  Sigma=" ++ showR σ ++ "\n" ++ "  Coeff=" ++ showR coeff ++ "\n" ++ "  Nb pts=" ++ toString n)
  | .constrained _ _ desc σ coeff => .ok ("  Type=" ++ desc ++ "\n" ++ "  Sigma=" ++ showR σ ++ "\n" ++ "  Coeff=" ++ showR coeff)
  | .globalTranslation _ coeff => .ok ("  Coeff=" ++ showR coeff)
  | .linear _ _ => .error .type
  | .implicit1 _ n p σ ν coeff =>
    .ok ("  Sigma=" ++ showR σ ++ "\n" ++ "  Nu=" ++ showR ν ++ "\n" ++ "  Coeff=" ++ showR coeff ++ "\n" ++ "  Dim controls=" ++ toString p
      ++ "\n" ++ "  Nb pts=" ++ toString n ++ "\n")
  | .divFree _ _ _ => .ok ""
  | .arap _ _ _ => .error .name
  | .silent _ n cls => .ok ("  Manifold type=" ++ cls ++ "  Nb pts=" ++ toString n)

/-- The first line (Translation.py 21, ImplicitModule0.py 24, OrientedTranslation.py 24,
LocalConstrainedTranslations.py 25, GlobalTranslation.py 18, Linear.py 19, ImplicitModule1.py 47, SilentLandmark.py 18). -/
def Card.title : Card → String
  | .translations .. => "Local translation module\n"
  | .implicit0 .. => "Implicit module of order 0\n"
  | .oriented .. => "Oriented translation\n"
  | .constrained .. => "Local constrained translation module\n"
  | .globalTranslation .. => "Global translation\n"
  | .linear .. => "Linear deformation module\n"
  | .implicit1 .. => "Implicit module of order 1\n"
  | .divFree .. => "<ImplicitDivFree>"
  | .arap .. => ""
  | .silent .. => "Silent module\n"

/-- `__str__` of a module that is no compound. The one of `ImplicitDivFree` is a constant
(ImplicitDivFree.py 46-48), the one of `ImplicitARAP` returns an undefined name (ImplicitARAP.py 55-57). -/
def Card.str (label : ModLabel) : Card → Py String
  | .divFree .. => .ok "<ImplicitDivFree>"
  | .arap .. => .error .name
  | c =>
    match labelLine label with
    | .error e => .error e
    | .ok l =>
      match c.body showR with
      | .error e => .error e
      | .ok b => .ok (c.title ++ l ++ b)

/-- `"*"*20`. -/
def stars : String := "********************"

mutual
/-- `str(module)` (Combination.py 25-34 for compounds). -/
def Labelled.str : Labelled → Py String
  | .leaf label c => c.str showR label
  | .compound label ms =>
    match labelLine label with
    | .error e => .error e
    | .ok l =>
      match Labelled.strAll ms with
      | .error e => .error e
      | .ok t => .ok ("Compound Module\n" ++ l ++ "Modules=\n" ++ t ++ stars)
/-- The loop (Combination.py 30-32). -/
def Labelled.strAll : List Labelled → Py String
  | [] => .ok ""
  | m :: ms =>
    match m.str with
    | .error e => .error e
    | .ok t =>
      match Labelled.strAll ms with
      | .error e => .error e
      | .ok ts => .ok (stars ++ t ++ "\n" ++ ts)
end

/-- `dim` of a module that is no compound: the one of its manifold. `GlobalTranslation` and `LinearDeformation` have no
such property: AttributeError. -/
def Card.dim : Card → Py Nat
  | .translations dim .. => .ok dim
  | .implicit0 dim .. => .ok dim
  | .oriented dim .. => .ok dim
  | .constrained dim .. => .ok dim
  | .globalTranslation .. => .error .attribute
  | .linear .. => .error .attribute
  | .implicit1 dim .. => .ok dim
  | .divFree dim .. => .ok dim
  | .arap dim .. => .ok dim
  | .silent dim .. => .ok dim

/-- `dim` (Combination.py 67-69 for compounds: the one of the first member, IndexError without members). -/
def Labelled.dim : Labelled → Py Nat
  | .leaf _ c => c.dim
  | .compound _ [] => .error .index
  | .compound _ (m :: _) => m.dim

/-- `to_(device)` can be called: every class has it (e.g. Translation.py 32-34) except `CompoundModule`. -/
def Labelled.toInPlace : Labelled → Py Unit
  | .leaf .. => .ok ()
  | .compound .. => .error .attribute

mutual
/-- `to(device)` (Combination.py 36-37): only compounds have it. -/
def Labelled.to : Labelled → Py Unit
  | .leaf .. => .error .attribute
  | .compound _ ms => Labelled.toAll ms
def Labelled.toAll : List Labelled → Py Unit
  | [] => .ok ()
  | m :: ms =>
    match m.to with
    | .error e => .error e
    | .ok () => Labelled.toAll ms
end

/-- The entries that iterating over a label gives; iterating over `None` raises TypeError. -/
def ModLabel.entries : ModLabel → Py (List String)
  | .none => .error .type
  | .str s => .ok (s.toList.map fun c => String.singleton c)
  | .names l => .ok l

/-- `todict()` of a compound (Combination.py 47-48): `dict(zip(label, modules))`. -/
def todict (label : ModLabel) (ms : List Labelled) : Py (List (String × Labelled)) :=
  match label.entries with
  | .error e => .error e
  | .ok l => .ok (l.zip ms)

/-- Looking a key up in a dictionary made from pairs: the last pair with this key counts. -/
def dictGet (key : String) : List (String × Labelled) → Py Labelled
  | [] => .error .key
  | (k, m) :: l =>
    match dictGet key l with
    | .ok m' => .ok m'
    | .error e => if k = key then .ok m else .error e

/-- `compound[i]` for an integer (Combination.py 50-52): negative indices count from the end. -/
def getAt (ms : List Labelled) (i : Int) : Py Labelled :=
  let j := if i < 0 then i + ms.length else i
  if j < 0 then .error .index
  else
    match ms[j.toNat]? with
    | none => .error .index
    | some m => .ok m

/-- `compound[name]` (Combination.py 53-54). -/
def getNamed (label : ModLabel) (ms : List Labelled) (name : String) : Py Labelled :=
  match todict label ms with
  | .error e => .error e
  | .ok l => dictGet name l

/-- The loop at the end of `RegistrationModel.__str__` (registration_model.py 168-169); `modules` are the silent modules
of the deformables followed by the deformation modules (registration_model.py 88-90). -/
def strModules : List Labelled → Py String
  | [] => .ok ""
  | m :: ms =>
    match m.str showR with
    | .error e => .error e
    | .ok t =>
      match strModules ms with
      | .error e => .error e
      | .ok ts => .ok ("\n" ++ t ++ ts)

/-- The module part of `RegistrationModel.__str__`: the list without its first entry. -/
def registrationStr (silents modules : List Labelled) : Py String := strModules showR ((silents ++ modules).drop 1)

end Imodal
