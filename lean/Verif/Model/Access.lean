import Verif.Model.ListUtils
/-!
# What models and optimisers answer about themselves

The properties of `RegistrationModel` (`imodal/Models/registration_model.py` 97-140), `AtlasModel`
(`imodal/Models/atlas.py` 83-113) and `BaseOptimizer` (`imodal/Models/optimizer.py` 1-11).

An object is the dictionary of its attributes. Inside a class `C`, `self.__x` is the attribute
`_C__x`: the name is kept together with the class whose code it stands in. Of the values only what
the properties look into is modelled; everything else is a `V`.
-/
set_option autoImplicit false
namespace Imodal
variable {V : Type}

/-- The name of an attribute: `cls` is the class of a name with two underscores. -/
structure Attr where
  cls : Option String
  name : String
  deriving DecidableEq

/-- A value. `models` is a list of registration models, of each of which the attachments are kept. -/
inductive Val (V : Type)
  | none
  | given (v : V)
  | list (l : List V)
  | models (l : List (List V))

abbrev Obj (V : Type) := Dict Attr (Val V)

/-- The body of a property. -/
inductive Getter
  /-- `return self.__name` -/
  | reads (name : String)
  /-- `pass` -/
  | passes
  /-- `return list(list(zip(*[model.attachments for model in self.__name]))[0])` -/
  | firsts (name : String)

/-- A property; `setter` is the private name its setter writes. -/
structure PropDef where
  name : String
  getter : Getter
  setter : Option String := none

/-- A class. -/
structure ClassDef where
  name : String
  props : List PropDef

def Obj.read (o : Obj V) (a : Attr) : Py (Val V) :=
  match Dict.get? o a with
  | .none => .error .attribute
  | some v => .ok v

/-- `list(list(zip(*ls))[0])`: the first elements of the lists, if there is a list and none is empty. -/
def firstColumn : List (List V) → Py (List V)
  | [] => .error .index
  | l :: ls => if (l :: ls).all (fun l => !l.isEmpty) then .ok ((l :: ls).filterMap List.head?) else .error .index

def Getter.run (cls : String) (o : Obj V) : Getter → Py (Val V)
  | .reads n => o.read ⟨some cls, n⟩
  | .passes => .ok .none
  | .firsts n =>
    match o.read ⟨some cls, n⟩ with
    | .error e => .error e
    | .ok (.models l) => (firstColumn l).map .list
    | .ok _ => .error .unmodelled

/-- The property of that name. -/
def ClassDef.prop (C : ClassDef) (n : String) : Option PropDef := C.props.find? fun p => p.name == n

/-- `obj.n`: properties come before attributes of the object. -/
def ClassDef.get (C : ClassDef) (o : Obj V) (n : String) : Py (Val V) :=
  match C.prop n with
  | some p => p.getter.run C.name o
  | .none => o.read ⟨.none, n⟩

/-- `obj.n = v`: a property without setter refuses. -/
def ClassDef.assign (C : ClassDef) (o : Obj V) (n : String) (v : Val V) : Py Unit × Obj V :=
  match C.prop n with
  | some p =>
    match p.setter with
    | .none => (.error .attribute, o)
    | some s => (.ok (), Dict.set o ⟨some C.name, s⟩ v)
  | .none => (.ok (), Dict.set o ⟨.none, n⟩ v)

/-- What happens to an object after it was built. -/
inductive Event (V : Type)
  /-- `obj.name = v` outside of the class, for a name that does not begin with an underscore; whether it
  raised is not kept. Of the setter of `init_manifold` the new `parameters` are a `method` of their own. -/
  | assign (name : String) (v : Val V)
  /-- `self.__name = v` in a method of the class `cls`. -/
  | method (cls name : String) (v : Val V)

def ClassDef.after (C : ClassDef) : Obj V → List (Event V) → Obj V
  | o, [] => o
  | o, .assign n v :: es => C.after (C.assign o n v).2 es
  | o, .method cls n v :: es => C.after (Dict.set o ⟨some cls, n⟩ v) es

/-! ## The classes -/

/-- registration_model.py 97-140; the setter of `init_manifold` is `fill_init_manifold` (120-125). -/
def registrationClass : ClassDef := ⟨"RegistrationModel", [
  ⟨"modules", .reads "modules", none⟩, ⟨"deformation_modules", .reads "deformation_modules", none⟩,
  ⟨"attachments", .reads "attachments", none⟩, ⟨"precompute_callback", .reads "precompute_callback", none⟩,
  ⟨"fit_gd", .reads "fit_gd", none⟩, ⟨"init_manifold", .reads "init_manifold", some "init_manifold"⟩,
  ⟨"init_other_parameters", .reads "init_other_parameters", none⟩, ⟨"parameters", .reads "parameters", none⟩,
  ⟨"lam", .reads "lam", none⟩, ⟨"deformables", .reads "deformables", none⟩]⟩

/-- atlas.py 83-113. -/
def atlasClass : ClassDef := ⟨"AtlasModel", [
  ⟨"attachments", .firsts "registration_models", none⟩, ⟨"compute_mode", .reads "compute_mode", none⟩,
  ⟨"registration_models", .reads "registration_models", none⟩, ⟨"parameters", .reads "parameters", none⟩,
  ⟨"attachement", .reads "attachement", none⟩, ⟨"template", .passes, none⟩,
  ⟨"precompute_callback", .reads "precompute_callback", none⟩, ⟨"lam", .reads "lam", none⟩]⟩

/-- optimizer.py 5-11; `method_name`, which the optimisers add, is left out. -/
def optimizerClass : ClassDef := ⟨"BaseOptimizer", [⟨"model", .reads "model", none⟩, ⟨"kwargs", .reads "kwargs", none⟩]⟩

/-- The attributes set one after the other. -/
def Obj.build (l : List (Attr × Val V)) : Obj V := l.foldl (fun o e => Dict.set o e.1 e.2) []

/-- The arguments of `RegistrationModel` (registration_model.py 12-13) that are kept as they are, and
what the constructor makes of them. -/
structure RegArgs (V : Type) where
  deformables : Val V
  attachments : List V
  modules : Val V
  callback : Val V
  fitGd : Val V
  fitControls : Val V
  lam : Val V
  reduce : Val V
  others : Val V

/-- The attributes `RegistrationModel.__init__` leaves (registration_model.py 25-95); `manifold`,
`all`, `controls` and `parameters` are the initial manifold, the list of all modules, the learnable
controls and the parameters it makes. The solver and the number of steps are left out: no property
shows them. -/
def RegArgs.init (a : RegArgs V) (manifold all controls parameters : Val V) : Obj V :=
  let own (n : String) : Attr := ⟨some "RegistrationModel", n⟩
  Obj.build [(own "deformables", a.deformables), (own "attachments", .list a.attachments), (own "deformation_modules", a.modules),
    (own "precompute_callback", a.callback), (own "fit_gd", a.fitGd), (own "fit_controls", a.fitControls), (own "lam", a.lam),
    (⟨.none, "learnable_controls"⟩, controls), (own "reduce", a.reduce), (own "init_manifold", manifold), (own "init_other_parameters", a.others), (own "modules", all),
    (own "parameters", parameters)]

/-- The arguments of `AtlasModel` (atlas.py 14) that an attribute keeps; `attachements` is the argument
`attachement` as every registration model keeps it, in a list if it was not iterable. -/
structure AtlasArgs (V : Type) where
  template : V
  attachements : List V
  count : Nat
  lam : V
  callback : Val V
  fitGd : Val V
  mode : V

/-- The attributes `AtlasModel.__init__` leaves (atlas.py 34-81), the number of subjects and the settings of
the template left out: no property shows them. -/
def AtlasArgs.init (a : AtlasArgs V) (parameters : Val V) : Obj V :=
  let own (n : String) : Attr := ⟨some "AtlasModel", n⟩
  Obj.build [(own "evaluate_mode", .given a.mode), (own "template", .given a.template),
    (own "precompute_callback", a.callback), (own "fit_gd", a.fitGd), (own "lam", .given a.lam),
    (own "registration_models", .models (List.replicate a.count a.attachements)), (own "parameters", parameters)]

/-- `BaseOptimizer.__init__` (optimizer.py 2-3), called last by the constructors of the optimisers
(optimizer_scipy.py 12-20, optimizer_torch.py 12-21), which set attributes of their own before. -/
def optimizerInit (own : List (Attr × Val V)) (model : Val V) : Obj V := Dict.set (Obj.build own) ⟨some "BaseOptimizer", "model"⟩ model

end Imodal
