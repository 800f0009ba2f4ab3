import Verif.Model.Shooting
import Verif.Model.Attachment
import Verif.Model.ListUtils
/-!
# Deforming deformables and the models

`imodal/Models/deformable.py` (`deformables_compute_deformed`), `imodal/Models/registration_model.py`,
`imodal/Models/atlas.py`. The values are exact real numbers; which tensors are shared and which
are recorded for differentiation is modelled in `Verif.Model.Params`.
-/
set_option autoImplicit false
namespace Imodal
noncomputable section
variable {d : Nat}

/-! ## `shoot` -/

/-- The argument `solver` of `shoot`: `'torch_euler'`, a fixed-step method of `torchdiffeq`,
another method of `torchdiffeq` (not modelled), or any other string. -/
inductive SolverName
  | torchEuler
  | fixed (s : Solver)
  | adaptive
  | unknown
  deriving DecidableEq

/-- `_shoot_torchdiffeq` with or without controls. -/
def shootOde (s : Solver) (it : Nat) (t1 : ℝ) (controls : Option (List (Ctrl d))) (m : DefModule d) : Py (Shot d) :=
  match controls with
  | none => shootMoments s it t1 m
  | some cs => shootControls s it t1 cs m

/-- `shoot` (shooting.py 8-50). The second component is `costs['deformation']`, which
`'torch_euler'` does not set. -/
def shoot (s : SolverName) (it : Nat) (t1 : ℝ) (controls : Option (List (Ctrl d))) (m : DefModule d) :
    Py (Shot d × Option (List ℝ)) :=
  match s with
  | .torchEuler =>
    match shootEuler it controls m with
    | .error e => .error e
    | .ok r => .ok (r, none)
  | .fixed s =>
    match shootOde s it t1 controls m with
    | .error e => .error e
    | .ok r => .ok (r, some r.costs)
  | .adaptive => .error .unmodelled
  | .unknown => .error .notImplemented

/-! ## Deformables -/

/-- A tensor of points. -/
structure Points (d : Nat) where
  n : Nat
  x : Fin n → Vec d

/-- A deformable (deformable.py 15-50, 81-93, 147-153, 191-206, 229-242; deformable_image2d.py
84-104): the points and momenta of its silent module, the points of `_backward_module()` if
`_has_backward`, and `_to_deformed`. `G` is the type of geometries. -/
structure Deformable (d : Nat) (G : Type) where
  n : Nat
  gd : Fin n → Vec d
  cot : Fin n → Vec d
  backward : Option (Py (Points d))
  toDeformed : Points d → Py G

variable {G : Type}

/-- The silent module (deformable.py 86-93). -/
def Deformable.silent (D : Deformable d G) : DefModule d := .silent (.landmarks D.gd D.cot)

/-- `module.manifold.gd` of a silent module on landmarks. -/
def pointsOf : DefModule d → Py (Points d)
  | .silent (.landmarks gd _) => .ok ⟨_, gd⟩
  | _ => .error .unmodelled

/-- The argument `reduce`. -/
inductive Reduce
  | sum
  | previous
  | lastCompound
  | totalCompound
  | other
  deriving DecidableEq

/-- `module.manifold.fill_gd(man.gd)` for a manifold of the same shapes (Compound.py 100-105). -/
def DefModule.fillGdFrom (m : DefModule d) (man : Mfd d) : Py (DefModule d) :=
  match m.rollFillGd (slicesOf (rowOf man.unrollGd.flatten) man) with
  | .error e => .error e
  | .ok r => .ok r.1
/-- `module.manifold.fill_cotan(man.cotan)` for a manifold of the same shapes (Compound.py 111-113). -/
def DefModule.fillCotFrom (m : DefModule d) (man : Mfd d) : Py (DefModule d) :=
  match m.rollFillCot (slicesOf (rowOf man.unrollCot.flatten) man) with
  | .error e => .error e
  | .ok r => .ok r.1

/-- The controls given to `shoot`: an empty tensor for every silent module (deformable.py 283-291). -/
def padControls (k : Nat) (controls : Option (List (List (Ctrl d)))) : Option (List (Ctrl d)) :=
  controls.map fun cs => cs.map fun c => .list (List.replicate k .none ++ c)

/-- The loop of `'totalcompound'` (deformable.py 348-353), from step `i` on for `k` steps. -/
def totalLoop (states : List (Mfd d)) (controls : List (Ctrl d)) : Nat → Nat → DefModule d → Py (ℝ × DefModule d)
  | _, 0, m => .ok (0, m)
  | i, k + 1, m =>
    match states[i]? with
    | none => .error .index
    | some S =>
      match m.fillGdFrom S with
      | .error e => .error e
      | .ok m1 =>
        match controls[i]? with
        | none => .error .index
        | some c =>
          match m1.fillControls c with
          | .error e => .error e
          | .ok m2 =>
            match m2.cost with
            | .error e => .error e
            | .ok a =>
              match totalLoop states controls (i + 1) k m2 with
              | .error e => .error e
              | .ok r => .ok (a + r.1, r.2)

/-- The deformation cost (deformable.py 340-353): the value put into `costs`, if any, and the
compound module afterwards. `None[i]` raises TypeError. -/
def reduceCost (red : Reduce) (it : Nat) (costs : Option (List ℝ)) (controls : Option (List (Ctrl d))) (states : List (Mfd d))
    (m : DefModule d) : Py (Option ℝ × DefModule d) :=
  match red with
  | .sum =>
    match costs with
    | none => .error .key
    | some cs => .ok (some cs.sum, m)
  | .previous =>
    match m.geodesic m.manifold with
    | .error e => .error e
    | .ok m' =>
      match m'.cost with
      | .error e => .error e
      | .ok a => .ok (some a, m')
  | .lastCompound =>
    match m.cost with
    | .error e => .error e
    | .ok a => .ok (some a, m)
  | .totalCompound =>
    match controls with
    | none =>
      if it = 0 then .ok (some 0, m)
      else
        match states[0]? with
        | none => .error .index
        | some S =>
          match m.fillGdFrom S with
          | .error e => .error e
          | .ok _ => .error .type
    | some cs =>
      match totalLoop states cs 0 it m with
      | .error e => .error e
      | .ok r => .ok (some r.1, r.2)
  | .other => .ok (none, m)

/-- What `deformables_compute_deformed` returns and leaves behind: the deformed geometries, the
entry `'deformation'` of `costs`, the result of shooting (with `intermediates`) and the compound
module of the silent modules and the deformation modules. -/
structure Deformed (d : Nat) (G : Type) where
  geometries : List G
  cost : Option ℝ
  shot : Shot d
  compound : DefModule d

/-- The geometries of deformables without backward flow (deformable.py 355-363). -/
def toGeometries : List (Deformable d G) → List (DefModule d) → Py (List G)
  | D :: Ds, m :: ms =>
    match pointsOf m with
    | .error e => .error e
    | .ok p =>
      match D.toDeformed p with
      | .error e => .error e
      | .ok g =>
        match toGeometries Ds ms with
        | .error e => .error e
        | .ok gs => .ok (g :: gs)
  | _, _ => .ok []

/-- `[deformable._backward_module() for deformable in deformables if deformable._has_backward]`
(deformable.py 310-311). -/
def backwardModules : List (Deformable d G) → Py (List (Points d))
  | [] => .ok []
  | D :: Ds =>
    match D.backward with
    | none => backwardModules Ds
    | some r =>
      match r with
      | .error e => .error e
      | .ok p =>
        match backwardModules Ds with
        | .error e => .error e
        | .ok ps => .ok (p :: ps)

/-- `deformables_compute_deformed` (deformable.py 245-365). `wantCosts` tells whether `costs` is a
dictionary. For a deformable with backward flow `shoot` is called without its argument `costs`
(334), which raises TypeError whatever the modules are. -/
def computeDeformed (Ds : List (Deformable d G)) (ms : List (DefModule d)) (s : SolverName) (it : Nat) (wantCosts : Bool)
    (controls : Option (List (List (Ctrl d)))) (t1 : ℝ) (red : Reduce) : Py (Deformed d G) :=
  let inControls := padControls Ds.length controls
  match shoot s it t1 inControls (.compound (Ds.map Deformable.silent ++ ms)) with
  | .error e => .error e
  | .ok (r, costs) =>
    if Ds.any fun D => D.backward.isSome then
      match backwardModules Ds with
      | .error e => .error e
      | .ok _ => .error .type
    else
      match (if wantCosts then reduceCost red it costs inControls r.states r.module else .ok (none, r.module)) with
      | .error e => .error e
      | .ok (cost, m) =>
        match toGeometries Ds r.module.members with
        | .error e => .error e
        | .ok gs => .ok ⟨gs, cost, r, m⟩

/-! ## `RegistrationModel` -/

/-- The costs reported by a model. -/
inductive CostKey
  | precompute
  | deformation
  | attach
  | other (name : String)
  deriving DecidableEq

/-- The attributes of a `RegistrationModel` (registration_model.py 12-95). `T` is the type of the
target geometries. `learned` is `it` and `learnable_controls` if `fit_controls`. `init` is the
list of the manifolds in `init_manifold`. -/
structure RegModel (d : Nat) (G T : Type) where
  deformables : List (Deformable d G)
  modules : List (DefModule d)
  attachments : List (Attach G T)
  init : List (Mfd d)
  learned : Option (Nat × List (List (Ctrl d)))
  lam : ℝ
  reduce : Reduce

variable {T : Type}

/-- `torch.ones_like(controls)` or `torch.zeros_like(controls)`: every entry is `a`. The controls
of a compound module are a list, which raises TypeError. -/
def Ctrl.like (a : ℝ) : Ctrl d → Py (Ctrl d)
  | .vecs (n := n) _ => .ok (.vecs (n := n) fun _ _ => a)
  | .scalars (n := n) _ => .ok (.scalars (n := n) fun _ => a)
  | .scalar _ => .ok (.scalar a)
  | .vec _ => .ok (.vec fun _ => a)
  | .none => .ok .none
  | .list _ => .error .type

/-- `cont_per_it` (registration_model.py 51-55); other names raise KeyError. -/
def controlsPerIt : SolverName → Py Nat
  | .fixed .euler => .ok 1
  | .fixed .midpoint => .ok 2
  | .fixed .rk4 => .ok 4
  | _ => .error .key

/-- The initial learnable controls (registration_model.py 57-64). -/
def learnableControls (s : SolverName) (it : Nat) (ones : Bool) (ms : List (DefModule d)) : Py (List (List (Ctrl d))) :=
  match controlsPerIt s with
  | .error e => .error e
  | .ok k =>
    if it = 0 then .ok []
    else
      match collectList (fun m : DefModule d => m.controls.like (if ones then 1 else 0)) ms with
      | .error e => .error e
      | .ok c => .ok (List.replicate (it * k) c)

/-- `manifold.cotan_requires_grad_()` does not raise: `CompoundManifold` does not implement it. -/
def Mfd.canRequireGrad : Mfd d → Bool
  | .compound _ => false
  | _ => true

/-- `RegistrationModel.__init__` (registration_model.py 12-95). `fit` is `solver`, `it` and
`init_controls_ones` if `fit_controls`. The values of the given deformables and modules become
the initial values. The parameters are in `Verif.Model.Params`. -/
def RegModel.new (Ds : List (Deformable d G)) (ms : List (DefModule d)) (as : List (Attach G T)) (fit : Option (SolverName × Nat × Bool))
    (lam : ℝ) (red : Reduce) : Py (RegModel d G T) :=
  if Ds.length ≠ as.length then .error .assertion
  else
    match (match fit with
      | none => .ok none
      | some (s, it, ones) =>
        match learnableControls s it ones ms with
        | .error e => .error e
        | .ok cs => .ok (some (it, cs)) : Py (Option (Nat × List (List (Ctrl d))))) with
    | .error e => .error e
    | .ok learned =>
      let init := Ds.map (fun D => D.silent.manifold) ++ DefModule.manifolds ms
      if init.all Mfd.canRequireGrad then .ok ⟨Ds, ms, as, init, learned, lam, red⟩ else .error .notImplemented

/-- `deformable.silent_module.manifold.fill(manifold)` (Abstract.py 96-102). -/
def Deformable.fill (D : Deformable d G) : Mfd d → Py (Deformable d G)
  | @Mfd.landmarks _ n gd cot => .ok { D with n := n, gd := gd, cot := cot }
  | _ => .error .unmodelled

/-- The loop over the deformables (registration_model.py 290-291). -/
def fillDeformables : List (Deformable d G) → List (Mfd d) → Py (List (Deformable d G))
  | D :: Ds, man :: mans =>
    match D.fill man with
    | .error e => .error e
    | .ok D' =>
      match fillDeformables Ds mans with
      | .error e => .error e
      | .ok Ds' => .ok (D' :: Ds')
  | Ds, _ => .ok Ds

/-- Filling the modules from the initial manifold (registration_model.py 284-288). -/
def fillModules (ms : List (DefModule d)) (mans : List (Mfd d)) : Py (List (DefModule d)) :=
  match (DefModule.compound ms).fillGdFrom (.compound mans) with
  | .error e => .error e
  | .ok m =>
    match m.fillCotFrom (.compound mans) with
    | .error e => .error e
    | .ok m' => .ok m'.members

/-- The deformable whose silent module a compound has left as `m`. -/
def Deformable.leave (D : Deformable d G) (m : DefModule d) : Deformable d G :=
  match D.fill m.manifold with
  | .ok D' => D'
  | .error _ => D

/-- The model with the modules and silent modules as a compound of them has left them. -/
def RegModel.leave (M : RegModel d G T) (m : DefModule d) : RegModel d G T :=
  { M with
    deformables := List.zipWith Deformable.leave M.deformables m.members
    modules := m.members.drop M.deformables.length }

/-- The number of steps: with learnable controls the argument `it` is ignored
(registration_model.py 293-299). -/
def RegModel.steps (M : RegModel d G T) (it : Nat) : Nat := M.learned.elim it Prod.fst

/-- `compute_deformed` (registration_model.py 266-299), and the model afterwards. -/
def RegModel.computeDeformed (M : RegModel d G T) (s : SolverName) (it : Nat) (wantCosts : Bool) (t1 : ℝ) :
    Py (Deformed d G × RegModel d G T) :=
  match fillModules M.modules (M.init.drop M.deformables.length) with
  | .error e => .error e
  | .ok ms =>
    match fillDeformables M.deformables M.init with
    | .error e => .error e
    | .ok Ds =>
      match Imodal.computeDeformed Ds ms s (M.steps it) wantCosts (M.learned.map Prod.snd) t1 M.reduce with
      | .error e => .error e
      | .ok r => .ok (r, ({ M with deformables := Ds, modules := ms } : RegModel d G T).leave r.compound)

/-- `_compute_attachment_cost` (registration_model.py 263-264). -/
def attachmentCost : List (Attach G T) → List G → List T → Py ℝ
  | a :: as, g :: gs, t :: ts =>
    match a.call g t with
    | .error e => .error e
    | .ok x =>
      match attachmentCost as gs ts with
      | .error e => .error e
      | .ok y => .ok (x + y)
  | _, _, _ => .ok 0

/-- `sum(costs.values())`. -/
def totalCost (c : Dict CostKey ℝ) : ℝ := (c.map Prod.snd).sum

/-- What `evaluate` returns, the number it calls `backward` on, and the model afterwards. -/
structure Evaluated (d : Nat) (G T : Type) where
  costs : Dict CostKey ℝ
  total : ℝ
  model : RegModel d G T

/-- `evaluate` (registration_model.py 212-261). `costs` is the given dictionary (empty if `None`),
`callback` the precompute callback: it may change the model and may return a cost. -/
def RegModel.evaluate (callback : Option (RegModel d G T → Py (Option ℝ × RegModel d G T))) (M : RegModel d G T) (targets : List T)
    (s : SolverName) (it : Nat) (costs : Dict CostKey ℝ) : Py (Evaluated d G T) :=
  if targets.length ≠ M.deformables.length then .error .assertion
  else
    match (match callback with | none => .ok (none, M) | some f => f M : Py (Option ℝ × RegModel d G T)) with
    | .error e => .error e
    | .ok (pre, M) =>
      let costs := match pre with | none => costs | some p => costs.set .precompute p
      match M.computeDeformed s it true 1 with
      | .error e => .error e
      | .ok (r, M) =>
        let costs := match r.cost with | none => costs | some c => costs.set .deformation c
        match attachmentCost M.attachments r.geometries targets with
        | .error e => .error e
        | .ok a =>
          let costs := costs.set .attach (M.lam * a)
          .ok ⟨costs, totalCost costs, M⟩

/-! ## `AtlasModel` -/

/-- The loop of `AtlasModel.evaluate` without template optimisation (atlas.py 158-167). -/
def atlasLoop (s : SolverName) (it : Nat) : List (RegModel d G T) → List T → Dict CostKey (List ℝ) →
    Py (Dict CostKey (List ℝ) × List (RegModel d G T))
  | M :: Ms, t :: ts, costs =>
    match M.evaluate none [t] s it [] with
    | .error e => .error e
    | .ok r =>
      match atlasLoop s it Ms ts (appendInDictOfList costs r.costs) with
      | .error e => .error e
      | .ok r' => .ok (r'.1, r.model :: r'.2)
  | Ms, _, costs => .ok (costs, Ms)

/-- The module of `compute_template` (atlas.py 145). -/
structure Hyper (d : Nat) where
  n : Nat
  module : Implicit0 d n

/-- `compute_template` with the optimisation of the template (atlas.py 145-153). `shoot` is called
without its argument `costs` (151), which raises TypeError; before that the geodesic controls are
computed if `costs` is given. -/
def Hyper.template (H : Hyper d) (wantCosts : Bool) : Py (Points d) :=
  match (if wantCosts then H.module.geodesic H.module.manifold else .ok H.module) with
  | .error e => .error e
  | .ok _ => .error .type

/-- The template is computed before each subject if it is optimised (atlas.py 162-165, 194-196). -/
def useTemplate (ht : Option (Hyper d)) (wantCosts : Bool) : Py Unit :=
  match ht with
  | none => .ok ()
  | some H =>
    match H.template wantCosts with
    | .error e => .error e
    | .ok _ => .error .unmodelled

/-- `AtlasModel.evaluate` (atlas.py 158-175): the returned costs, the number it calls `backward`
on, and the registration models afterwards. Without any entry `sum` gives the integer 0, which
has no `requires_grad`. With template optimisation the loop starts with `compute_template`. -/
def atlasEvaluate (ht : Option (Hyper d)) (Ms : List (RegModel d G T)) (targets : List T) (s : SolverName) (it : Nat) :
    Py (Dict CostKey ℝ × ℝ × List (RegModel d G T)) :=
  match (if Ms.isEmpty || targets.isEmpty then .ok () else useTemplate ht true) with
  | .error e => .error e
  | .ok _ =>
    match atlasLoop s it Ms targets [] with
    | .error e => .error e
    | .ok r =>
      let costs : Dict CostKey ℝ := r.1.map fun e => (e.1, e.2.sum)
      if costs = [] then .error .attribute else .ok (costs, totalCost costs, r.2)

end
end Imodal
