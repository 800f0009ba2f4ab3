import Verif.Model.AttachLife
import Verif.Model.Registration
/-!
# The iterables a registration model is built from, `imodal/Models/registration_model.py` 12-95

`Model/Registration` builds a model from lists. Here deformables, modules and attachments may also
be given as iterators. A single object that is not iterable is put into a list (14-21), which is the
container with one item.
-/
set_option autoImplicit false
namespace Imodal
noncomputable section
variable {d : Nat} {G T : Type}

/-- What is left of an iterable after a loop over all of it. -/
def Iter.spent {α : Type} : Iter α → Iter α
  | .container l => .container l
  | .once _ => .once []

/-- The loops that make the initial learnable controls (registration_model.py 61-64), `n` sets, and the
iterable of the modules afterwards. -/
def learnFrom (a : ℝ) : Nat → Iter (DefModule d) → Py (List (List (Ctrl d)) × Iter (DefModule d))
  | 0, ms => .ok ([], ms)
  | n + 1, ms =>
    match collectList (fun m : DefModule d => m.controls.like a) ms.items with
    | .error e => .error e
    | .ok c =>
      match learnFrom a n ms.spent with
      | .error e => .error e
      | .ok r => .ok (c :: r.1, r.2)

/-- `RegistrationModel.__init__` (registration_model.py 12-95). `len` of an iterator raises TypeError
(23). `CompoundModule(deformation_modules)` (78) takes what is left of the modules, and so does
`extend` (90), which comes after it; `compute_deformed` (284) loops over the same iterable again. -/
def RegModel.newFrom (Ds : Iter (Deformable d G)) (ms : Iter (DefModule d)) (as : Iter (Attach G T)) (fit : Option (SolverName × Nat × Bool))
    (lam : ℝ) (red : Reduce) : Py (RegModel d G T) :=
  match Ds, as with
  | .once _, _ => .error .type
  | _, .once _ => .error .type
  | .container Ds, .container as =>
    if Ds.length ≠ as.length then .error .assertion
    else
      match (match fit with
        | none => .ok (none, ms)
        | some (s, it, ones) =>
          match controlsPerIt s with
          | .error e => .error e
          | .ok k =>
            match learnFrom (if ones then 1 else 0) (it * k) ms with
            | .error e => .error e
            | .ok r => .ok (some (it, r.1), r.2) : Py (Option (Nat × List (List (Ctrl d))) × Iter (DefModule d))) with
      | .error e => .error e
      | .ok (learned, ms') =>
        let init := Ds.map (fun D => D.silent.manifold) ++ DefModule.manifolds ms'.items
        if init.all Mfd.canRequireGrad then .ok ⟨Ds, ms'.spent.items, as, init, learned, lam, red⟩ else .error .notImplemented

end
end Imodal
