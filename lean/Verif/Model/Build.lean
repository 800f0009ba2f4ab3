import Verif.Model.Modules
/-!
# Building deformation modules, and setting their controls to zero

`imodal/DeformationModules/*.py`: the class methods `build`, the constructors they call, and
`fill_controls_zero`. The shapes of given tensors are right by their types, so the shape
assertions of the manifolds hold. Labels, devices, dtypes and initial tangent vectors are left out.
-/
set_option autoImplicit false
namespace Imodal
noncomputable section
variable {d : Nat}

/-- The transport named by a string (LandmarkDirection.py 20-21): RuntimeError for other names. -/
def transportOf (s : String) : Py Transport :=
  if s = "vector" then .ok .vector else if s = "orthogonal" then .ok .orthogonal else .error .runtime

/-- A call of a builder with its arguments. Descriptors and momenta that are not given (`none`)
are zero tensors (tensor_container.py 12, Manifolds/Abstract.py 230-241). -/
inductive Recipe (d : Nat)
  /-- `Translations(dim, nb_pts, sigma, gd, cotan, backend)`. -/
  | translations {n : Nat} (r : Reduction) (σ : ℝ) (gd cot : Option (Fin n → Vec d))
  /-- `ImplicitModule0(dim, nb_pts, sigma, nu, coeff, gd, cotan, backend)`. -/
  | implicit0 {n : Nat} (r : Reduction) (σ ν coeff : ℝ) (gd cot : Option (Fin n → Vec d))
  /-- `OrientedTranslations(dim, nb_pts, sigma, transport, coeff, gd, cotan)`. -/
  | oriented {n : Nat} (σ : ℝ) (transport : String) (coeff : ℝ) (gd cot : Option ((Fin n → Vec d) × (Fin n → Vec d)))
  /-- `LocalConstrainedTranslations(dim, nb_pts, sigma, descstr, f_support, f_vectors, coeff, gd, cotan)`. -/
  | constrained {n p : Nat} (σ : ℝ) (fsupp fvec : (Fin n → Vec d) → Fin p → Vec d) (coeff : ℝ) (gd cot : Option (Fin n → Vec d))
  /-- `GlobalTranslation(dim, coeff)`. -/
  | globalTranslation (coeff : ℝ)
  /-- `LinearDeformation.build(A, coeff, gd, cotan)`. -/
  | linear (A : Mat d) (coeff : ℝ) (gd cot : Option (Vec d))
  /-- `ImplicitModule1(dim, nb_pts, sigma, C, nu, coeff, gd, cotan, backend)`. -/
  | implicit1 {n p : Nat} (r : Reduction) (σ : ℝ) (C : Fin n → Fin d → Fin p → ℝ) (ν coeff : ℝ) (gd cot : Option ((Fin n → Vec d) × (Fin n → Mat d)))
  /-- `ImplicitDivFree.build(dim, [N, P], sigma, coeff_div, nu, coeff, gd, cotan)`. -/
  | divFree {N P : Nat} (σ coeffDiv ν coeff : ℝ) (gd cot : Option (Fin (N + P) → Vec d))
  /-- `ImplicitARAP.build(dim, [N, P], sigma, coeff_arap, nu, coeff, gd, cotan)`. -/
  | arap {N P : Nat} (σ coeffArap ν coeff : ℝ) (gd cot : Option (Fin (N + P) → Vec d))
  /-- `SilentLandmarks(dim, nb_pts, gd, cotan)`. -/
  | silentLandmarks {n : Nat} (gd cot : Option (Fin n → Vec d))
  /-- `CompoundModule([...])` of modules that have just been built. -/
  | compound (rs : List (Recipe d))

mutual
/-- The module made by a builder: Translation.py 13-18, 28-30, ImplicitModule0.py 14-21, 33-35,
OrientedTranslation.py 15-21, 32-34, LocalConstrainedTranslations.py 12-22, 33-35,
GlobalTranslation.py 11-15, 24-26, Linear.py 10-16, 27-29, ImplicitModule1.py 27-44, 57-59,
ImplicitDivFree.py 27-44, 50-55, ImplicitARAP.py 29-53, 59-62, SilentLandmark.py 12-15, 25-27, 78-79,
Combination.py 20-23. The constructors of the implicit modules of order 1, of the divergence
free and of the as-rigid-as-possible modules do not compute the moments. -/
def Recipe.build : Recipe d → Py (DefModule d)
  | .translations r σ gd cot => .ok (.translations ⟨r, gd.getD 0, cot.getD 0, σ, 0⟩)
  | .implicit0 r σ ν coeff gd cot => .ok (.implicit0 ⟨r, gd.getD 0, cot.getD 0, σ, ν, coeff, 0⟩)
  | .oriented σ transport coeff gd cot =>
    match transportOf transport with
    | .error e => .error e
    | .ok t => .ok (.oriented ⟨t, (gd.getD 0).1, (gd.getD 0).2, (cot.getD 0).1, (cot.getD 0).2, σ, coeff, 0⟩)
  | .constrained σ fsupp fvec coeff gd cot => .ok (.constrained ⟨gd.getD 0, cot.getD 0, σ, coeff, fsupp, fvec, 0⟩)
  | .globalTranslation coeff => .ok (.globalTranslation ⟨coeff, 0⟩)
  | .linear A coeff gd cot => .ok (.linear ⟨A, gd.getD 0, cot.getD 0, coeff, 0⟩)
  | .implicit1 r σ C ν coeff gd cot =>
    .ok (.implicit1 ⟨r, (gd.getD 0).1, (gd.getD 0).2, (cot.getD 0).1, (cot.getD 0).2, C, σ, ν, coeff, 0, none⟩)
  | .divFree σ coeffDiv ν coeff gd cot => .ok (.divFree ⟨gd.getD 0, cot.getD 0, σ, coeffDiv, ν, coeff, 0, none⟩)
  | .arap σ coeffArap ν coeff gd cot => .ok (.arap ⟨gd.getD 0, cot.getD 0, σ, coeffArap, ν, coeff, 0, none⟩)
  | .silentLandmarks gd cot => .ok (.silent (.landmarks (gd.getD 0) (cot.getD 0)))
  | .compound rs =>
    match Recipe.buildAll rs with
    | .error e => .error e
    | .ok ms => .ok (.compound ms)
def Recipe.buildAll : List (Recipe d) → Py (List (DefModule d))
  | [] => .ok []
  | r :: rs =>
    match r.build with
    | .error e => .error e
    | .ok m =>
      match Recipe.buildAll rs with
      | .error e => .error e
      | .ok ms => .ok (m :: ms)
end

mutual
/-- `fill_controls_zero()`: Translation.py 60-61, ImplicitModule0.py 76-77, OrientedTranslation.py 68-69,
LocalConstrainedTranslations.py 74-75 (the new tensor has shape `[1]`, not `[]`; not modelled),
GlobalTranslation.py 59-60, Linear.py 65-66, ImplicitModule1.py 118-119, ImplicitDivFree.py 110-111,
ImplicitARAP.py 121-122, SilentLandmark.py 52-53, Combination.py 80-81. -/
def DefModule.fillControlsZero : DefModule d → Py (DefModule d)
  | .translations m => .ok (.translations { m with ctrl := 0 })
  | .implicit0 m => .ok (.implicit0 { m with ctrl := 0 })
  | .oriented m => .ok (.oriented { m with ctrl := 0 })
  | .constrained m => .ok (.constrained { m with ctrl := 0 })
  | .globalTranslation m => .ok (.globalTranslation { m with ctrl := 0 })
  | .linear m => .ok (.linear { m with ctrl := 0 })
  | .implicit1 m => wrap .implicit1 (m.fill 0)
  | .divFree m => wrap .divFree (m.fill 0)
  | .arap m => wrap .arap (m.fill 0)
  | .silent man => .ok (.silent man)
  | .compound ms =>
    match DefModule.fillControlsZeroAll ms with
    | .error e => .error e
    | .ok ms' => .ok (.compound ms')
def DefModule.fillControlsZeroAll : List (DefModule d) → Py (List (DefModule d))
  | [] => .ok []
  | m :: ms =>
    match m.fillControlsZero with
    | .error e => .error e
    | .ok m' =>
      match DefModule.fillControlsZeroAll ms with
      | .error e => .error e
      | .ok ms' => .ok (m' :: ms')
end

end
end Imodal
