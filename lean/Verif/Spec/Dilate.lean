import Verif.Spec.Shooting
/-!
# Another unit of length

What becomes of states and parameters when every length is expressed in a unit `s` times smaller. Positions, kernel
widths and velocities are lengths. Directions, frames and Jacobians have no unit. Costs are squares of lengths, so
momenta of positions are lengths and momenta of directions and frames are squares of lengths.
-/
set_option autoImplicit false
namespace Imodal
noncomputable section
variable {d : Nat}

mutual
/-- Positions and their momenta times `s`, momenta of directions and frames times `s ^ 2`. -/
def Mfd.dilate (s : ℝ) : Mfd d → Mfd d
  | .landmarks gd cot => .landmarks (fun i c => s * gd i c) (fun i c => s * cot i c)
  | .direction t gd dir cot cdir =>
    .direction t (fun i c => s * gd i c) dir (fun i c => s * cot i c) (fun i c => s ^ 2 * cdir i c)
  | .frame gd R cot cR => .frame (fun i c => s * gd i c) R (fun i c => s * cot i c) (fun i b c => s ^ 2 * cR i b c)
  | .empty => .empty
  | .compound ms => .compound (Mfd.dilateAll s ms)
def Mfd.dilateAll (s : ℝ) : List (Mfd d) → List (Mfd d)
  | [] => []
  | m :: ms => m.dilate s :: Mfd.dilateAll s ms
end

mutual
/-- The module in the new unit. Controls that are vectors or lengths are multiplied by `s`; those of linear
deformations and growth modules have no unit. The weight of a linear deformation is a square of a length, the
regularisation `nu` of a growth module the inverse of one, and the weights of the divergence and of the strain are
lengths. The two functions of a constrained translation are conjugated by the change of unit. -/
def DefModule.dilate (s : ℝ) : DefModule d → DefModule d
  | .translations m => .translations ⟨m.r, fun i c => s * m.gd i c, fun i c => s * m.cot i c, s * m.σ, fun i c => s * m.ctrl i c⟩
  | .implicit0 m => .implicit0 ⟨m.r, fun i c => s * m.gd i c, fun i c => s * m.cot i c, s * m.σ, m.ν, m.coeff, fun i c => s * m.ctrl i c⟩
  | .oriented m => .oriented ⟨m.t, fun i c => s * m.gd i c, m.dir, fun i c => s * m.cot i c, fun i c => s ^ 2 * m.cdir i c, s * m.σ,
      m.coeff, fun i => s * m.ctrl i⟩
  | .constrained m => .constrained ⟨fun i c => s * m.gd i c, fun i c => s * m.cot i c, s * m.σ, m.coeff,
      fun g i c => s * m.fsupp (fun i c => s⁻¹ * g i c) i c, fun g => m.fvec fun i c => s⁻¹ * g i c, s * m.ctrl⟩
  | .globalTranslation m => .globalTranslation ⟨m.coeff, fun c => s * m.ctrl c⟩
  | .linear m => .linear ⟨m.A, fun c => s * m.gd c, fun c => s * m.cot c, s ^ 2 * m.coeff, m.ctrl⟩
  | .implicit1 m => .implicit1 ⟨m.r, fun i c => s * m.gd i c, m.R, fun i c => s * m.cot i c, fun i b c => s ^ 2 * m.cR i b c, m.C,
      s * m.σ, m.ν / s ^ 2, m.coeff, m.ctrl,
      m.cache.map fun k => ⟨k.aqh, fun q => s ^ 2 * k.lambdas q, fun i b c => s ^ 2 * k.moments i b c⟩⟩
  | .divFree m => .divFree ⟨fun i c => s * m.gd i c, fun i c => s * m.cot i c, s * m.σ, s * m.coeffDiv, m.ν, m.coeff,
      fun i c => s * m.ctrl i c, m.lambdas.map fun l q => s * l q⟩
  | .arap m => .arap ⟨fun i c => s * m.gd i c, fun i c => s * m.cot i c, s * m.σ, s * m.coeffArap, m.ν, m.coeff,
      fun i c => s * m.ctrl i c, m.lambdas.map fun l q => s * l q⟩
  | .silent man => .silent (man.dilate s)
  | .compound ms => .compound (DefModule.dilateAll s ms)
def DefModule.dilateAll (s : ℝ) : List (DefModule d) → List (DefModule d)
  | [] => []
  | m :: ms => m.dilate s :: DefModule.dilateAll s ms
end

mutual
/-- Controls for the module in the new unit. -/
def DefModule.dilateCtrl (s : ℝ) : DefModule d → Ctrl d → Ctrl d
  | .translations _, .vecs h => .vecs fun i c => s * h i c
  | .implicit0 _, .vecs h => .vecs fun i c => s * h i c
  | .oriented _, .scalars h => .scalars fun i => s * h i
  | .constrained _, .scalar h => .scalar (s * h)
  | .globalTranslation _, .vec h => .vec fun c => s * h c
  | .divFree _, .vecs h => .vecs fun i c => s * h i c
  | .arap _, .vecs h => .vecs fun i c => s * h i c
  | .compound ms, .list hs => .list (DefModule.dilateCtrls s ms hs)
  | _, h => h
def DefModule.dilateCtrls (s : ℝ) : List (DefModule d) → List (Ctrl d) → List (Ctrl d)
  | m :: ms, h :: hs => m.dilateCtrl s h :: DefModule.dilateCtrls s ms hs
  | _, hs => hs
end

/-- What a shooting leaves, in the new unit. -/
def Shot.dilate (s : ℝ) (m : DefModule d) (r : Shot d) : Shot d :=
  ⟨r.module.dilate s, r.costs.map (s ^ 2 * ·), r.states.map (Mfd.dilate s), r.ctrls.map (m.dilateCtrl s)⟩

end
end Imodal
