import Verif.Spec.Shooting
/-! Multiplying momenta and controls by a number. -/
set_option autoImplicit false
namespace Imodal
noncomputable section
variable {d : Nat}

mutual
/-- The momenta multiplied by `a`; descriptors stay. -/
def Mfd.scale (a : ℝ) : Mfd d → Mfd d
  | .landmarks gd cot => .landmarks gd (fun i c => a * cot i c)
  | .direction t gd dir cot cdir => .direction t gd dir (fun i c => a * cot i c) (fun i c => a * cdir i c)
  | .frame gd R cot cR => .frame gd R (fun i c => a * cot i c) (fun i b c => a * cR i b c)
  | .empty => .empty
  | .compound ms => .compound (Mfd.scaleAll a ms)
def Mfd.scaleAll (a : ℝ) : List (Mfd d) → List (Mfd d)
  | [] => []
  | m :: ms => m.scale a :: Mfd.scaleAll a ms
end

mutual
/-- The controls multiplied by `a`. -/
def Ctrl.scale (a : ℝ) : Ctrl d → Ctrl d
  | .vecs h => .vecs fun i c => a * h i c
  | .scalars h => .scalars fun i => a * h i
  | .scalar h => .scalar (a * h)
  | .vec h => .vec fun c => a * h c
  | .none => .none
  | .list hs => .list (Ctrl.scaleAll a hs)
def Ctrl.scaleAll (a : ℝ) : List (Ctrl d) → List (Ctrl d)
  | [] => []
  | h :: hs => h.scale a :: Ctrl.scaleAll a hs
end

mutual
/-- The module with momenta, controls and what is cached of the controls multiplied by `a`. -/
def DefModule.scale (a : ℝ) : DefModule d → DefModule d
  | .translations m => .translations { m with cot := fun i c => a * m.cot i c, ctrl := fun i c => a * m.ctrl i c }
  | .implicit0 m => .implicit0 { m with cot := fun i c => a * m.cot i c, ctrl := fun i c => a * m.ctrl i c }
  | .oriented m => .oriented { m with
      cot := fun i c => a * m.cot i c, cdir := fun i c => a * m.cdir i c, ctrl := fun i => a * m.ctrl i }
  | .constrained m => .constrained { m with cot := fun i c => a * m.cot i c, ctrl := a * m.ctrl }
  | .globalTranslation m => .globalTranslation { m with ctrl := fun c => a * m.ctrl c }
  | .linear m => .linear { m with cot := fun c => a * m.cot c, ctrl := a * m.ctrl }
  | .implicit1 m => .implicit1 { m with
      cot := fun i c => a * m.cot i c, cR := fun i b c => a * m.cR i b c, ctrl := fun i => a * m.ctrl i
      cache := m.cache.map fun k => ⟨fun q => a * k.aqh q, fun q => a * k.lambdas q, fun i b c => a * k.moments i b c⟩ }
  | .divFree m => .divFree { m with
      cot := fun i c => a * m.cot i c, ctrl := fun i c => a * m.ctrl i c, lambdas := m.lambdas.map fun l q => a * l q }
  | .arap m => .arap { m with
      cot := fun i c => a * m.cot i c, ctrl := fun i c => a * m.ctrl i c, lambdas := m.lambdas.map fun l q => a * l q }
  | .silent man => .silent (man.scale a)
  | .compound ms => .compound (DefModule.scaleAll a ms)
def DefModule.scaleAll (a : ℝ) : List (DefModule d) → List (DefModule d)
  | [] => []
  | m :: ms => m.scale a :: DefModule.scaleAll a ms
end

/-- What a shooting leaves, with momenta and controls multiplied by `a` and costs by `a ^ 2`. -/
def Shot.scale (a : ℝ) (r : Shot d) : Shot d :=
  ⟨r.module.scale a, r.costs.map (a ^ 2 * ·), r.states.map (Mfd.scale a), r.ctrls.map (Ctrl.scale a)⟩

end
end Imodal
