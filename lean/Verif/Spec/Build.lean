import Verif.Model.Build
/-! Notions used in the statements about building modules. -/
set_option autoImplicit false
namespace Imodal
noncomputable section
variable {d : Nat}

mutual
/-- The names of transports are the two known ones. -/
def Recipe.Named : Recipe d → Prop
  | .oriented _ transport _ _ _ => transport = "vector" ∨ transport = "orthogonal"
  | .compound rs => Recipe.AllNamed rs
  | .translations .. => True
  | .implicit0 .. => True
  | .constrained .. => True
  | .globalTranslation .. => True
  | .linear .. => True
  | .implicit1 .. => True
  | .divFree .. => True
  | .arap .. => True
  | .silentLandmarks .. => True
def Recipe.AllNamed : List (Recipe d) → Prop
  | [] => True
  | r :: rs => r.Named ∧ Recipe.AllNamed rs
end

mutual
/-- The kinds of modules whose field is found by solving a linear system do not occur. -/
def Recipe.Explicit : Recipe d → Prop
  | .implicit1 .. => False
  | .divFree .. => False
  | .arap .. => False
  | .compound rs => Recipe.AllExplicit rs
  | .translations .. => True
  | .implicit0 .. => True
  | .oriented .. => True
  | .constrained .. => True
  | .globalTranslation .. => True
  | .linear .. => True
  | .silentLandmarks .. => True
def Recipe.AllExplicit : List (Recipe d) → Prop
  | [] => True
  | r :: rs => r.Explicit ∧ Recipe.AllExplicit rs
end

mutual
/-- The modules whose field is found by solving a linear system are regularised. -/
def DefModule.Regularised : DefModule d → Prop
  | .implicit1 m => 0 < m.ν
  | .divFree m => 0 < m.ν
  | .arap m => 0 < m.ν
  | .compound ms => DefModule.AllRegularised ms
  | .translations .. => True
  | .implicit0 .. => True
  | .oriented .. => True
  | .constrained .. => True
  | .globalTranslation .. => True
  | .linear .. => True
  | .silent .. => True
def DefModule.AllRegularised : List (DefModule d) → Prop
  | [] => True
  | m :: ms => m.Regularised ∧ DefModule.AllRegularised ms
end

/-- The values given by the user, and zeros where nothing is given. -/
def orZeros {n : Nat} (g : Option (Fin n → Vec d)) : Fin n → Vec d :=
  match g with
  | some x => x
  | none => fun _ _ => 0

mutual
/-- The points and momenta asked for; a global translation has none. -/
def Recipe.Asked : Recipe d → Mfd d → Prop
  | .translations _ _ gd cot, M => M = .landmarks (orZeros gd) (orZeros cot)
  | .implicit0 _ _ _ _ gd cot, M => M = .landmarks (orZeros gd) (orZeros cot)
  | .oriented _ transport _ gd cot, M => ∃ t : Transport, (transport = "vector" ↔ t = .vector) ∧
      M = .direction t (orZeros (gd.map (·.1))) (orZeros (gd.map (·.2))) (orZeros (cot.map (·.1))) (orZeros (cot.map (·.2)))
  | .constrained _ _ _ _ gd cot, M => M = .landmarks (orZeros gd) (orZeros cot)
  | .globalTranslation _, M => M = .empty
  | .linear _ _ gd cot, M => M = .landmarks (fun _ : Fin 1 => gd.getD fun _ => 0) (fun _ => cot.getD fun _ => 0)
  | .implicit1 _ _ _ _ _ gd cot, M => ∃ R cR, M = .frame (orZeros (gd.map (·.1))) R (orZeros (cot.map (·.1))) cR ∧
      (∀ g, gd = some g → R = g.2) ∧ (∀ g, cot = some g → cR = g.2)
  | .divFree _ _ _ _ gd cot, M => M = .landmarks (orZeros gd) (orZeros cot)
  | .arap _ _ _ _ gd cot, M => M = .landmarks (orZeros gd) (orZeros cot)
  | .silentLandmarks gd cot, M => M = .landmarks (orZeros gd) (orZeros cot)
  | .compound rs, M => ∃ Ms, M = .compound Ms ∧ Recipe.AllAsked rs Ms
def Recipe.AllAsked : List (Recipe d) → List (Mfd d) → Prop
  | [], Ms => Ms = []
  | r :: rs, Ms => ∃ M Ms', Ms = M :: Ms' ∧ r.Asked M ∧ Recipe.AllAsked rs Ms'
end

end
end Imodal
