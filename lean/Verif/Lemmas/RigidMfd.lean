import Verif.Lemmas.RigidField
/-!
# Rigid motions of manifolds: actions, pairings and dual fields
-/
set_option autoImplicit false
namespace Imodal
noncomputable section
open Matrix
variable {d : Nat}

theorem dotFlat_vec (g : Rigid d) {n : Nat} (a b : Fin n → Vec d) : dotFlat (fun i => g.vec (a i)) (fun i => g.vec (b i)) = dotFlat a b := by
  unfold dotFlat
  exact Finset.sum_congr rfl fun i _ => g.vec_dot' _ _

mutual
/-- Velocities turn. -/
def Tan.move (g : Rigid d) : Tan d → Tan d
  | .landmarks v => .landmarks fun i => g.vec (v i)
  | .direction v w => .direction (fun i => g.vec (v i)) fun i => g.vec (w i)
  | .frame v W => .frame (fun i => g.vec (v i)) fun i => g.Q * W i
  | .empty => .empty
  | .compound ts => .compound (Tan.moveAll g ts)
def Tan.moveAll (g : Rigid d) : List (Tan d) → List (Tan d)
  | [] => []
  | t :: ts => t.move g :: Tan.moveAll g ts
end

theorem actLandmarks_move (g : Rigid d) {n : Nat} (gd : Fin n → Vec d) (f : FieldExpr d) :
    actLandmarks (fun i => g.point (gd i)) (f.move g) = (actLandmarks gd f).map fun v i => g.vec (v i) := values_move g f gd

theorem actDirection_move (g : Rigid d) (t : Transport) {n : Nat} (gd dir : Fin n → Vec d) (f : FieldExpr d) :
    actDirection t (fun i => g.point (gd i)) (fun i => g.vec (dir i)) (f.move g)
      = (actDirection t gd dir f).map fun vw => (fun i => g.vec (vw.1 i), fun i => g.vec (vw.2 i)) := by
  unfold actDirection
  rw [values_move, jacobians_move]
  cases f.values gd with
  | error e => rfl
  | ok v =>
    cases f.jacobians gd with
    | error e => rfl
    | ok J =>
      cases t with
      | vector =>
        dsimp only [Except.map]
        refine congrArg Except.ok (Prod.ext rfl (funext fun i => ?_))
        exact g.mat_mulVec (J i) (dir i)
      | orthogonal =>
        dsimp only [Except.map]
        refine congrArg Except.ok (Prod.ext rfl (funext fun i => ?_))
        have h : ∀ (M : Mat d) (v : Vec d), (fun b => -∑ c, M c b * v c) = -(Mᵀ *ᵥ v) := fun M v => rfl
        dsimp only
        rw [h, h, g.vec_neg, g.mat_transpose, g.mat_mulVec]

theorem actFrame_move (g : Rigid d) {n : Nat} (gd : Fin n → Vec d) (R : Fin n → Mat d) (f : FieldExpr d) :
    actFrame (fun i => g.point (gd i)) (fun i => g.Q * R i) (f.move g)
      = (actFrame gd R f).map fun vw => (fun i => g.vec (vw.1 i), fun i => g.Q * vw.2 i) := by
  unfold actFrame
  rw [values_move, jacobians_move]
  cases f.values gd with
  | error e => rfl
  | ok v =>
    cases f.jacobians gd with
    | error e => rfl
    | ok J =>
      dsimp only [Except.map]
      refine congrArg Except.ok (Prod.ext rfl (funext fun i => ?_))
      dsimp only
      have h : ∀ (M R : Mat d), (fun b k => ∑ c, (0.5 * (M b c - M c b)) * R c k) = ((0.5 : ℝ) • (M - Mᵀ)) * R := fun M R => by
        funext b k
        simp only [Matrix.mul_apply, Matrix.smul_apply, Matrix.sub_apply, Matrix.transpose_apply, smul_eq_mul]
      rw [h, h, g.mat_transpose, ← g.mat_sub, ← g.mat_smul]
      unfold Rigid.mat
      calc g.Q * ((0.5 : ℝ) • (J i - (J i)ᵀ)) * g.Qᵀ * (g.Q * R i)
          = g.Q * ((0.5 : ℝ) • (J i - (J i)ᵀ)) * (g.Qᵀ * g.Q) * R i := by simp only [Matrix.mul_assoc]
        _ = _ := by rw [g.tmul, Matrix.mul_one, Matrix.mul_assoc]

mutual
theorem action_move (g : Rigid d) (f : FieldExpr d) : (M : Mfd d) → (M.move g).action (f.move g) = (M.action f).map (Tan.move g)
  | .landmarks gd cot => by
    rw [Mfd.move, Mfd.action, Mfd.action, actLandmarks_move]
    cases actLandmarks gd f with
    | error e => rfl
    | ok v => simp only [Except.map, Tan.move]
  | .direction t gd dir cot cdir => by
    rw [Mfd.move, Mfd.action, Mfd.action, actDirection_move]
    cases actDirection t gd dir f with
    | error e => rfl
    | ok v => simp only [Except.map, Tan.move]
  | .frame gd R cot cR => by
    rw [Mfd.move, Mfd.action, Mfd.action, actFrame_move]
    cases actFrame gd R f with
    | error e => rfl
    | ok v => simp only [Except.map, Tan.move]
  | .empty => by rw [Mfd.move]; simp only [Mfd.action, Except.map, Tan.move]
  | .compound ms => by
    rw [Mfd.move, Mfd.action, Mfd.action, actionAll_move g f ms]
    cases Mfd.actionAll f ms with
    | error e => rfl
    | ok v => simp only [Except.map, Tan.move]
theorem actionAll_move (g : Rigid d) (f : FieldExpr d) : (ms : List (Mfd d)) →
    Mfd.actionAll (f.move g) (Mfd.moveAll g ms) = (Mfd.actionAll f ms).map (Tan.moveAll g)
  | [] => by rw [Mfd.moveAll, Mfd.actionAll, Mfd.actionAll]; simp only [Except.map, Tan.moveAll]
  | m :: ms => by
    rw [Mfd.moveAll, Mfd.actionAll, Mfd.actionAll, action_move g f m, actionAll_move g f ms]
    cases Mfd.action f m with
    | error e => rfl
    | ok v =>
      cases Mfd.actionAll f ms with
      | error e => rfl
      | ok vs => simp only [Except.map, Tan.moveAll]
end

mutual
theorem innerProd_move (g : Rigid d) (f : FieldExpr d) : (M : Mfd d) → (M.move g).innerProd (f.move g) = M.innerProd f
  | .landmarks gd cot => by
    rw [Mfd.move, Mfd.innerProd, Mfd.innerProd, actLandmarks_move]
    cases actLandmarks gd f with
    | error e => rfl
    | ok v => simp only [Except.map, dotFlat_vec]
  | .direction t gd dir cot cdir => by
    rw [Mfd.move, Mfd.innerProd, Mfd.innerProd, actDirection_move]
    cases actDirection t gd dir f with
    | error e => rfl
    | ok v => simp only [Except.map, dotFlat_vec]
  | .frame gd R cot cR => by
    rw [Mfd.move, Mfd.innerProd, Mfd.innerProd, actFrame_move]
    cases actFrame gd R f with
    | error e => rfl
    | ok v => simp only [Except.map, dotFlat_vec, g.left_frob]
  | .empty => by rw [Mfd.move, Mfd.innerProd, Mfd.innerProd]
  | .compound ms => by rw [Mfd.move, Mfd.innerProd, Mfd.innerProd, innerProdAll_move g f ms]
theorem innerProdAll_move (g : Rigid d) (f : FieldExpr d) : (ms : List (Mfd d)) →
    Mfd.innerProdAll (f.move g) (Mfd.moveAll g ms) = Mfd.innerProdAll f ms
  | [] => by rw [Mfd.moveAll, Mfd.innerProdAll, Mfd.innerProdAll]
  | m :: ms => by rw [Mfd.moveAll, Mfd.innerProdAll, Mfd.innerProdAll, innerProd_move g f m, innerProdAll_move g f ms]
end

mutual
theorem cotToVs_move (g : Rigid d) (σ : ℝ) (r : Reduction) : (M : Mfd d) → (M.move g).cotToVs σ r = (M.cotToVs σ r).map (FieldExpr.move g)
  | .landmarks gd cot => by rw [Mfd.move, Mfd.cotToVs, Mfd.cotToVs, Except.map, move_f0]
  | .direction .vector gd dir cot cdir => by
    rw [Mfd.move, Mfd.cotToVs, Mfd.cotToVs, ← mkSumField_move]
    simp only [List.map_cons, List.map_nil, move_f0, move_f0u]
  | .direction .orthogonal gd dir cot cdir => by
    rw [Mfd.move, Mfd.cotToVs, Mfd.cotToVs, ← mkSumField_move]
    simp only [List.map_cons, List.map_nil, move_f0, move_f0u]
    have : ∀ i, g.vec (fun c => -dir i c) = fun c => -g.vec (dir i) c := fun i => g.vec_neg (dir i)
    simp only [this]
  | .frame gd R cot cR => by
    rw [Mfd.move, Mfd.cotToVs, Mfd.cotToVs, ← mkSumField_move]
    have h : ∀ A B : Mat d, (fun b c => ∑ k, A b k * B c k : Mat d) = A * Bᵀ := fun A B => by
      funext b c; simp [Matrix.mul_apply]
    have e : (fun i => (fun b c => ∑ k, (g.Q * cR i) b k * (g.Q * R i) c k : Mat d)) = fun i => g.mat (fun b c => ∑ k, cR i b k * R i c k : Mat d) :=
      funext fun i => (h (g.Q * cR i) (g.Q * R i)).trans (by
        rw [h (cR i) (R i), Rigid.mat, Matrix.transpose_mul]
        simp only [Matrix.mul_assoc]
        rfl)
    refine congrArg mkSumField ?_
    rw [List.map_cons, List.map_cons, List.map_nil, move_f0]
    refine congrArg (fun x => [_, x]) ?_
    exact (congrArg (fun M => FieldExpr.fm r (fun i => g.point (gd i)) M σ) e).trans (move_fm g r gd (fun i => (fun b c => ∑ k, cR i b k * R i c k : Mat d)) σ).symm
  | .empty => by rw [Mfd.move, Mfd.cotToVs, Except.map, move_null]
  | .compound ms => by
    rw [Mfd.move, Mfd.cotToVs, Mfd.cotToVs, cotToVsAll_move g σ r ms]
    cases Mfd.cotToVsAll σ r ms with
    | error e => rfl
    | ok fs => exact mkSumField_move g fs
theorem cotToVsAll_move (g : Rigid d) (σ : ℝ) (r : Reduction) : (ms : List (Mfd d)) →
    Mfd.cotToVsAll σ r (Mfd.moveAll g ms) = (Mfd.cotToVsAll σ r ms).map (List.map (FieldExpr.move g))
  | [] => by rw [Mfd.moveAll, Mfd.cotToVsAll]; rfl
  | m :: ms => by
    rw [Mfd.moveAll, Mfd.cotToVsAll, Mfd.cotToVsAll, cotToVs_move g σ r m, cotToVsAll_move g σ r ms]
    cases Mfd.cotToVs σ r m with
    | error e => rfl
    | ok v =>
      cases Mfd.cotToVsAll σ r ms with
      | error e => rfl
      | ok vs => rfl
end

end
end Imodal
