import Verif.Lemmas.RigidModules
/-!
# Rigid motions of as-rigid-as-possible modules and of all modules
-/
set_option autoImplicit false
namespace Imodal
noncomputable section
open Matrix
variable {d : Nat} (g : Rigid d)

section
variable {N P : Nat}

/-- Moved as-rigid-as-possible module. -/
def Arap.move (m : Arap d N P) : Arap d N P := { m with
  gd := fun i => g.point (m.gd i), cot := fun i => g.vec (m.cot i), ctrl := fun i => g.vec (m.ctrl i)
  lambdas := m.lambdas.map fun l => Sum.elim (fun q => g.strain (fun t => l (.inl (q.1, t))) q.2) fun q => g.vec (fun c => l (.inr (q.1, c))) q.2 }

theorem Arap.T_mulVec (m : Arap d N P) (y : Fin P × Fin d → ℝ) (i : Fin N) :
    (fun t => (m.T *ᵥ y) (i, t)) = strainCoord (∑ j, (m.coeffArap * 0.5) •
      (Matrix.vecMulVec (g1 m.σ (relDiff (m.X i) (m.Y j))) (fun u => y (j, u)) + Matrix.vecMulVec (fun u => y (j, u)) (g1 m.σ (relDiff (m.X i) (m.Y j))))) := by
  funext t
  rw [strainCoord_sum, Finset.sum_apply]
  show ∑ q : Fin P × Fin d, m.T (i, t) q * y q = _
  rw [Fintype.sum_prod_type]
  refine Finset.sum_congr rfl fun j _ => ?_
  simp only [Arap.T, gaussRow1_eq]
  generalize g1 m.σ (relDiff (m.X i) (m.Y j)) = D
  have h1 : ∀ u, (m.coeffArap * ∑ k, ∑ l, 0.5 * (D k * eye u l + D l * eye u k) * etaOf d k l t) * y (j, u)
      = ∑ k, ∑ l, (m.coeffArap * 0.5) * (D k * (eye u l * y (j, u)) + (eye u k * y (j, u)) * D l) * etaOf d k l t := fun u => by
    rw [mul_assoc, Finset.sum_mul, Finset.mul_sum]
    refine Finset.sum_congr rfl fun k _ => ?_
    rw [Finset.sum_mul, Finset.mul_sum]
    exact Finset.sum_congr rfl fun l _ => by ring
  simp only [h1]
  unfold strainCoord
  rw [Finset.sum_comm]
  refine Finset.sum_congr rfl fun k _ => ?_
  rw [Finset.sum_comm]
  refine Finset.sum_congr rfl fun l _ => ?_
  have h2 : ∀ l, ∑ u, eye u l * y (j, u) = y (j, l) := fun l => by simp [eye]
  rw [← Finset.sum_mul, ← Finset.mul_sum, Finset.sum_add_distrib, ← Finset.mul_sum, ← Finset.sum_mul, h2, h2]
  rfl

theorem Arap.Tt_mulVec (m : Arap d N P) (l : Fin N × Fin (symDim d) → ℝ) (j : Fin P) :
    (fun u => (m.Tᵀ *ᵥ l) (j, u)) = ∑ i, m.coeffArap • ((strainMat fun t => l (i, t)) *ᵥ g1 m.σ (relDiff (m.X i) (m.Y j))) := by
  funext u
  rw [Finset.sum_apply]
  show ∑ q : Fin N × Fin (symDim d), m.T q (j, u) * l q = _
  rw [Fintype.sum_prod_type]
  refine Finset.sum_congr rfl fun i _ => ?_
  simp only [Arap.T, gaussRow1_eq]
  generalize g1 m.σ (relDiff (m.X i) (m.Y j)) = D
  have h0 : ∀ t, ∑ k, ∑ l', 0.5 * (D k * eye u l' + D l' * eye u k) * etaOf d k l' t = ∑ k, D k * etaOf d u k t := fun t => by
    have e1 : ∑ k, ∑ l', 0.5 * (D k * eye u l' + D l' * eye u k) * etaOf d k l' t
        = ∑ k, ∑ l', 0.5 * (D k * (eye u l' * etaOf d k l' t)) + ∑ k, ∑ l', 0.5 * (D l' * (eye u k * etaOf d k l' t)) := by
      simp only [← Finset.sum_add_distrib]
      exact Finset.sum_congr rfl fun k _ => Finset.sum_congr rfl fun l' _ => by ring
    have e2 : ∑ k, ∑ l', 0.5 * (D k * (eye u l' * etaOf d k l' t)) = ∑ k, 0.5 * (D k * etaOf d u k t) := by
      refine Finset.sum_congr rfl fun k _ => ?_
      rw [Finset.sum_eq_single u]
      · rw [show eye u u = (1 : ℝ) from if_pos rfl, etaOf_symm k u, one_mul]
      · intro b _ hb; simp [eye, hb.symm]
      · simp
    have e3 : ∑ k, ∑ l', 0.5 * (D l' * (eye u k * etaOf d k l' t)) = ∑ k, 0.5 * (D k * etaOf d u k t) := by
      rw [Finset.sum_comm]
      refine Finset.sum_congr rfl fun k _ => ?_
      rw [Finset.sum_eq_single u]
      · rw [show eye u u = (1 : ℝ) from if_pos rfl, one_mul]
      · intro b _ hb; simp [eye, hb.symm]
      · simp
    rw [e1, e2, e3, ← Finset.sum_add_distrib]
    exact Finset.sum_congr rfl fun k _ => by ring
  simp only [h0, Pi.smul_apply, smul_eq_mul, Matrix.mulVec, dotProduct, strainMat, Matrix.of_apply, Finset.sum_mul, Finset.mul_sum]
  rw [Finset.sum_comm]
  exact Finset.sum_congr rfl fun k _ => Finset.sum_congr rfl fun t _ => by ring

section
variable (hd : d = 2 ∨ d = 3) (m : Arap d N P)

theorem Arap.sks_conj (x : (Fin N × Fin (symDim d)) ⊕ Fin P × Fin d → ℝ) :
    (m.move g).SKS *ᵥ sumEquiv (g.strainEquiv hd N) (g.vecEquiv P) x = sumEquiv (g.strainEquiv hd N) (g.vecEquiv P) (m.SKS *ᵥ x) := by
  unfold Arap.SKS
  refine conj_smul_one _ (fromBlocks_conj ?_ ?_ ?_ ?_) m.ν x
  · intro x
    have h : ∀ m : Arap d N P, m.S1 = m.coeffArap ^ 2 • computeSks1 m.σ m.X := fun m => rfl
    rw [h, h, Matrix.smul_mulVec, Matrix.smul_mulVec, map_smul]
    exact congrArg (fun v => m.coeffArap ^ 2 • v) (Imodal.sks_conj g hd m.σ m.X x)
  · intro y
    funext q
    obtain ⟨i, t⟩ := q
    rw [g.strainEquiv_apply]
    dsimp only
    rw [m.T_mulVec, ← g.strainCoord_move hd, g.mat_sum]
    refine (congrFun ((m.move g).T_mulVec (g.vecEquiv P y) i) t).trans (congrFun (congrArg strainCoord (Finset.sum_congr rfl fun j _ => ?_)) t)
    rw [g.mat_smul, g.mat_add, g.mat_vecMulVec, g.mat_vecMulVec, ← g.g1_point]
    rfl
  · intro l
    funext q
    obtain ⟨j, u⟩ := q
    rw [g.vecEquiv_apply]
    dsimp only
    rw [m.Tt_mulVec, g.vec_sum]
    refine (congrFun ((m.move g).Tt_mulVec (g.strainEquiv hd N l) j) u).trans (congrFun (Finset.sum_congr rfl fun i _ => ?_) u)
    rw [g.vec_smul, ← g.mat_mulVec, ← g.g1_point, ← g.strainMat_strain hd]
    rfl
  · intro y
    have : (m.move g).S2 = m.S2 := by
      funext p q
      show kXX m.σ (fun j => g.point (m.Y j)) p.1 q.1 * eye p.2 q.2 = _
      rw [g.kXX_point]; rfl
    rw [this]
    exact kron_conj g (fun _ _ => rfl) y

include hd

theorem Arap.computeMoments_move : (m.move g).computeMoments = m.computeMoments.map (Arap.move g) := by
  unfold Arap.computeMoments
  rw [show (m.move g).ctrl = fun j => g.vec (m.ctrl j) from rfl, zeroThen_move g (g.strainEquiv hd N), linSolve_conj _ (m.sks_conj g hd)]
  cases linSolve m.SKS (zeroThen m.ctrl) <;> rfl

theorem Arap.fill_move (h : Fin P → Vec d) : (m.move g).fill (fun j => g.vec (h j)) = (m.fill h).map (Arap.move g) :=
  Arap.computeMoments_move g hd { m with ctrl := h }

theorem Arap.cost_move : (m.move g).cost = m.cost := by
  unfold Arap.cost Arap.move
  cases m.lambdas with
  | none => rfl
  | some l =>
    simp only [Option.map_some]
    rw [zeroThen_move g (g.strainEquiv hd N)]
    exact congrArg (fun s => Except.ok (0.5 * m.coeff * s))
      (sumEquiv_dot (U := g.strainEquiv hd N) (V := g.vecEquiv P) (g.strainEquiv_dot hd) g.vecEquiv_dot (zeroThen m.ctrl) l)

theorem Arap.field_move : (m.move g).field = m.field.map (FieldExpr.move g) := by
  unfold Arap.field Arap.move
  dsimp only
  cases m.lambdas with
  | none => rfl
  | some l =>
    dsimp only [Option.map_some]
    rw [← mkSumField_move]
    refine congrArg mkSumField ?_
    rw [List.map_cons, List.map_cons, List.map_nil, move_f0, move_fp]
    have h : ∀ l : Fin (symDim d) → ℝ, (Matrix.of fun b c => m.coeffArap * ∑ t, l t * etaOf d c b t) = m.coeffArap • strainMat l := fun l =>
      congrArg (fun M : Mat d => m.coeffArap • M) (strainMat_transpose l)
    refine congrArg (fun M => [_, FieldExpr.fp .torch _ M m.σ]) (funext fun i => ?_)
    refine (h _).trans ?_
    rw [h fun t => l (.inl (i, t)), g.mat_smul, ← g.strainMat_strain hd]
    rfl

theorem Arap.geodesic_move (man : Mfd d) : (m.move g).geodesic (man.move g) = (m.geodesic man).map (Arap.move g) := by
  unfold Arap.geodesic
  rw [show (m.move g).σ = m.σ from rfl, show (m.move g).coeff = m.coeff from rfl, show (m.move g).coeffArap = m.coeffArap from rfl, cotToVs_move]
  cases man.cotToVs m.σ .torch with
  | error e => rfl
  | ok vs =>
    dsimp only [Except.map]
    rw [show (m.move g).X = fun i => g.point (m.X i) from rfl, jacobians_move]
    cases vs.jacobians m.X with
    | error e => rfl
    | ok J =>
      dsimp only [Except.map]
      rw [show (m.move g).Y = fun i => g.point (m.Y i) from rfl, values_move]
      cases vs.values m.Y with
      | error e => rfl
      | ok V =>
        dsimp only [Except.map]
        have hb := fun x => block_conj (m.sks_conj g hd) x
        have ht : (strains fun i => m.coeffArap • g.mat (J i)) = g.strainEquiv hd N (strains fun i => m.coeffArap • J i) := by
          rw [← strains_move g hd]
          simp only [g.mat_smul]
        rw [ht, linSolve_conj (g.strainEquiv hd N) fun x => (hb x).1]
        cases linSolve m.SKS.toBlocks₁₁ (strains fun i => m.coeffArap • J i) with
        | error e => rfl
        | ok h =>
          dsimp only [Except.map]
          by_cases h0 : m.coeff = 0
          · rw [if_pos h0, if_pos h0]
          · rw [if_neg h0, if_neg h0, (hb h).2]
            have e : (fun j c => 1 / m.coeff * (-(g.vecEquiv P (m.SKS.toBlocks₂₁ *ᵥ h)) (j, c) + g.vec (V j) c))
                = fun j => g.vec fun c => 1 / m.coeff * (-(m.SKS.toBlocks₂₁ *ᵥ h) (j, c) + V j c) := by
              funext j
              refine Eq.trans ?_ (g.vec_smul (1 / m.coeff) (-(fun c => (m.SKS.toBlocks₂₁ *ᵥ h) (j, c)) + V j)).symm
              rw [g.vec_add, g.vec_neg]; rfl
            rw [e, m.fill_move g hd]
            cases m.fill _ with
            | error e => rfl
            | ok m' => exact m'.computeMoments_move g hd
end
end

/-! ## All modules -/

theorem wrap_map {α : Type} (f : α → DefModule d) (u : α → α) (v : DefModule d → DefModule d) (h : ∀ a, f (u a) = v (f a)) (a : Py α) :
    wrap f (a.map u) = (wrap f a).map v := by
  cases a with
  | error e => rfl
  | ok x => exact congrArg Except.ok (h x)

mutual
theorem manifold_move : (m : DefModule d) → (m.move g).manifold = m.manifold.move g
  | .translations m => by simp only [DefModule.move, DefModule.manifold, Translations.manifold, Mfd.move]
  | .implicit0 m => by simp only [DefModule.move, DefModule.manifold, Implicit0.manifold, Mfd.move]
  | .oriented m => by simp only [DefModule.move, DefModule.manifold, Oriented.manifold, Mfd.move]
  | .constrained m => by simp only [DefModule.move, DefModule.manifold, Constrained.manifold, Mfd.move]
  | .globalTranslation m => by simp only [DefModule.move, DefModule.manifold, GlobalTranslation.manifold, Mfd.move]
  | .linear m => by simp only [DefModule.move, DefModule.manifold, Linear.manifold, Mfd.move]
  | .implicit1 m => by simp only [DefModule.move, DefModule.manifold, Implicit1.manifold, Mfd.move]
  | .divFree m => by simp only [DefModule.move, DefModule.manifold, DivFree.manifold, Mfd.move]
  | .arap m => by simp only [DefModule.move, DefModule.manifold, Arap.manifold, Mfd.move]
  | .silent man => by simp only [DefModule.move, DefModule.manifold]
  | .compound ms => by simp only [DefModule.move, DefModule.manifold, Mfd.move, manifolds_move ms]
theorem manifolds_move : (ms : List (DefModule d)) → DefModule.manifolds (DefModule.moveAll g ms) = Mfd.moveAll g (DefModule.manifolds ms)
  | [] => by simp only [DefModule.moveAll, DefModule.manifolds, Mfd.moveAll]
  | m :: ms => by simp only [DefModule.moveAll, DefModule.manifolds, Mfd.moveAll, manifold_move m, manifolds_move ms]
end

mutual
theorem controls_move : (m : DefModule d) → (m.move g).controls = m.controls.move g
  | .translations m => by simp only [DefModule.move, DefModule.controls, Ctrl.move]
  | .implicit0 m => by simp only [DefModule.move, DefModule.controls, Ctrl.move]
  | .oriented m => by simp only [DefModule.move, DefModule.controls, Ctrl.move]
  | .constrained m => by simp only [DefModule.move, DefModule.controls, Ctrl.move]
  | .globalTranslation m => by simp only [DefModule.move, DefModule.controls, Ctrl.move]
  | .linear m => by simp only [DefModule.move, DefModule.controls, Ctrl.move]
  | .implicit1 m => by simp only [DefModule.move, DefModule.controls, Ctrl.move]
  | .divFree m => by simp only [DefModule.move, DefModule.controls, Ctrl.move]
  | .arap m => by simp only [DefModule.move, DefModule.controls, Ctrl.move]
  | .silent man => by simp only [DefModule.move, DefModule.controls, Ctrl.move]
  | .compound ms => by simp only [DefModule.move, DefModule.controls, Ctrl.move, controlsAll_move ms]
theorem controlsAll_move : (ms : List (DefModule d)) → DefModule.controlsAll (DefModule.moveAll g ms) = Ctrl.moveAll g (DefModule.controlsAll ms)
  | [] => by simp only [DefModule.moveAll, DefModule.controlsAll, Ctrl.moveAll]
  | m :: ms => by simp only [DefModule.moveAll, DefModule.controlsAll, Ctrl.moveAll, controls_move m, controlsAll_move ms]
end

mutual
theorem field_move : (m : DefModule d) → m.Movable g → (m.move g).field = m.field.map (FieldExpr.move g)
  | .translations m, _ => by
    simp only [DefModule.move, DefModule.field, Except.map, Translations.field, move_f0]
  | .implicit0 m, _ => by
    simp only [DefModule.move, DefModule.field, Except.map, Implicit0.field, move_f0]
  | .oriented m, _ => by
    simp only [DefModule.move, DefModule.field, Except.map, Oriented.field, move_f0]
    exact congrArg (fun v => Except.ok (FieldExpr.f0 .torch _ v m.σ)) (m.vectors_move g)
  | .constrained m, h => by
    rw [DefModule.Movable] at h
    simp only [DefModule.move, DefModule.field, Except.map]
    exact congrArg Except.ok (Constrained.field_move h.1 h.2)
  | .globalTranslation m, _ => by
    simp only [DefModule.move, DefModule.field, Except.map, GlobalTranslation.field, move_const]
  | .linear m, h => by
    rw [DefModule.Movable] at h
    simp only [DefModule.move, DefModule.field, Except.map]
    exact congrArg Except.ok (Linear.field_move g h)
  | .implicit1 m, _ => by simp only [DefModule.move, DefModule.field]; exact m.field_move g
  | .divFree m, _ => by simp only [DefModule.move, DefModule.field]; exact m.field_move g
  | .arap m, h => by
    rw [DefModule.Movable] at h
    simp only [DefModule.move, DefModule.field]; exact m.field_move g h
  | .silent man, _ => by simp only [DefModule.move, DefModule.field, Except.map, move_null]
  | .compound ms, h => by
    rw [DefModule.Movable] at h
    simp only [DefModule.move, DefModule.field]
    rw [fields_move ms h]
    cases DefModule.fields ms with
    | error e => rfl
    | ok fs => exact mkSumField_move g fs
theorem fields_move : (ms : List (DefModule d)) → DefModule.AllMovable g ms →
    DefModule.fields (DefModule.moveAll g ms) = (DefModule.fields ms).map (List.map (FieldExpr.move g))
  | [], _ => by simp only [DefModule.moveAll, DefModule.fields, Except.map, List.map_nil]
  | m :: ms, h => by
    rw [DefModule.AllMovable] at h
    simp only [DefModule.moveAll, DefModule.fields]
    rw [field_move m h.1, fields_move ms h.2]
    cases m.field with
    | error e => rfl
    | ok f => cases DefModule.fields ms <;> rfl
end

mutual
theorem cost_move : (m : DefModule d) → m.Movable g → (m.move g).cost = m.cost
  | .translations m, _ => by
    simp only [DefModule.move, DefModule.cost]; exact congrArg Except.ok (m.cost_move g)
  | .implicit0 m, _ => by
    simp only [DefModule.move, DefModule.cost]; exact congrArg Except.ok (m.cost_move g)
  | .oriented m, _ => by
    simp only [DefModule.move, DefModule.cost]; exact congrArg Except.ok (m.cost_move g)
  | .constrained m, h => by
    rw [DefModule.Movable] at h
    simp only [DefModule.move, DefModule.cost]; exact congrArg Except.ok (Constrained.cost_move h.1 h.2)
  | .globalTranslation m, _ => by
    simp only [DefModule.move, DefModule.cost]; exact congrArg Except.ok (m.cost_move g)
  | .linear m, _ => by simp only [DefModule.move, DefModule.cost, Linear.cost]
  | .implicit1 m, h => by
    rw [DefModule.Movable] at h
    simp only [DefModule.move, DefModule.cost]; exact m.cost_move g h
  | .divFree m, _ => by simp only [DefModule.move, DefModule.cost]; exact m.cost_move g
  | .arap m, h => by
    rw [DefModule.Movable] at h
    simp only [DefModule.move, DefModule.cost]; exact m.cost_move g h
  | .silent man, _ => by simp only [DefModule.move, DefModule.cost]
  | .compound ms, h => by
    rw [DefModule.Movable] at h
    simp only [DefModule.move, DefModule.cost]
    exact costs_move ms h
theorem costs_move : (ms : List (DefModule d)) → DefModule.AllMovable g ms → DefModule.costs (DefModule.moveAll g ms) = DefModule.costs ms
  | [], _ => by simp only [DefModule.moveAll]
  | m :: ms, h => by
    rw [DefModule.AllMovable] at h
    simp only [DefModule.moveAll, DefModule.costs]
    rw [cost_move m h.1, costs_move ms h.2]
end

mutual
theorem geodesic_move (man : Mfd d) : (m : DefModule d) → m.Movable g →
    DefModule.geodesic (man.move g) (m.move g) = (DefModule.geodesic man m).map (DefModule.move g)
  | .translations m, _ => by
    simp only [DefModule.move, DefModule.geodesic]
    exact (congrArg (wrap _) (m.geodesic_move g man)).trans (wrap_map _ _ _ (fun a => by rw [DefModule.move]; rfl) _)
  | .implicit0 m, _ => by
    simp only [DefModule.move, DefModule.geodesic]
    exact (congrArg (wrap _) (m.geodesic_move g man)).trans (wrap_map _ _ _ (fun a => by rw [DefModule.move]; rfl) _)
  | .oriented m, _ => by
    simp only [DefModule.move, DefModule.geodesic]
    exact (congrArg (wrap _) (m.geodesic_move g man)).trans (wrap_map _ _ _ (fun a => by rw [DefModule.move]; rfl) _)
  | .constrained m, h => by
    rw [DefModule.Movable] at h
    simp only [DefModule.move, DefModule.geodesic]
    exact (congrArg (wrap _) (Constrained.geodesic_move h.1 h.2 man)).trans (wrap_map _ _ _ (fun a => by rw [DefModule.move]; rfl) _)
  | .globalTranslation m, _ => by
    simp only [DefModule.move, DefModule.geodesic]
    exact (congrArg (wrap _) (m.geodesic_move g man)).trans (wrap_map _ _ _ (fun a => by rw [DefModule.move]; rfl) _)
  | .linear m, h => by
    rw [DefModule.Movable] at h
    simp only [DefModule.move, DefModule.geodesic]
    exact (congrArg (wrap _) (Linear.geodesic_move g h man)).trans (wrap_map _ _ _ (fun a => by rw [DefModule.move]; rfl) _)
  | .implicit1 m, h => by
    rw [DefModule.Movable] at h
    simp only [DefModule.move, DefModule.geodesic]
    exact (congrArg (wrap _) (m.geodesic_move g h man)).trans (wrap_map _ _ _ (fun a => by rw [DefModule.move]; rfl) _)
  | .divFree m, _ => by
    simp only [DefModule.move, DefModule.geodesic]
    exact (congrArg (wrap _) (m.geodesic_move g man)).trans (wrap_map _ _ _ (fun a => by rw [DefModule.move]; rfl) _)
  | .arap m, h => by
    rw [DefModule.Movable] at h
    simp only [DefModule.move, DefModule.geodesic]
    exact (congrArg (wrap _) (m.geodesic_move g h man)).trans (wrap_map _ _ _ (fun a => by rw [DefModule.move]; rfl) _)
  | .silent s, _ => by simp only [DefModule.move, DefModule.geodesic, Except.map]
  | .compound ms, h => by
    rw [DefModule.Movable] at h
    simp only [DefModule.move, DefModule.geodesic]
    rw [geodesics_move man ms h]
    cases DefModule.geodesics man ms with
    | error e => rfl
    | ok fs => simp only [Except.map, DefModule.move]
theorem geodesics_move (man : Mfd d) : (ms : List (DefModule d)) → DefModule.AllMovable g ms →
    DefModule.geodesics (man.move g) (DefModule.moveAll g ms) = (DefModule.geodesics man ms).map (DefModule.moveAll g)
  | [], _ => by simp only [DefModule.moveAll, DefModule.geodesics, Except.map]
  | m :: ms, h => by
    rw [DefModule.AllMovable] at h
    simp only [DefModule.moveAll, DefModule.geodesics]
    rw [geodesic_move man m h.1, geodesics_move man ms h.2]
    cases DefModule.geodesic man m with
    | error e => rfl
    | ok f =>
      cases DefModule.geodesics man ms with
      | error e => rfl
      | ok fs => simp only [Except.map, DefModule.moveAll]
end

theorem moveAll_length : (ms : List (DefModule d)) → (DefModule.moveAll g ms).length = ms.length
  | [] => by simp only [DefModule.moveAll]
  | m :: ms => by simp only [DefModule.moveAll, List.length_cons, moveAll_length ms]
theorem ctrlMoveAll_length : (hs : List (Ctrl d)) → (Ctrl.moveAll g hs).length = hs.length
  | [] => by simp only [Ctrl.moveAll]
  | h :: hs => by simp only [Ctrl.moveAll, List.length_cons, ctrlMoveAll_length hs]

mutual
theorem fillControls_move : (m : DefModule d) → (c : Ctrl d) → m.Movable g →
    (m.move g).fillControls (c.move g) = (m.fillControls c).map (DefModule.move g)
  | @DefModule.translations _ n m, c, _ => by
    cases c with
    | @vecs n' h =>
      simp only [DefModule.move, Ctrl.move, DefModule.fillControls]
      by_cases e : n' = n
      · rw [dif_pos e, dif_pos e]; simp only [Except.map, DefModule.move]
      · rw [dif_neg e, dif_neg e]; rfl
    | _ => simp only [DefModule.move, Ctrl.move, DefModule.fillControls, Except.map]
  | @DefModule.implicit0 _ n m, c, _ => by
    cases c with
    | @vecs n' h =>
      simp only [DefModule.move, Ctrl.move, DefModule.fillControls]
      by_cases e : n' = n
      · rw [dif_pos e, dif_pos e]; simp only [Except.map, DefModule.move]
      · rw [dif_neg e, dif_neg e]; rfl
    | _ => simp only [DefModule.move, Ctrl.move, DefModule.fillControls, Except.map]
  | @DefModule.oriented _ n m, c, _ => by
    cases c with
    | @scalars n' h =>
      simp only [DefModule.move, Ctrl.move, DefModule.fillControls]
      by_cases e : n' = n
      · rw [dif_pos e, dif_pos e]; simp only [Except.map, DefModule.move]
      · rw [dif_neg e, dif_neg e]; rfl
    | _ => simp only [DefModule.move, Ctrl.move, DefModule.fillControls, Except.map]
  | .constrained m, c, _ => by
    cases c <;> simp only [DefModule.move, Ctrl.move, DefModule.fillControls, Except.map]
  | .globalTranslation m, c, _ => by
    cases c <;> simp only [DefModule.move, Ctrl.move, DefModule.fillControls, Except.map]
  | .linear m, c, _ => by
    cases c <;> simp only [DefModule.move, Ctrl.move, DefModule.fillControls, Except.map]
  | @DefModule.implicit1 _ _ p m, c, hm => by
    rw [DefModule.Movable] at hm
    cases c with
    | @scalars p' h =>
      simp only [DefModule.move, Ctrl.move, DefModule.fillControls]
      by_cases e : p' = p
      · rw [dif_pos e, dif_pos e]
        exact (congrArg (wrap _) (m.fill_move g hm _)).trans (wrap_map _ _ _ (fun a => by rw [DefModule.move]; rfl) _)
      · rw [dif_neg e, dif_neg e]; rfl
    | _ => simp only [DefModule.move, Ctrl.move, DefModule.fillControls, Except.map]
  | @DefModule.divFree _ _ P m, c, _ => by
    cases c with
    | @vecs p' h =>
      simp only [DefModule.move, Ctrl.move, DefModule.fillControls]
      by_cases e : p' = P
      · rw [dif_pos e, dif_pos e]
        exact (congrArg (wrap _) (m.fill_move g fun i => h (e ▸ i))).trans (wrap_map _ _ _ (fun a => by rw [DefModule.move]; rfl) _)
      · rw [dif_neg e, dif_neg e]; rfl
    | _ => simp only [DefModule.move, Ctrl.move, DefModule.fillControls, Except.map]
  | @DefModule.arap _ _ P m, c, hm => by
    rw [DefModule.Movable] at hm
    cases c with
    | @vecs p' h =>
      simp only [DefModule.move, Ctrl.move, DefModule.fillControls]
      by_cases e : p' = P
      · rw [dif_pos e, dif_pos e]
        exact (congrArg (wrap _) (m.fill_move g hm fun i => h (e ▸ i))).trans (wrap_map _ _ _ (fun a => by rw [DefModule.move]; rfl) _)
      · rw [dif_neg e, dif_neg e]; rfl
    | _ => simp only [DefModule.move, Ctrl.move, DefModule.fillControls, Except.map]
  | .silent s, c, _ => by
    cases c <;> simp only [DefModule.move, Ctrl.move, DefModule.fillControls, Except.map]
  | .compound ms, c, hm => by
    rw [DefModule.Movable] at hm
    cases c with
    | list hs =>
      simp only [DefModule.move, Ctrl.move, DefModule.fillControls]
      rw [moveAll_length, ctrlMoveAll_length]
      by_cases e : hs.length = ms.length
      · rw [if_pos e, if_pos e, fillAll_move ms hs hm]
        cases DefModule.fillAll ms hs with
        | error e => rfl
        | ok ms' => simp only [Except.map, DefModule.move]
      · rw [if_neg e, if_neg e]; rfl
    | _ => simp only [DefModule.move, Ctrl.move, DefModule.fillControls, Except.map]
theorem fillAll_move : (ms : List (DefModule d)) → (hs : List (Ctrl d)) → DefModule.AllMovable g ms →
    DefModule.fillAll (DefModule.moveAll g ms) (Ctrl.moveAll g hs) = (DefModule.fillAll ms hs).map (DefModule.moveAll g)
  | [], [], _ => by simp only [DefModule.moveAll, Ctrl.moveAll, DefModule.fillAll, Except.map]
  | [], h :: hs, _ => by simp only [DefModule.moveAll, Ctrl.moveAll, DefModule.fillAll, Except.map]
  | m :: ms, [], _ => by simp only [DefModule.moveAll, Ctrl.moveAll, DefModule.fillAll, Except.map]
  | m :: ms, h :: hs, hm => by
    rw [DefModule.AllMovable] at hm
    simp only [DefModule.moveAll, Ctrl.moveAll, DefModule.fillAll]
    rw [fillControls_move m h hm.1, fillAll_move ms hs hm.2]
    cases m.fillControls h with
    | error e => rfl
    | ok f =>
      cases DefModule.fillAll ms hs with
      | error e => rfl
      | ok fs => simp only [Except.map, DefModule.moveAll]
end

end
end Imodal
