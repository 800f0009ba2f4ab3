import Verif.Spec.Backend
import Verif.Lemmas.SimMap
import Verif.Lemmas.ModQuad
import Verif.Lemmas.Sks
import Verif.Lemmas.Field
import Verif.Props.C12
/-!
# Modules built with different compute backends
-/
set_option autoImplicit false
namespace Imodal
noncomputable section
open Matrix
variable {d : Nat}

theorem PyRel.refl {α : Type} {Q : α → α → Prop} (h : ∀ a, Q a a) (x : Py α) : PyRel Q x x := by
  cases x
  · trivial
  · exact h _

theorem PyRel.ok {α β : Type} {Q : α → β → Prop} {a : α} {b : β} (h : Q a b) : PyRel Q (.ok a) (.ok b) := h

theorem PyRel.err {α β : Type} {Q : α → β → Prop} (e e' : PyErr) : PyRel (α := α) (β := β) Q (.error e) (.error e') := trivial

theorem PyRel.of_eq {α : Type} {Q : α → α → Prop} (h : ∀ a, Q a a) {x y : Py α} (e : x = y) : PyRel Q x y := e ▸ PyRel.refl h x

/-- Both raise or both return, case by case. -/
theorem PyRel.both {α β : Type} {Q : α → β → Prop} {x : Py α} {y : Py β} (h : PyRel Q x y) :
    (∃ a b, x = .ok a ∧ y = .ok b ∧ Q a b) ∨ ∃ e e', x = .error e ∧ y = .error e' := by
  cases x <;> cases y
  · exact Or.inr ⟨_, _, rfl, rfl⟩
  · exact h.elim
  · exact h.elim
  · exact Or.inl ⟨_, _, rfl, rfl, h⟩

theorem PyRel.eq {x y : Py ℝ} (h : PyRel Eq x y) : valD x = valD y := by
  rcases h.both with ⟨a, b, rfl, rfl, e⟩ | ⟨e, e', rfl, rfl⟩
  · rw [e]
  · rfl

/-! ## Fields -/

theorem FieldExpr.Alike.refl (f : FieldExpr d) : f.Alike f := ⟨rfl, rfl⟩
theorem FieldExpr.Alike.symm {f g : FieldExpr d} (h : f.Alike g) : g.Alike f := ⟨h.1.symm, h.2.symm⟩
theorem FieldExpr.Alike.trans {f g k : FieldExpr d} (h : f.Alike g) (h' : g.Alike k) : f.Alike k := ⟨h.1.trans h'.1, h.2.trans h'.2⟩

theorem alike_f0 {n : Nat} (r r' : Reduction) (supp mom : Fin n → Vec d) (σ : ℝ) : (FieldExpr.f0 r supp mom σ).Alike (.f0 r' supp mom σ) := by
  have h : (FieldExpr.f0 .keops supp mom σ).Alike (.f0 .torch supp mom σ) := by
    constructor <;> funext x <;> simp only [FieldExpr.eval]
    · exact field0Keops_zero supp mom σ x
    · exact field0Keops_one supp mom σ x
  cases r <;> cases r'
  · exact .refl _
  · exact h.symm
  · exact h
  · exact .refl _

theorem alike_fp {n : Nat} (r r' : Reduction) (supp : Fin n → Vec d) (M : Fin n → Mat d) (σ : ℝ) : (FieldExpr.fp r supp M σ).Alike (.fp r' supp M σ) := by
  have h : (FieldExpr.fp .keops supp M σ).Alike (.fp .torch supp M σ) := by
    constructor <;> funext x <;> simp only [FieldExpr.eval]
    · exact fieldPmKeops_zero supp _ σ x
    · exact fieldPmKeops_one supp _ σ x
  cases r <;> cases r'
  · exact .refl _
  · exact h.symm
  · exact h
  · exact .refl _

theorem alike_fm {n : Nat} (r r' : Reduction) (supp : Fin n → Vec d) (M : Fin n → Mat d) (σ : ℝ) : (FieldExpr.fm r supp M σ).Alike (.fm r' supp M σ) := by
  have h : (FieldExpr.fm .keops supp M σ).Alike (.fm .torch supp M σ) := by
    constructor <;> funext x <;> simp only [FieldExpr.eval]
    · exact fieldPmKeops_zero supp _ σ x
    · exact fieldPmKeops_one supp _ σ x
  cases r <;> cases r'
  · exact .refl _
  · exact h.symm
  · exact h
  · exact .refl _

theorem alike_f0u {n : Nat} (r r' : Reduction) (supp mom dir : Fin n → Vec d) (σ : ℝ) : (FieldExpr.f0u r supp mom dir σ).Alike (.f0u r' supp mom dir σ) := by
  constructor <;> funext x <;> simp only [FieldExpr.eval]

theorem evalSum_alike {k : Nat} {fs gs : List (FieldExpr d)} (h : List.Forall₂ (fun f g : FieldExpr d => f.eval k = g.eval k) fs gs) :
    FieldExpr.evalSum k fs = FieldExpr.evalSum k gs := by
  induction h with
  | nil => rfl
  | cons h _ ih => funext x; rw [FieldExpr.evalSum, FieldExpr.evalSum, h, ih]

theorem alike_sum {fs gs : List (FieldExpr d)} (h : List.Forall₂ FieldExpr.Alike fs gs) : (FieldExpr.sum fs).Alike (.sum gs) := by
  constructor <;> funext x <;> rw [FieldExpr.eval, FieldExpr.eval]
  · rw [evalSum_alike (h.imp fun _ _ h => h.1)]
  · rw [evalSum_alike (h.imp fun _ _ h => h.2)]

theorem alike_mkSum {fs gs : List (FieldExpr d)} (h : List.Forall₂ FieldExpr.Alike fs gs) : PyRel FieldExpr.Alike (mkSumField fs) (mkSumField gs) := by
  cases h with
  | nil => trivial
  | cons h h' => exact alike_sum (.cons h h')

theorem values_alike {f g : FieldExpr d} (h : f.Alike g) {n : Nat} (pts : Fin n → Vec d) : f.values pts = g.values pts := by
  unfold FieldExpr.values FieldExpr.batch; rw [h.1]
theorem jacobians_alike {f g : FieldExpr d} (h : f.Alike g) {n : Nat} (pts : Fin n → Vec d) : f.jacobians pts = g.jacobians pts := by
  unfold FieldExpr.jacobians FieldExpr.batch; rw [h.2]

theorem actDirection_alike {f g : FieldExpr d} (h : f.Alike g) (t : Transport) {n : Nat} (gd dir : Fin n → Vec d) :
    actDirection t gd dir f = actDirection t gd dir g := by
  unfold actDirection; rw [values_alike h, jacobians_alike h]
theorem actFrame_alike {f g : FieldExpr d} (h : f.Alike g) {n : Nat} (gd : Fin n → Vec d) (R : Fin n → Mat d) :
    actFrame gd R f = actFrame gd R g := by
  unfold actFrame; rw [values_alike h, jacobians_alike h]

mutual
theorem action_alike {f g : FieldExpr d} (h : f.Alike g) : (M : Mfd d) → M.action f = M.action g
  | .landmarks gd _ => by rw [Mfd.action, Mfd.action, actLandmarks, actLandmarks, values_alike h]
  | .direction t gd dir _ _ => by rw [Mfd.action, Mfd.action, actDirection_alike h]
  | .frame gd R _ _ => by rw [Mfd.action, Mfd.action, actFrame_alike h]
  | .empty => by rw [Mfd.action, Mfd.action]
  | .compound ms => by rw [Mfd.action, Mfd.action, actionAll_alike h ms]
theorem actionAll_alike {f g : FieldExpr d} (h : f.Alike g) : (ms : List (Mfd d)) → Mfd.actionAll f ms = Mfd.actionAll g ms
  | [] => by rw [Mfd.actionAll, Mfd.actionAll]
  | m :: ms => by rw [Mfd.actionAll, Mfd.actionAll, action_alike h m, actionAll_alike h ms]
end

mutual
theorem innerProd_alike {f g : FieldExpr d} (h : f.Alike g) : (M : Mfd d) → M.innerProd f = M.innerProd g
  | .landmarks gd _ => by rw [Mfd.innerProd, Mfd.innerProd, actLandmarks, actLandmarks, values_alike h]
  | .direction t gd dir _ _ => by rw [Mfd.innerProd, Mfd.innerProd, actDirection_alike h]
  | .frame gd R _ _ => by rw [Mfd.innerProd, Mfd.innerProd, actFrame_alike h]
  | .empty => by rw [Mfd.innerProd, Mfd.innerProd]
  | .compound ms => by rw [Mfd.innerProd, Mfd.innerProd, innerProdAll_alike h ms]
theorem innerProdAll_alike {f g : FieldExpr d} (h : f.Alike g) : (ms : List (Mfd d)) → Mfd.innerProdAll f ms = Mfd.innerProdAll g ms
  | [] => by rw [Mfd.innerProdAll, Mfd.innerProdAll]
  | m :: ms => by rw [Mfd.innerProdAll, Mfd.innerProdAll, innerProd_alike h m, innerProdAll_alike h ms]
end

mutual
theorem cotToVs_alike (σ : ℝ) (r r' : Reduction) : (M : Mfd d) → PyRel FieldExpr.Alike (M.cotToVs σ r) (M.cotToVs σ r')
  | .landmarks gd cot => by rw [Mfd.cotToVs, Mfd.cotToVs]; exact alike_f0 r r' gd cot σ
  | .direction .vector gd dir cot cdir => by
    rw [Mfd.cotToVs, Mfd.cotToVs]; exact alike_mkSum (.cons (alike_f0 ..) (.cons (alike_f0u ..) .nil))
  | .direction .orthogonal gd dir cot cdir => by
    rw [Mfd.cotToVs, Mfd.cotToVs]; exact alike_mkSum (.cons (alike_f0 ..) (.cons (alike_f0u ..) .nil))
  | .frame gd R cot cR => by
    rw [Mfd.cotToVs, Mfd.cotToVs]; exact alike_mkSum (.cons (alike_f0 ..) (.cons (alike_fm ..) .nil))
  | .empty => by rw [Mfd.cotToVs, Mfd.cotToVs]; exact FieldExpr.Alike.refl _
  | .compound ms => by
    rw [Mfd.cotToVs, Mfd.cotToVs]
    rcases (cotToVsAll_alike σ r r' ms).both with ⟨a, b, e, e', h⟩ | ⟨_, _, e, e'⟩
    · rw [e, e']; exact alike_mkSum h
    · rw [e, e']; trivial
theorem cotToVsAll_alike (σ : ℝ) (r r' : Reduction) : (ms : List (Mfd d)) →
    PyRel (List.Forall₂ FieldExpr.Alike) (Mfd.cotToVsAll σ r ms) (Mfd.cotToVsAll σ r' ms)
  | [] => by rw [Mfd.cotToVsAll, Mfd.cotToVsAll]; exact List.Forall₂.nil
  | m :: ms => by
    rw [Mfd.cotToVsAll, Mfd.cotToVsAll]
    rcases (cotToVs_alike σ r r' m).both with ⟨a, b, e, e', h⟩ | ⟨_, _, e, e'⟩
    · rw [e, e']
      dsimp only
      rcases (cotToVsAll_alike σ r r' ms).both with ⟨a, b, e, e', h'⟩ | ⟨_, _, e, e'⟩
      · rw [e, e']; exact List.Forall₂.cons h h'
      · rw [e, e']; trivial
    · rw [e, e']; trivial
end

/-! ## Modules against their torch version -/

theorem Translations.cost_torch {n : Nat} (m : Translations d n) : ({ m with r := .torch } : Translations d n).cost = m.cost := by
  cases hr : m.r with
  | torch => unfold Translations.cost; rw [hr]
  | keops =>
    unfold Translations.cost dotFlat kMul
    rw [hr]
    simp only [keopsGauss_eq, kXX_eq, Finset.mul_sum, Finset.sum_mul, Finset.sum_div]
    refine Finset.sum_congr rfl fun j _ => ?_
    rw [Finset.sum_comm]
    refine Finset.sum_congr rfl fun i _ => Finset.sum_congr rfl fun c _ => ?_
    rw [kXY_comm]; ring

theorem Implicit0.cost_torch {n : Nat} (m : Implicit0 d n) : ({ m with r := .torch } : Implicit0 d n).cost = m.cost := by
  cases hr : m.r with
  | torch => unfold Implicit0.cost; rw [hr]
  | keops =>
    unfold Implicit0.cost dotFlat kMul
    rw [hr]
    simp only [keopsGauss0_eq, kXX_eq, Finset.mul_sum, Finset.sum_mul, add_mul, Finset.sum_add_distrib, mul_add]
    congr 1
    · refine Finset.sum_congr rfl fun j _ => ?_
      rw [Finset.sum_comm]
      refine Finset.sum_congr rfl fun i _ => Finset.sum_congr rfl fun c _ => ?_
      rw [kXY_comm]
    · exact Finset.sum_congr rfl fun j _ => Finset.sum_congr rfl fun c _ => by ring

theorem solveCols_rel {n : Nat} (A : Matrix (Fin n) (Fin n) ℝ) (B : Fin n → Vec d) : PyRel Eq (keopsSolveCols A B) (linSolveCols A B) := by
  unfold keopsSolveCols linSolveCols
  split
  · trivial
  · exact rfl
theorem solve_rel {ι : Type} [Fintype ι] [DecidableEq ι] (A : Matrix ι ι ℝ) (b : ι → ℝ) : PyRel Eq (keopsSolve A b) (linSolve A b) := by
  unfold keopsSolve linSolve
  split
  · trivial
  · exact rfl

theorem keopsGauss_kXX {n : Nat} (σ : ℝ) (x : Fin n → Vec d) : (Matrix.of fun i j => keopsGauss σ (x i) (x j)) = Matrix.of (kXX σ x) := by
  funext i j; rw [Matrix.of_apply, Matrix.of_apply, keopsGauss_eq, kXX_eq]
theorem keopsGauss0_kXX {n : Nat} (σ : ℝ) (x : Fin n → Vec d) : (Matrix.of fun i j => keopsGauss0 σ (x i) (x j)) = Matrix.of (kXX σ x) := by
  funext i j; rw [Matrix.of_apply, Matrix.of_apply, keopsGauss0_eq, kXX_eq]

theorem Translations.geodesic_torch {n : Nat} (m : Translations d n) (man : Mfd d) :
    PyRel (fun a b => b = { a with r := .torch }) (m.geodesic man) (({ m with r := .torch } : Translations d n).geodesic man) := by
  obtain ⟨r, gd, cot, σ, ctrl⟩ := m
  cases r with
  | torch =>
    cases h : (⟨.torch, gd, cot, σ, ctrl⟩ : Translations d n).geodesic man with
    | error _ => trivial
    | ok m' =>
      have hr : m'.r = .torch := by
        unfold Translations.geodesic at h
        repeat' split at h
        all_goals first | cases h; rfl | cases h
      obtain ⟨r, gd, cot, σ, ctrl⟩ := m'
      cases hr
      exact rfl
  | keops =>
    unfold Translations.geodesic
    dsimp only
    rcases (cotToVs_alike σ .keops .torch man).both with ⟨f, g, e, e', h⟩ | ⟨_, _, e, e'⟩
    · rw [e, e']; dsimp only
      rw [values_alike h]
      cases hv : g.values gd with
      | error _ => trivial
      | ok V =>
        dsimp only
        rw [keopsGauss_kXX]
        rcases (solveCols_rel (Matrix.of (kXX σ gd)) V).both with ⟨a, b, e, e', rfl⟩ | ⟨_, _, e, e'⟩
        · rw [e, e']; exact rfl
        · rw [e, e']; trivial
    · rw [e, e']; trivial

theorem Implicit0.geodesic_torch {n : Nat} (m : Implicit0 d n) (man : Mfd d) :
    PyRel (fun a b => b = { a with r := .torch }) (m.geodesic man) (({ m with r := .torch } : Implicit0 d n).geodesic man) := by
  obtain ⟨r, gd, cot, σ, ν, coeff, ctrl⟩ := m
  cases r with
  | torch =>
    cases h : (⟨.torch, gd, cot, σ, ν, coeff, ctrl⟩ : Implicit0 d n).geodesic man with
    | error _ => trivial
    | ok m' =>
      have hr : m'.r = .torch := by
        unfold Implicit0.geodesic at h
        repeat' split at h
        all_goals first | cases h; rfl | cases h
      obtain ⟨r, gd, cot, σ, ν, coeff, ctrl⟩ := m'
      cases hr
      exact rfl
  | keops =>
    unfold Implicit0.geodesic
    dsimp only
    rcases (cotToVs_alike σ .keops .torch man).both with ⟨f, g, e, e', h⟩ | ⟨_, _, e, e'⟩
    · rw [e, e']; dsimp only
      rw [values_alike h]
      cases hv : g.values gd with
      | error _ => trivial
      | ok V =>
        dsimp only
        rw [keopsGauss0_kXX]
        rcases (solveCols_rel (Matrix.of (kXX σ gd) + ν • (1 : Matrix (Fin n) (Fin n) ℝ)) V).both with ⟨a, b, e, e', rfl⟩ | ⟨_, _, e, e'⟩
        · rw [e, e']
          dsimp only
          cases tdiv 1 coeff with
          | error _ => trivial
          | ok _ => exact rfl
        · rw [e, e']; trivial
    · rw [e, e']; trivial

/-- The torch version of an implicit module of order 1. -/
abbrev Implicit1.toTorch {n p : Nat} (m : Implicit1 d n p) : Implicit1 d n p := { m with r := .torch }

theorem Implicit1.sks_torch {n p : Nat} (m : Implicit1 d n p) : m.toTorch.sks = m.sks := by
  unfold Implicit1.sks
  cases hr : m.r with
  | torch => rfl
  | keops => dsimp only; rw [computeSks1Keops_eq]

theorem Implicit1.solve_torch {n p : Nat} (m : Implicit1 d n p) (b : Fin n × Fin (symDim d) → ℝ) : PyRel Eq (m.solve b) (m.toTorch.solve b) := by
  have h : m.toTorch.solve b = linSolve m.sks b := by unfold Implicit1.solve; dsimp only; rw [m.sks_torch]
  rw [h]
  unfold Implicit1.solve
  cases hr : m.r with
  | torch => exact PyRel.refl (fun _ => rfl) _
  | keops => exact solve_rel _ _

theorem Implicit1.computeMoments_torch {n p : Nat} (m : Implicit1 d n p) :
    PyRel (fun a b => b = a.toTorch) m.computeMoments m.toTorch.computeMoments := by
  unfold Implicit1.computeMoments
  have ha : m.toTorch.aqh = m.aqh := rfl
  rw [ha]
  rcases (m.solve_torch (m.aqh m.ctrl)).both with ⟨a, b, e, e', rfl⟩ | ⟨_, _, e, e'⟩
  · rw [e, e']; exact rfl
  · rw [e, e']; trivial

theorem Implicit1.fill_torch {n p : Nat} (m : Implicit1 d n p) (h : Fin p → ℝ) :
    PyRel (fun a b => b = a.toTorch) (m.fill h) (m.toTorch.fill h) :=
  Implicit1.computeMoments_torch { m with ctrl := h }

theorem Implicit1.aqkiaq_torch {n p : Nat} (m : Implicit1 d n p) : PyRel Eq m.aqkiaq m.toTorch.aqkiaq := by
  unfold Implicit1.aqkiaq
  have ha : m.toTorch.aqCol = m.aqCol := rfl
  rw [ha]
  rcases (m.solve_torch 0).both with ⟨a, b, e, e', h⟩ | ⟨_, _, e, e'⟩
  · rw [e, e']
    dsimp only
    refine PyRel.ok (funext fun i => funext fun j => ?_)
    rcases (m.solve_torch (m.aqCol i)).both with ⟨a, b, e, e', rfl⟩ | ⟨_, _, e, e'⟩
    · rw [e, e']
    · rw [e, e']
  · rw [e, e']
    dsimp only
    split
    · exact rfl
    · trivial

theorem Implicit1.r_computeMoments {n p : Nat} {m m' : Implicit1 d n p} (h : m.computeMoments = .ok m') : m'.r = m.r ∧ m'.gd = m.gd := by
  unfold Implicit1.computeMoments at h
  split at h
  · cases h
  · cases h; exact ⟨rfl, rfl⟩

/-- Filling the moments twice does not change them. -/
theorem Implicit1.computeMoments_twice {n p : Nat} {m m' : Implicit1 d n p} (h : m.computeMoments = .ok m') : m'.computeMoments = .ok m' := by
  have h0 := h
  unfold Implicit1.computeMoments at h
  split at h
  · cases h
  · rename_i l hl
    cases h
    unfold Implicit1.computeMoments
    split
    · rename_i e he; cases hl.symm.trans he
    · rename_i l' hl'; obtain rfl : l' = l := Except.ok.inj (hl'.symm.trans hl); rfl

theorem Implicit1.geodesic_torch {n p : Nat} (m : Implicit1 d n p) (man : Mfd d) :
    PyRel (fun a b => b = a.toTorch) (m.geodesic man) (m.toTorch.geodesic man) := by
  unfold Implicit1.geodesic
  have ha : m.toTorch.aqCol = m.aqCol := rfl
  rw [ha]
  rcases (cotToVs_alike m.σ m.r .torch man).both with ⟨f, g, e, e', h⟩ | ⟨_, _, e, e'⟩
  · rw [e]; dsimp only; rw [e']; dsimp only
    rw [jacobians_alike h]
    cases hv : g.jacobians m.gd with
    | error _ => trivial
    | ok J =>
      dsimp only
      rcases (m.solve_torch (strains J)).both with ⟨a, b, e, e', rfl⟩ | ⟨_, _, e, e'⟩
      · rw [e, e']
        dsimp only
        cases tdiv 1 m.coeff with
        | error _ => trivial
        | ok _ =>
          dsimp only
          rcases m.aqkiaq_torch.both with ⟨Q, Q', e, e', rfl⟩ | ⟨_, _, e, e'⟩
          · rw [e, e']
            dsimp only
            cases linSolve Q (fun i => ∑ q, m.aqCol i q * (a q / m.coeff)) with
            | error _ => trivial
            | ok c =>
              dsimp only
              rcases (m.fill_torch c).both with ⟨m1, m2, e, e', rfl⟩ | ⟨_, _, e, e'⟩
              · rw [e, e']
                dsimp only
                have t1 := Implicit1.computeMoments_twice e
                have t2 := Implicit1.computeMoments_twice e'
                rw [t2]
                cases m.r with
                | torch => dsimp only; rw [t1]; exact rfl
                | keops => exact rfl
              · rw [e, e']; trivial
          · rw [e, e']; trivial
      · rw [e, e']; trivial
  · rw [e]; dsimp only; rw [e']; trivial

end
end Imodal
