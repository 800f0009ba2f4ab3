import Verif.Lemmas.RigidSolve
import Verif.Lemmas.ModQuad
/-!
# Rigid motions of modules: fields, costs and geodesic controls
-/
set_option autoImplicit false
namespace Imodal
noncomputable section
open Matrix
variable {d : Nat}

theorem Rigid.keopsGauss0_point (g : Rigid d) (σ : ℝ) (x y : Vec d) : keopsGauss0 σ (g.point x) (g.point y) = keopsGauss0 σ x y := by
  unfold keopsGauss0
  have h := g.vec_dot' (relDiff x y) (relDiff x y)
  rw [← g.relDiff_point] at h
  unfold relDiff at h
  have : ∑ c, (g.point x c - g.point y c) ^ 2 = ∑ c, (x c - y c) ^ 2 := by simpa only [sq] using h
  rw [this]

theorem kMul_vec (g : Rigid d) {n : Nat} (K : Fin n → Fin n → ℝ) (P : Fin n → Vec d) :
    kMul K (fun i => g.vec (P i)) = fun i => g.vec (kMul K P i) := by
  funext i
  have h : ∀ P : Fin n → Vec d, kMul K P i = ∑ j, K i j • P j := fun P => by
    funext c; simp [kMul, Finset.sum_apply]
  rw [h, h, g.vec_sum]
  exact Finset.sum_congr rfl fun j _ => (g.vec_smul _ _).symm

/-! ## Translations -/

section
variable {n : Nat} (g : Rigid d)

/-- Moved translations. -/
def Translations.move (m : Translations d n) : Translations d n :=
  { m with gd := fun i => g.point (m.gd i), cot := fun i => g.vec (m.cot i), ctrl := fun i => g.vec (m.ctrl i) }

theorem Translations.cost_move (m : Translations d n) : (m.move g).cost = m.cost := by
  unfold Translations.cost Translations.move
  cases m.r with
  | torch => dsimp only; rw [g.kXX_point, kMul_vec, dotFlat_vec]
  | keops =>
    dsimp only
    refine Finset.sum_congr rfl fun j _ => Finset.sum_congr rfl fun i _ => ?_
    rw [g.keopsGauss_point]
    simp only [mul_assoc, ← Finset.mul_sum, g.vec_dot']

theorem Translations.geodesic_move (m : Translations d n) (man : Mfd d) :
    (m.move g).geodesic (man.move g) = (m.geodesic man).map (Translations.move g) := by
  unfold Translations.geodesic
  rw [show (m.move g).σ = m.σ from rfl, show (m.move g).r = m.r from rfl, cotToVs_move]
  cases man.cotToVs m.σ m.r with
  | error e => rfl
  | ok vs =>
    dsimp only [Except.map]
    rw [show (m.move g).gd = fun i => g.point (m.gd i) from rfl, values_move]
    cases vs.values m.gd with
    | error e => rfl
    | ok V =>
      cases m.r with
      | torch =>
        dsimp only [Except.map]
        rw [g.kXX_point, linSolveCols_vec]
        cases linSolveCols (Matrix.of (kXX m.σ m.gd)) V <;> rfl
      | keops =>
        dsimp only [Except.map]
        simp only [g.keopsGauss_point]
        rw [keopsSolveCols_vec]
        cases keopsSolveCols (Matrix.of fun i j => keopsGauss m.σ (m.gd i) (m.gd j)) V <;> rfl

/-! ## Implicit modules of order 0 -/

/-- Moved implicit module of order 0. -/
def Implicit0.move (m : Implicit0 d n) : Implicit0 d n :=
  { m with gd := fun i => g.point (m.gd i), cot := fun i => g.vec (m.cot i), ctrl := fun i => g.vec (m.ctrl i) }

theorem Implicit0.cost_move (m : Implicit0 d n) : (m.move g).cost = m.cost := by
  unfold Implicit0.cost Implicit0.move
  cases m.r with
  | torch =>
    dsimp only
    rw [g.kXX_point, kMul_vec]
    have : (fun i c => g.vec (kMul (kXX m.σ m.gd) m.ctrl i) c + m.ν * g.vec (m.ctrl i) c)
        = fun i => g.vec (fun c => kMul (kXX m.σ m.gd) m.ctrl i c + m.ν * m.ctrl i c) := by
      funext i
      exact ((g.vec_add _ (m.ν • m.ctrl i)).trans (by rw [g.vec_smul]; rfl)).symm
    rw [this, dotFlat_vec]
  | keops =>
    dsimp only
    simp only [g.keopsGauss0_point]
    have h1 : ∀ i j, ∑ c, keopsGauss0 m.σ (m.gd i) (m.gd j) * g.vec (m.ctrl i) c * g.vec (m.ctrl j) c
        = ∑ c, keopsGauss0 m.σ (m.gd i) (m.gd j) * m.ctrl i c * m.ctrl j c := fun i j => by
      simp only [mul_assoc, ← Finset.mul_sum, g.vec_dot']
    have h2 : ∀ i, ∑ c, g.vec (m.ctrl i) c ^ 2 = ∑ c, m.ctrl i c ^ 2 := fun i => by
      simpa only [sq] using g.vec_dot' (m.ctrl i) (m.ctrl i)
    simp only [h1, h2]

theorem Implicit0.geodesic_move (m : Implicit0 d n) (man : Mfd d) :
    (m.move g).geodesic (man.move g) = (m.geodesic man).map (Implicit0.move g) := by
  unfold Implicit0.geodesic
  rw [show (m.move g).σ = m.σ from rfl, show (m.move g).r = m.r from rfl, show (m.move g).ν = m.ν from rfl,
    show (m.move g).coeff = m.coeff from rfl, cotToVs_move]
  have hc : ∀ c : Fin n → Vec d, (fun i b => g.vec (c i) b / m.coeff) = fun i => g.vec fun b => c i b / m.coeff := fun c => by
    funext i
    have e : ∀ v : Vec d, (fun b => v b / m.coeff) = m.coeff⁻¹ • v := fun v => by funext b; simp [div_eq_inv_mul]
    rw [e, e, g.vec_smul]
  cases man.cotToVs m.σ m.r with
  | error e => rfl
  | ok vs =>
    dsimp only [Except.map]
    rw [show (m.move g).gd = fun i => g.point (m.gd i) from rfl, values_move]
    cases vs.values m.gd with
    | error e => rfl
    | ok V =>
      cases m.r with
      | torch =>
        dsimp only [Except.map]
        rw [g.kXX_point, linSolveCols_vec]
        cases linSolveCols (Matrix.of (kXX m.σ m.gd) + m.ν • (1 : Matrix (Fin n) (Fin n) ℝ)) V with
        | error e => rfl
        | ok c =>
          dsimp only [Except.map]
          cases tdiv 1 m.coeff with
          | error e => rfl
          | ok a => dsimp only; rw [hc]; rfl
      | keops =>
        dsimp only [Except.map]
        simp only [g.keopsGauss0_point]
        rw [keopsSolveCols_vec]
        cases keopsSolveCols (Matrix.of (fun i j => keopsGauss0 m.σ (m.gd i) (m.gd j)) + m.ν • (1 : Matrix (Fin n) (Fin n) ℝ)) V with
        | error e => rfl
        | ok c =>
          dsimp only [Except.map]
          cases tdiv 1 m.coeff with
          | error e => rfl
          | ok a => dsimp only; rw [hc]; rfl

/-! ## Oriented translations -/

/-- Moved oriented translations. -/
def Oriented.move (m : Oriented d n) : Oriented d n :=
  { m with gd := fun i => g.point (m.gd i), dir := fun i => g.vec (m.dir i), cot := fun i => g.vec (m.cot i), cdir := fun i => g.vec (m.cdir i) }

theorem Oriented.vectors_move (m : Oriented d n) : (m.move g).vectors = fun i => g.vec (m.vectors i) := by
  funext i
  exact (g.vec_smul (m.ctrl i) (m.dir i)).symm

theorem Oriented.cost_move (m : Oriented d n) : (m.move g).cost = m.cost := by
  unfold Oriented.cost
  rw [Oriented.vectors_move, show (m.move g).gd = fun i => g.point (m.gd i) from rfl, g.kXX_point, kMul_vec, dotFlat_vec]; rfl

theorem Oriented.geodesic_move (m : Oriented d n) (man : Mfd d) :
    (m.move g).geodesic (man.move g) = (m.geodesic man).map (Oriented.move g) := by
  unfold Oriented.geodesic
  rw [show (m.move g).σ = m.σ from rfl, show (m.move g).coeff = m.coeff from rfl, cotToVs_move]
  cases man.cotToVs m.σ .torch with
  | error e => rfl
  | ok vs =>
    dsimp only [Except.map]
    rw [show (m.move g).gd = fun i => g.point (m.gd i) from rfl, values_move]
    cases vs.values m.gd with
    | error e => rfl
    | ok V =>
      dsimp only [Except.map]
      rw [g.kXX_point, show (m.move g).dir = fun i => g.vec (m.dir i) from rfl]
      simp only [g.vec_dot']
      cases linSolve (Matrix.of fun i j => kXX m.σ m.gd i j * ∑ c, m.dir i c * m.dir j c) (fun i => ∑ c, V i c * m.dir i c) with
      | error e => rfl
      | ok c =>
        dsimp only
        cases tdiv 1 m.coeff <;> rfl

/-! ## Constrained translations -/

/-- Moved constrained translations. -/
def Constrained.move {p : Nat} (m : Constrained d n p) : Constrained d n p :=
  { m with gd := fun i => g.point (m.gd i), cot := fun i => g.vec (m.cot i) }

section
variable {g} {p : Nat} {m : Constrained d n p} (hs : ∀ x, m.fsupp (fun i => g.point (x i)) = fun j => g.point (m.fsupp x j))
  (hv : ∀ x, m.fvec (fun i => g.point (x i)) = fun j => g.vec (m.fvec x j))
include hs hv

theorem Constrained.field_move : (m.move g).field = m.field.move g := by
  unfold Constrained.field
  rw [move_f0]
  show FieldExpr.f0 _ (m.fsupp fun i => g.point (m.gd i)) (fun i c => m.ctrl * m.fvec (fun i => g.point (m.gd i)) i c) m.σ = _
  rw [hs, hv]
  congr 1
  funext i
  exact (g.vec_smul m.ctrl (m.fvec m.gd i)).symm

theorem Constrained.energy_move : (m.move g).energy = m.energy := by
  unfold Constrained.energy
  show dotFlat (kMul (kXX m.σ (m.fsupp fun i => g.point (m.gd i))) (m.fvec fun i => g.point (m.gd i))) (m.fvec fun i => g.point (m.gd i)) = _
  rw [hs, hv, g.kXX_point, kMul_vec, dotFlat_vec]

theorem Constrained.cost_move : (m.move g).cost = m.cost := by
  unfold Constrained.cost
  rw [Constrained.energy_move hs hv]; rfl

theorem Constrained.geodesic_move (man : Mfd d) : (m.move g).geodesic (man.move g) = (m.geodesic man).map (Constrained.move g) := by
  unfold Constrained.geodesic
  rw [Constrained.energy_move hs hv]
  have e : FieldExpr.f0 .torch ((m.move g).fsupp (m.move g).gd) ((m.move g).fvec (m.move g).gd) (m.move g).σ
      = (FieldExpr.f0 .torch (m.fsupp m.gd) (m.fvec m.gd) m.σ).move g := by
    rw [move_f0]
    show FieldExpr.f0 _ (m.fsupp fun i => g.point (m.gd i)) (m.fvec fun i => g.point (m.gd i)) m.σ = _
    rw [hs, hv]
  rw [e, innerProd_move]
  cases man.innerProd (FieldExpr.f0 .torch (m.fsupp m.gd) (m.fvec m.gd) m.σ) with
  | error e => rfl
  | ok a =>
    dsimp only
    rw [show (m.move g).coeff = m.coeff from rfl]
    cases tdiv a (m.coeff * m.energy) <;> rfl
end

/-! ## Linear deformations -/

/-- Moved linear deformation. -/
def Linear.move (m : Linear d) : Linear d := { m with gd := g.point m.gd, cot := g.vec m.cot }

theorem Linear.field_move {m : Linear d} (h : g.mat m.A = m.A) : (m.move g).field = m.field.move g := by
  unfold Linear.field
  rw [move_affine, g.mat_smul, h, g.vec_zero]; rfl

theorem Linear.geodesic_move {m : Linear d} (h : g.mat m.A = m.A) (man : Mfd d) :
    (m.move g).geodesic (man.move g) = (m.geodesic man).map (Linear.move g) := by
  unfold Linear.geodesic
  have e : FieldExpr.affine (m.move g).A (m.move g).gd 0 = (FieldExpr.affine m.A m.gd 0).move g := by
    rw [move_affine, h, g.vec_zero]; rfl
  rw [e, innerProd_move]
  cases man.innerProd (FieldExpr.affine m.A m.gd 0) with
  | error e => rfl
  | ok a =>
    dsimp only
    rw [show (m.move g).coeff = m.coeff from rfl]
    cases tdiv a m.coeff <;> rfl

/-! ## Global translations -/

/-- Moved global translation. -/
def GlobalTranslation.move (m : GlobalTranslation d) : GlobalTranslation d := { m with ctrl := g.vec m.ctrl }

theorem GlobalTranslation.cost_move (m : GlobalTranslation d) : (m.move g).cost = m.cost := by
  unfold GlobalTranslation.cost
  show 0.5 * m.coeff * ∑ c, g.vec m.ctrl c * g.vec m.ctrl c = _
  rw [g.vec_dot']

/-- Pairing with a constant field. -/
def constPair (man : Mfd d) (v : Vec d) : ℝ := pair (momAtoms man) (fieldVal (.const v)) (fieldJac (.const v))

theorem innerProd_const (man : Mfd d) (v : Vec d) : man.innerProd (.const v) = .ok (constPair man v) := by
  obtain ⟨a, ha⟩ := innerProd_avail (avail_const 0 v) (avail_const 1 v) man
  rw [ha, innerProd_ok man ha]; rfl

theorem constPair_move (man : Mfd d) (v : Vec d) : constPair (man.move g) (g.vec v) = constPair man v := by
  have h := innerProd_move g (.const v) man
  rw [move_const, innerProd_const, innerProd_const] at h
  exact Except.ok.inj h

theorem constPair_basis_move (man : Mfd d) :
    (fun i => constPair (man.move g) fun c => if c = i then 1 else 0) = g.vec fun i => constPair man fun c => if c = i then 1 else 0 := by
  funext i
  have h := constPair_move g man (g.back.vec fun c => if c = i then 1 else 0)
  rw [g.vec_back] at h
  rw [h]
  refine (pair_const (momAtoms man) _).trans ?_
  show _ = ∑ j, g.Q i j * _
  refine Finset.sum_congr rfl fun j _ => ?_
  congr 1
  show ∑ c, g.Qᵀ j c * (if c = i then 1 else 0) = g.Q i j
  simp

theorem collect_eq {n : Nat} {f : Fin n → Py ℝ} {a : Fin n → ℝ} (h : ∀ i, f i = .ok (a i)) : collect f = .ok a := by
  induction n with
  | zero => rw [collect]; congr 1; funext i; exact i.elim0
  | succ n ih =>
    rw [collect, h 0]
    dsimp only
    rw [ih (a := fun i => a i.succ) fun i => h i.succ]
    dsimp only
    congr 1
    funext i
    refine Fin.cases rfl (fun j => rfl) i

theorem GlobalTranslation.geodesic_move (m : GlobalTranslation d) (man : Mfd d) :
    (m.move g).geodesic (man.move g) = (m.geodesic man).map (GlobalTranslation.move g) := by
  by_cases hc : m.coeff = 0
  · have e : ∀ man' : Mfd d, m.entry man' = fun _ => .error .unmodelled := fun man' => by
      funext i
      unfold GlobalTranslation.entry
      rw [innerProd_const]
      dsimp only
      unfold tdiv
      rw [if_pos hc]
    have e' : (m.move g).entry (man.move g) = fun _ => .error .unmodelled := e _
    unfold GlobalTranslation.geodesic
    rw [e', e]
    cases d with
    | zero =>
      rw [collect, Except.map]
      unfold GlobalTranslation.move
      refine congrArg Except.ok (congrArg (fun c => ({ coeff := m.coeff, ctrl := c } : GlobalTranslation 0)) ?_)
      funext i; exact i.elim0
    | succ d => rfl
  · have e : ∀ man' : Mfd d, collect (m.entry man') = .ok fun i => (constPair man' fun c => if c = i then 1 else 0) / m.coeff := fun man' => by
      refine collect_eq fun i => ?_
      unfold GlobalTranslation.entry
      rw [innerProd_const]
      dsimp only
      unfold tdiv
      rw [if_neg hc]
    have e' : collect ((m.move g).entry (man.move g)) = _ := e (man.move g)
    unfold GlobalTranslation.geodesic
    rw [e', e, Except.map]
    refine congrArg Except.ok (congrArg (fun c => ({ coeff := m.coeff, ctrl := c } : GlobalTranslation d)) ?_)
    have h := constPair_basis_move g man
    have e : ∀ v : Vec d, (fun b => v b / m.coeff) = m.coeff⁻¹ • v := fun v => by funext b; simp [div_eq_inv_mul]
    refine (e _).trans ?_
    rw [h, ← g.vec_smul]
    exact congrArg g.vec (e _).symm

/-! ## Implicit modules of order 1 -/

/-- Moved implicit module of order 1. -/
def Implicit1.move {p : Nat} (m : Implicit1 d n p) : Implicit1 d n p := { m with
  gd := fun i => g.point (m.gd i), R := fun i => g.Q * m.R i, cot := fun i => g.vec (m.cot i), cR := fun i => g.Q * m.cR i
  cache := m.cache.map fun k => ⟨fun q => g.strain (fun t => k.aqh (q.1, t)) q.2, fun q => g.strain (fun t => k.lambdas (q.1, t)) q.2,
    fun i => g.mat (k.moments i)⟩ }

theorem Implicit1.aqh_strain {p : Nat} (m : Implicit1 d n p) (h : Fin p → ℝ) (i : Fin n) :
    (fun t => m.aqh h (i, t)) = strainCoord (m.R i * Matrix.diagonal (fun a => ∑ k, m.C i a k * h k) * (m.R i)ᵀ) := by
  funext t
  unfold Implicit1.aqh strainCoord
  have hM : ∀ l v, (m.R i * Matrix.diagonal (fun a => ∑ k, m.C i a k * h k) * (m.R i)ᵀ) l v
      = ∑ a, m.R i l a * (∑ k, m.C i a k * h k) * m.R i v a := fun l v => by
    rw [Matrix.mul_apply]
    simp only [Matrix.mul_diagonal, Matrix.transpose_apply]
  have hu : ∀ l a k, ∑ u, ∑ v, m.R i l a * m.C i a k * h k * eye u a * m.R i v a * etaOf d l v t
      = ∑ v, m.R i l a * (m.C i a k * h k) * m.R i v a * etaOf d l v t := fun l a k => by
    rw [Finset.sum_eq_single a]
    · exact Finset.sum_congr rfl fun v _ => by rw [show eye a a = (1 : ℝ) from if_pos rfl]; ring
    · intro u _ hu; simp [eye, hu]
    · simp
  refine Finset.sum_congr rfl fun l _ => ?_
  dsimp only
  simp only [hM, hu, Finset.sum_mul, Finset.mul_sum]
  rw [Finset.sum_comm]
  refine (Finset.sum_congr rfl fun k _ => Finset.sum_comm).trans ?_
  rw [Finset.sum_comm]
  exact Finset.sum_congr rfl fun v _ => Finset.sum_comm

theorem strains_eq (J : Fin n → Mat d) (q : Fin n × Fin (symDim d)) : strains J q = strainCoord (J q.1) q.2 := by
  have h : strainCoord ((0.5 : ℝ) • (J q.1 + (J q.1)ᵀ)) q.2 = strainCoord (J q.1) q.2 := by
    rw [strainCoord_smul, strainCoord_add, strainCoord_transpose]
    simp only [Pi.smul_apply, Pi.add_apply, smul_eq_mul]
    ring
  rw [← h]
  rfl

section
variable (hd : d = 2 ∨ d = 3)

theorem strains_move (J : Fin n → Mat d) : strains (fun i => g.mat (J i)) = g.strainEquiv hd n (strains J) := by
  funext q
  rw [strains_eq, g.strainEquiv_apply]
  simp only [strains_eq]
  rw [g.strainCoord_move hd]

variable {p : Nat} (m : Implicit1 d n p)

theorem Implicit1.aqh_move (h : Fin p → ℝ) : (m.move g).aqh h = g.strainEquiv hd n (m.aqh h) := by
  funext q
  obtain ⟨i, t⟩ := q
  rw [g.strainEquiv_apply]
  dsimp only
  rw [m.aqh_strain, ← g.strainCoord_move hd]
  refine (congrFun ((m.move g).aqh_strain h i) t).trans (congrFun (congrArg strainCoord ?_) t)
  show (g.Q * m.R i) * Matrix.diagonal (fun a => ∑ k, m.C i a k * h k) * (g.Q * m.R i)ᵀ = _
  unfold Rigid.mat
  rw [Matrix.transpose_mul]
  simp only [Matrix.mul_assoc]

theorem Implicit1.sks_conj (x : Fin n × Fin (symDim d) → ℝ) : (m.move g).sks *ᵥ g.strainEquiv hd n x = g.strainEquiv hd n (m.sks *ᵥ x) := by
  unfold Implicit1.sks
  rw [show (m.move g).r = m.r from rfl, show (m.move g).ν = m.ν from rfl, show (m.move g).σ = m.σ from rfl,
    show (m.move g).gd = fun i => g.point (m.gd i) from rfl]
  cases m.r with
  | torch => exact conj_smul_one _ (Imodal.sks_conj g hd m.σ m.gd) m.ν x
  | keops =>
    dsimp only
    rw [computeSks1Keops_eq, computeSks1Keops_eq]
    exact conj_smul_one _ (Imodal.sks_conj g hd m.σ m.gd) m.ν x

theorem Implicit1.solve_move (b : Fin n × Fin (symDim d) → ℝ) :
    (m.move g).solve (g.strainEquiv hd n b) = (m.solve b).map (g.strainEquiv hd n) := by
  unfold Implicit1.solve
  rw [show (m.move g).r = m.r from rfl]
  cases m.r with
  | torch => exact linSolve_conj _ (m.sks_conj g hd) b
  | keops => exact keopsSolve_conj _ (m.sks_conj g hd) b

include hd

theorem Implicit1.computeMoments_move : (m.move g).computeMoments = m.computeMoments.map (Implicit1.move g) := by
  unfold Implicit1.computeMoments
  rw [show (m.move g).ctrl = m.ctrl from rfl, m.aqh_move g hd, m.solve_move g hd]
  cases m.solve (m.aqh m.ctrl) with
  | error e => rfl
  | ok l =>
    dsimp only [Except.map]
    have h : ∀ (l : Fin n × Fin (symDim d) → ℝ) (i : Fin n), (Matrix.of fun b c => ∑ t, l (i, t) * etaOf d c b t) = strainMat fun t => l (i, t) :=
      fun l i => strainMat_transpose (fun t => l (i, t))
    refine congrArg Except.ok ?_
    simp only [h]
    unfold Implicit1.move
    simp only [Option.map_some]
    congr 3
    funext i
    exact g.strainMat_strain hd fun t => l (i, t)

theorem Implicit1.fill_move (h : Fin p → ℝ) : (m.move g).fill h = (m.fill h).map (Implicit1.move g) :=
  Implicit1.computeMoments_move g hd { m with ctrl := h }

theorem Implicit1.aqkiaq_move : (m.move g).aqkiaq = m.aqkiaq := by
  unfold Implicit1.aqkiaq
  have h0 := m.solve_move g hd 0
  rw [map_zero] at h0
  have hc : ∀ i, (m.move g).aqCol i = g.strainEquiv hd n (m.aqCol i) := fun i => m.aqh_move g hd _
  rw [h0]
  cases m.solve 0 with
  | error e => rfl
  | ok z =>
    dsimp only [Except.map]
    refine congrArg Except.ok (funext fun i => funext fun j => ?_)
    rw [hc, m.solve_move g hd]
    cases m.solve (m.aqCol i) with
    | error e => rfl
    | ok l =>
      dsimp only [Except.map]
      rw [hc, g.strainEquiv_dot hd]

theorem Implicit1.geodesic_move (man : Mfd d) : (m.move g).geodesic (man.move g) = (m.geodesic man).map (Implicit1.move g) := by
  unfold Implicit1.geodesic
  rw [show (m.move g).σ = m.σ from rfl, show (m.move g).r = m.r from rfl, show (m.move g).coeff = m.coeff from rfl, cotToVs_move]
  cases man.cotToVs m.σ m.r with
  | error e => rfl
  | ok vs =>
    dsimp only [Except.map]
    rw [show (m.move g).gd = fun i => g.point (m.gd i) from rfl, jacobians_move]
    cases vs.jacobians m.gd with
    | error e => rfl
    | ok J =>
      dsimp only [Except.map]
      rw [strains_move g hd, m.solve_move g hd]
      cases m.solve (strains J) with
      | error e => rfl
      | ok tl =>
        dsimp only [Except.map]
        cases tdiv 1 m.coeff with
        | error e => rfl
        | ok _ =>
          dsimp only
          rw [m.aqkiaq_move g hd]
          cases m.aqkiaq with
          | error e => rfl
          | ok Q =>
            dsimp only
            have hb : (fun i => ∑ q, (m.move g).aqCol i q * (g.strainEquiv hd n tl q / m.coeff))
                = fun i => ∑ q, m.aqCol i q * (tl q / m.coeff) := by
              funext i
              have hc : (m.move g).aqCol i = g.strainEquiv hd n (m.aqCol i) := m.aqh_move g hd _
              simp only [hc, ← mul_div_assoc, ← Finset.sum_div]
              rw [g.strainEquiv_dot hd]
            rw [hb]
            cases linSolve Q (fun i => ∑ q, m.aqCol i q * (tl q / m.coeff)) with
            | error e => rfl
            | ok c =>
              dsimp only
              rw [m.fill_move g hd]
              cases m.fill c with
              | error e => rfl
              | ok m' =>
                cases m.r with
                | torch => exact m'.computeMoments_move g hd
                | keops => rfl

theorem Implicit1.cost_move : (m.move g).cost = m.cost := by
  unfold Implicit1.cost Implicit1.move
  cases m.cache with
  | none => rfl
  | some k =>
    simp only [Option.map_some]
    exact congrArg (fun s => Except.ok (0.5 * m.coeff * s)) (g.strainEquiv_dot hd k.aqh k.lambdas)

omit hd in
theorem Implicit1.field_move : (m.move g).field = m.field.map (FieldExpr.move g) := by
  unfold Implicit1.field Implicit1.move
  dsimp only
  cases m.cache with
  | none => rfl
  | some k =>
    dsimp only [Option.map_some, Except.map]
    rw [move_fp]
end
end

/-! ## Divergence-free and as-rigid-as-possible modules -/

section
variable (g : Rigid d)

theorem kron_conj {P : Nat} {K : Fin P → Fin P → ℝ} {M : Matrix (Fin P × Fin d) (Fin P × Fin d) ℝ}
    (hM : ∀ p q, M p q = K p.1 q.1 * eye p.2 q.2) (x : Fin P × Fin d → ℝ) :
    M *ᵥ g.vecEquiv P x = g.vecEquiv P (M *ᵥ x) := by
  have h : ∀ (y : Fin P × Fin d → ℝ) (j : Fin P), (fun c => (M *ᵥ y) (j, c)) = ∑ k, K j k • fun c => y (k, c) := by
    intro y j
    funext c
    rw [Finset.sum_apply]
    show ∑ q : Fin P × Fin d, M (j, c) q * y q = _
    rw [Fintype.sum_prod_type]
    refine Finset.sum_congr rfl fun k _ => ?_
    simp only [hM]
    rw [Finset.sum_eq_single c]
    · simp [eye]
    · intro e _ he; simp [eye, he.symm]
    · simp
  funext q
  obtain ⟨j, c⟩ := q
  refine (congrFun (h _ j) c).trans ?_
  rw [g.vecEquiv_apply (M *ᵥ x)]
  dsimp only
  rw [h, g.vec_sum]
  refine congrFun (Finset.sum_congr rfl fun k _ => ?_) c
  rw [g.vec_smul]; rfl

theorem zeroThen_move {κ : Type} [Fintype κ] [DecidableEq κ] (U : (κ → ℝ) ≃ₗ[ℝ] (κ → ℝ)) {P : Nat} (h : Fin P → Vec d) :
    (zeroThen (fun j => g.vec (h j)) : κ ⊕ Fin P × Fin d → ℝ) = sumEquiv U (g.vecEquiv P) (zeroThen h) := by
  rw [sumEquiv_apply]
  unfold zeroThen
  rw [Sum.elim_comp_inl, Sum.elim_comp_inr, show (fun _ => 0 : κ → ℝ) = 0 from rfl, map_zero]
  rfl

theorem sumEquiv_dot {κ ι : Type} [Fintype κ] [DecidableEq κ] [Fintype ι] [DecidableEq ι] {U : (κ → ℝ) ≃ₗ[ℝ] (κ → ℝ)} {V : (ι → ℝ) ≃ₗ[ℝ] (ι → ℝ)}
    (hU : ∀ a b, ∑ q, U a q * U b q = ∑ q, a q * b q) (hV : ∀ a b, ∑ q, V a q * V b q = ∑ q, a q * b q) (a b : κ ⊕ ι → ℝ) :
    ∑ q, sumEquiv U V a q * sumEquiv U V b q = ∑ q, a q * b q := by
  rw [Fintype.sum_sum_type, Fintype.sum_sum_type]
  simp only [sumEquiv_apply, Sum.elim_inl, Sum.elim_inr, hU, hV]
  rfl

variable {N P : Nat}

/-- Moved divergence-free module. -/
def DivFree.move (m : DivFree d N P) : DivFree d N P := { m with
  gd := fun i => g.point (m.gd i), cot := fun i => g.vec (m.cot i), ctrl := fun i => g.vec (m.ctrl i)
  lambdas := m.lambdas.map fun l => Sum.elim (fun i => l (.inl i)) fun q => g.vec (fun c => l (.inr (q.1, c))) q.2 }

theorem DivFree.sks_conj (m : DivFree d N P) (x : Fin N ⊕ Fin P × Fin d → ℝ) :
    (m.move g).SKS *ᵥ sumEquiv (LinearEquiv.refl ℝ _) (g.vecEquiv P) x = sumEquiv (LinearEquiv.refl ℝ _) (g.vecEquiv P) (m.SKS *ᵥ x) := by
  unfold DivFree.SKS
  refine conj_smul_one _ (fromBlocks_conj ?_ ?_ ?_ ?_) m.ν x
  · intro x
    have : (m.move g).S1 = m.S1 := by
      funext i j
      unfold DivFree.S1
      show m.coeffDiv ^ 2 * ∑ k, -g2 m.σ (relDiff (g.point (m.X i)) (g.point (m.X j))) k k = m.coeffDiv ^ 2 * ∑ k, -g2 m.σ (relDiff (m.X i) (m.X j)) k k
      have h := g.mat_trace (g2 m.σ (relDiff (m.X i) (m.X j)) : Mat d)
      rw [← g.g2_point] at h
      simp only [Finset.sum_neg_distrib]
      rw [show ∑ k, g2 m.σ (relDiff (g.point (m.X i)) (g.point (m.X j))) k k = ∑ k, g2 m.σ (relDiff (m.X i) (m.X j)) k k from h]
    rw [this]; rfl
  · intro y
    funext i
    show ∑ q, m.coeffDiv * g1 m.σ (relDiff (g.point (m.X i)) (g.point (m.Y q.1))) q.2 * g.vecEquiv P y q
      = ∑ q, m.coeffDiv * g1 m.σ (relDiff (m.X i) (m.Y q.1)) q.2 * y q
    rw [Fintype.sum_prod_type, Fintype.sum_prod_type]
    refine Finset.sum_congr rfl fun j _ => ?_
    simp only [g.g1_point, mul_assoc, ← Finset.mul_sum]
    exact congrArg (fun s => m.coeffDiv * s) (g.vec_dot' (g1 m.σ (relDiff (m.X i) (m.Y j))) fun c => y (j, c))
  · intro x
    funext q
    obtain ⟨j, c⟩ := q
    have h : ∀ (m : DivFree d N P), (fun c => (m.Tᵀ *ᵥ x) (j, c)) = ∑ i, (m.coeffDiv * x i) • g1 m.σ (relDiff (m.X i) (m.Y j)) := by
      intro m
      funext c
      rw [Finset.sum_apply]
      show ∑ i, m.coeffDiv * g1 m.σ (relDiff (m.X i) (m.Y j)) c * x i = _
      exact Finset.sum_congr rfl fun i _ => by simp only [Pi.smul_apply, smul_eq_mul]; ring
    refine (congrFun (h (m.move g)) c).trans ?_
    rw [g.vecEquiv_apply]
    dsimp only
    rw [h, g.vec_sum]
    refine congrFun (Finset.sum_congr rfl fun i _ => ?_) c
    rw [g.vec_smul, ← g.g1_point]; rfl
  · intro y
    have : (m.move g).S2 = m.S2 := by
      funext p q
      show kXX m.σ (fun j => g.point (m.Y j)) p.1 q.1 * eye p.2 q.2 = _
      rw [g.kXX_point]; rfl
    rw [this]
    exact kron_conj g (fun _ _ => rfl) y

theorem DivFree.computeMoments_move (m : DivFree d N P) : (m.move g).computeMoments = m.computeMoments.map (DivFree.move g) := by
  unfold DivFree.computeMoments
  rw [show (m.move g).ctrl = fun j => g.vec (m.ctrl j) from rfl, zeroThen_move g (LinearEquiv.refl ℝ _), linSolve_conj _ (m.sks_conj g)]
  cases linSolve m.SKS (zeroThen m.ctrl) <;> rfl

theorem DivFree.fill_move (m : DivFree d N P) (h : Fin P → Vec d) :
    (m.move g).fill (fun j => g.vec (h j)) = (m.fill h).map (DivFree.move g) :=
  DivFree.computeMoments_move g { m with ctrl := h }

theorem DivFree.cost_move (m : DivFree d N P) : (m.move g).cost = m.cost := by
  unfold DivFree.cost DivFree.move
  cases m.lambdas with
  | none => rfl
  | some l =>
    simp only [Option.map_some]
    rw [zeroThen_move g (LinearEquiv.refl ℝ _)]
    exact congrArg (fun s => Except.ok (0.5 * m.coeff * s))
      (sumEquiv_dot (U := LinearEquiv.refl ℝ _) (V := g.vecEquiv P) (fun _ _ => rfl) g.vecEquiv_dot (zeroThen m.ctrl) l)

theorem DivFree.field_move (m : DivFree d N P) : (m.move g).field = m.field.map (FieldExpr.move g) := by
  unfold DivFree.field DivFree.move
  dsimp only
  cases m.lambdas with
  | none => rfl
  | some l =>
    dsimp only [Option.map_some]
    rw [← mkSumField_move]
    refine congrArg mkSumField ?_
    rw [List.map_cons, List.map_cons, List.map_nil, move_f0, move_f1]
    rfl

theorem DivFree.geodesic_move (m : DivFree d N P) (man : Mfd d) : (m.move g).geodesic (man.move g) = (m.geodesic man).map (DivFree.move g) := by
  unfold DivFree.geodesic
  rw [show (m.move g).σ = m.σ from rfl, show (m.move g).coeff = m.coeff from rfl, show (m.move g).coeffDiv = m.coeffDiv from rfl, cotToVs_move]
  cases man.cotToVs m.σ .torch with
  | error e => rfl
  | ok vs =>
    dsimp only [Except.map]
    rw [show (m.move g).X = fun i => g.point (m.X i) from rfl, jacobians_move]
    cases vs.jacobians m.X with
    | error e => rfl
    | ok J =>
      dsimp only [Except.map]
      rw [show (m.move g).Y = fun i => g.point (m.Y i) from rfl, values_move]
      cases vs.values m.Y with
      | error e => rfl
      | ok V =>
        dsimp only [Except.map]
        have hb := fun x => block_conj (m.sks_conj g) x
        have ht : (fun i => m.coeffDiv * ∑ k, g.mat (J i) k k) = (LinearEquiv.refl ℝ (Fin N → ℝ)) fun i => m.coeffDiv * ∑ k, J i k k := by
          funext i
          exact congrArg (fun s => m.coeffDiv * s) (g.mat_trace (J i))
        rw [ht, linSolve_conj (LinearEquiv.refl ℝ (Fin N → ℝ)) fun x => (hb x).1]
        cases linSolve m.SKS.toBlocks₁₁ (fun i => m.coeffDiv * ∑ k, J i k k) with
        | error e => rfl
        | ok h =>
          dsimp only [Except.map]
          by_cases h0 : m.coeff = 0
          · rw [if_pos h0, if_pos h0]
          · rw [if_neg h0, if_neg h0, (hb h).2]
            have e : (fun j c => 1 / m.coeff * (-(g.vecEquiv P (m.SKS.toBlocks₂₁ *ᵥ h)) (j, c) + g.vec (V j) c))
                = fun j => g.vec fun c => 1 / m.coeff * (-(m.SKS.toBlocks₂₁ *ᵥ h) (j, c) + V j c) := by
              funext j
              refine Eq.trans ?_ (g.vec_smul (1 / m.coeff) (-(fun c => (m.SKS.toBlocks₂₁ *ᵥ h) (j, c)) + V j)).symm
              rw [g.vec_add, g.vec_neg]; rfl
            rw [e, m.fill_move g]
            cases m.fill _ with
            | error e => rfl
            | ok m' => exact m'.computeMoments_move g

end

end
end Imodal
