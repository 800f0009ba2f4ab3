import Verif.Lemmas.RelabelField
/-!
# Modules with their points listed in another order
-/
set_option autoImplicit false
namespace Imodal
noncomputable section
open Matrix
variable {d : Nat}

/-! ## Linear systems -/

theorem linSolve_perm {ι : Type} [Fintype ι] [DecidableEq ι] (A : Matrix ι ι ℝ) (b : ι → ℝ) (ε : Equiv.Perm ι) :
    linSolve (A.submatrix ε ε) (fun i => b (ε i)) = (linSolve A b).map fun v i => v (ε i) := by
  unfold linSolve
  rw [Matrix.det_submatrix_equiv_self]
  split
  · rfl
  · rw [Matrix.inv_submatrix_equiv]
    exact congrArg Except.ok (Matrix.submatrix_mulVec_equiv A⁻¹ (fun i => b (ε i)) ε ε |>.trans (by
      funext i; simp [Function.comp_def]))
theorem keopsSolve_perm {ι : Type} [Fintype ι] [DecidableEq ι] (A : Matrix ι ι ℝ) (b : ι → ℝ) (ε : Equiv.Perm ι) :
    keopsSolve (A.submatrix ε ε) (fun i => b (ε i)) = (keopsSolve A b).map fun v i => v (ε i) := by
  unfold keopsSolve
  rw [Matrix.det_submatrix_equiv_self]
  split
  · rfl
  · rw [Matrix.inv_submatrix_equiv]
    exact congrArg Except.ok (Matrix.submatrix_mulVec_equiv A⁻¹ (fun i => b (ε i)) ε ε |>.trans (by
      funext i; simp [Function.comp_def]))
theorem mulVec_perm {n : Nat} (A : Matrix (Fin n) (Fin n) ℝ) (b : Fin n → ℝ) (ε : Equiv.Perm (Fin n)) (i : Fin n) :
    ((A.submatrix ε ε)⁻¹ *ᵥ fun j => b (ε j)) i = (A⁻¹ *ᵥ b) (ε i) := by
  rw [Matrix.inv_submatrix_equiv, Matrix.submatrix_mulVec_equiv]
  simp [Function.comp_def]
theorem linSolveCols_perm {n : Nat} (A : Matrix (Fin n) (Fin n) ℝ) (B : Fin n → Vec d) (ε : Equiv.Perm (Fin n)) :
    linSolveCols (A.submatrix ε ε) (fun i => B (ε i)) = (linSolveCols A B).map fun v i => v (ε i) := by
  unfold linSolveCols
  rw [Matrix.det_submatrix_equiv_self]
  split
  · rfl
  · exact congrArg Except.ok (funext fun i => funext fun c => mulVec_perm A (fun j => B j c) ε i)
theorem keopsSolveCols_perm {n : Nat} (A : Matrix (Fin n) (Fin n) ℝ) (B : Fin n → Vec d) (ε : Equiv.Perm (Fin n)) :
    keopsSolveCols (A.submatrix ε ε) (fun i => B (ε i)) = (keopsSolveCols A B).map fun v i => v (ε i) := by
  unfold keopsSolveCols
  rw [Matrix.det_submatrix_equiv_self]
  split
  · rfl
  · exact congrArg Except.ok (funext fun i => funext fun c => mulVec_perm A (fun j => B j c) ε i)

theorem submatrix_ridge {ι : Type} [Fintype ι] [DecidableEq ι] (A : Matrix ι ι ℝ) (ν : ℝ) (ε : Equiv.Perm ι) :
    A.submatrix ε ε + ν • (1 : Matrix ι ι ℝ) = (A + ν • (1 : Matrix ι ι ℝ)).submatrix ε ε := by
  rw [Matrix.submatrix_add, Pi.add_apply, Pi.add_apply, Matrix.submatrix_smul, Pi.smul_apply, Pi.smul_apply, Matrix.submatrix_one_equiv]

theorem kMul_perm {n : Nat} (K : Fin n → Fin n → ℝ) (P : Fin n → Vec d) (π : Equiv.Perm (Fin n)) :
    kMul (fun i j => K (π i) (π j)) (fun i => P (π i)) = fun i => kMul K P (π i) :=
  funext fun i => funext fun c => Equiv.sum_comp π fun j => K (π i) j * P j c

/-! ## Simple modules -/

/-- The module with its points listed in another order. -/
def Translations.perm {n : Nat} (π : Equiv.Perm (Fin n)) (m : Translations d n) : Translations d n :=
  { m with gd := fun i => m.gd (π i), cot := fun i => m.cot (π i), ctrl := fun i => m.ctrl (π i) }
def Implicit0.perm {n : Nat} (π : Equiv.Perm (Fin n)) (m : Implicit0 d n) : Implicit0 d n :=
  { m with gd := fun i => m.gd (π i), cot := fun i => m.cot (π i), ctrl := fun i => m.ctrl (π i) }
def Oriented.perm {n : Nat} (π : Equiv.Perm (Fin n)) (m : Oriented d n) : Oriented d n :=
  { m with
    gd := fun i => m.gd (π i), dir := fun i => m.dir (π i)
    cot := fun i => m.cot (π i), cdir := fun i => m.cdir (π i), ctrl := fun i => m.ctrl (π i) }
def Constrained.perm {n p : Nat} (π : Equiv.Perm (Fin n)) (m : Constrained d n p) : Constrained d n p :=
  { m with
    gd := fun i => m.gd (π i), cot := fun i => m.cot (π i)
    fsupp := fun g => m.fsupp fun i => g (π.symm i), fvec := fun g => m.fvec fun i => g (π.symm i) }
def Implicit1.perm {n p : Nat} (π : Equiv.Perm (Fin n)) (m : Implicit1 d n p) : Implicit1 d n p :=
  { m with
    gd := fun i => m.gd (π i), R := fun i => m.R (π i)
    cot := fun i => m.cot (π i), cR := fun i => m.cR (π i), C := fun i => m.C (π i)
    cache := m.cache.map fun k => ⟨fun q => k.aqh (π q.1, q.2), fun q => k.lambdas (π q.1, q.2), fun i => k.moments (π i)⟩ }
def DivFree.perm {N P : Nat} (π : Equiv.Perm (Fin (N + P))) (m : DivFree d N P) : DivFree d N P :=
  { m with
    gd := fun i => m.gd (π i), cot := fun i => m.cot (π i)
    ctrl := fun j => m.ctrl (tailOrder π j)
    lambdas := m.lambdas.map fun l => Sum.elim (fun i => l (.inl (headOrder π i))) fun q => l (.inr (tailOrder π q.1, q.2)) }
def Arap.perm {N P : Nat} (π : Equiv.Perm (Fin (N + P))) (m : Arap d N P) : Arap d N P :=
  { m with
    gd := fun i => m.gd (π i), cot := fun i => m.cot (π i)
    ctrl := fun j => m.ctrl (tailOrder π j)
    lambdas := m.lambdas.map fun l => Sum.elim (fun q => l (.inl (headOrder π q.1, q.2))) fun q => l (.inr (tailOrder π q.1, q.2)) }

theorem Translations.cost_perm {n : Nat} (π : Equiv.Perm (Fin n)) (m : Translations d n) : (m.perm π).cost = m.cost := by
  rw [← Translations.cost_torch, ← Translations.cost_torch m]
  unfold Translations.cost
  dsimp only [Translations.perm]
  exact congrArg (0.5 * ·) ((congrArg (dotFlat · _) (kMul_perm (kXX m.σ m.gd) m.ctrl π)).trans (dotFlat_perm _ _ π))
theorem Implicit0.cost_perm {n : Nat} (π : Equiv.Perm (Fin n)) (m : Implicit0 d n) : (m.perm π).cost = m.cost := by
  rw [← Implicit0.cost_torch, ← Implicit0.cost_torch m]
  unfold Implicit0.cost
  dsimp only [Implicit0.perm]
  have h : (fun i c => kMul (kXX m.σ fun i => m.gd (π i)) (fun i => m.ctrl (π i)) i c + m.ν * m.ctrl (π i) c)
      = fun i => (fun i c => kMul (kXX m.σ m.gd) m.ctrl i c + m.ν * m.ctrl i c : Fin n → Vec d) (π i) := by
    funext i c
    exact congrArg (· + m.ν * m.ctrl (π i) c) (congrFun (congrFun (kMul_perm (kXX m.σ m.gd) m.ctrl π) i) c)
  rw [h]
  exact congrArg (0.5 * m.coeff * ·) (dotFlat_perm (fun i c => kMul (kXX m.σ m.gd) m.ctrl i c + m.ν * m.ctrl i c) m.ctrl π)
theorem Oriented.vectors_perm {n : Nat} (π : Equiv.Perm (Fin n)) (m : Oriented d n) : (m.perm π).vectors = fun i => m.vectors (π i) := rfl
theorem Oriented.cost_perm {n : Nat} (π : Equiv.Perm (Fin n)) (m : Oriented d n) : (m.perm π).cost = m.cost := by
  unfold Oriented.cost
  rw [Oriented.vectors_perm]
  exact congrArg (0.5 * m.coeff * ·) ((congrArg (dotFlat · _) (kMul_perm (kXX m.σ m.gd) m.vectors π)).trans (dotFlat_perm _ _ π))
theorem Constrained.funs_perm {n p : Nat} (π : Equiv.Perm (Fin n)) (m : Constrained d n p) :
    (m.perm π).fsupp (m.perm π).gd = m.fsupp m.gd ∧ (m.perm π).fvec (m.perm π).gd = m.fvec m.gd := by
  constructor <;> simp [Constrained.perm]
theorem Constrained.energy_perm {n p : Nat} (π : Equiv.Perm (Fin n)) (m : Constrained d n p) : (m.perm π).energy = m.energy := by
  unfold Constrained.energy
  rw [(m.funs_perm π).1, (m.funs_perm π).2]; rfl
theorem Constrained.cost_perm {n p : Nat} (π : Equiv.Perm (Fin n)) (m : Constrained d n p) : (m.perm π).cost = m.cost := by
  unfold Constrained.cost
  rw [m.energy_perm π]; rfl
theorem Constrained.field_perm {n p : Nat} (π : Equiv.Perm (Fin n)) (m : Constrained d n p) : (m.perm π).field = m.field := by
  unfold Constrained.field
  rw [(m.funs_perm π).1, (m.funs_perm π).2]; rfl

theorem Translations.geodesic_perm {n : Nat} (π : Equiv.Perm (Fin n)) (m : Translations d n) {man man' : Mfd d} (h : Mirror man man') :
    PyRel (fun a b => b = a.perm π) (m.geodesic man) ((m.perm π).geodesic man') := by
  unfold Translations.geodesic
  dsimp only [Translations.perm]
  rcases (h.vs m.σ m.r).both with ⟨f, g, e, e', hf⟩ | ⟨_, _, e, e'⟩
  · rw [e, e']
    dsimp only
    rw [values_perm, values_alike hf]
    cases g.values m.gd with
    | error e => trivial
    | ok V =>
      dsimp only [Except.map]
      have h1 := linSolveCols_perm (Matrix.of (kXX m.σ m.gd)) V π
      have h2 := keopsSolveCols_perm (Matrix.of fun i j => keopsGauss m.σ (m.gd i) (m.gd j)) V π
      cases m.r with
      | torch =>
        dsimp only
        rw [show (Matrix.of (kXX m.σ fun i => m.gd (π i))) = (Matrix.of (kXX m.σ m.gd)).submatrix π π from rfl, h1]
        cases linSolveCols (Matrix.of (kXX m.σ m.gd)) V with
        | error e => trivial
        | ok c => rfl
      | keops =>
        dsimp only
        rw [show (Matrix.of fun i j => keopsGauss m.σ (m.gd (π i)) (m.gd (π j))) = (Matrix.of fun i j => keopsGauss m.σ (m.gd i) (m.gd j)).submatrix π π from rfl, h2]
        cases keopsSolveCols (Matrix.of fun i j => keopsGauss m.σ (m.gd i) (m.gd j)) V with
        | error e => trivial
        | ok c => rfl
  · rw [e, e']; trivial

theorem Implicit0.geodesic_perm {n : Nat} (π : Equiv.Perm (Fin n)) (m : Implicit0 d n) {man man' : Mfd d} (h : Mirror man man') :
    PyRel (fun a b => b = a.perm π) (m.geodesic man) ((m.perm π).geodesic man') := by
  unfold Implicit0.geodesic
  dsimp only [Implicit0.perm]
  rcases (h.vs m.σ m.r).both with ⟨f, g, e, e', hf⟩ | ⟨_, _, e, e'⟩
  · rw [e, e']
    dsimp only
    rw [values_perm, values_alike hf]
    cases g.values m.gd with
    | error e => trivial
    | ok V =>
      dsimp only [Except.map]
      have h1 := linSolveCols_perm (Matrix.of (kXX m.σ m.gd) + m.ν • (1 : Matrix (Fin n) (Fin n) ℝ)) V π
      have h2 := keopsSolveCols_perm (Matrix.of (fun i j => keopsGauss0 m.σ (m.gd i) (m.gd j)) + m.ν • (1 : Matrix (Fin n) (Fin n) ℝ)) V π
      rw [← submatrix_ridge] at h1 h2
      cases m.r with
      | torch =>
        dsimp only
        rw [show (Matrix.of (kXX m.σ fun i => m.gd (π i))) = (Matrix.of (kXX m.σ m.gd)).submatrix π π from rfl, h1]
        cases linSolveCols (Matrix.of (kXX m.σ m.gd) + m.ν • (1 : Matrix (Fin n) (Fin n) ℝ)) V with
        | error e => trivial
        | ok c => cases tdiv 1 m.coeff with
          | error e => trivial
          | ok _ => rfl
      | keops =>
        dsimp only
        rw [show (Matrix.of fun i j => keopsGauss0 m.σ (m.gd (π i)) (m.gd (π j))) = (Matrix.of fun i j => keopsGauss0 m.σ (m.gd i) (m.gd j)).submatrix π π from rfl, h2]
        cases keopsSolveCols (Matrix.of (fun i j => keopsGauss0 m.σ (m.gd i) (m.gd j)) + m.ν • (1 : Matrix (Fin n) (Fin n) ℝ)) V with
        | error e => trivial
        | ok c => cases tdiv 1 m.coeff with
          | error e => trivial
          | ok _ => rfl
  · rw [e, e']; trivial

theorem Oriented.geodesic_perm {n : Nat} (π : Equiv.Perm (Fin n)) (m : Oriented d n) {man man' : Mfd d} (h : Mirror man man') :
    PyRel (fun a b => b = a.perm π) (m.geodesic man) ((m.perm π).geodesic man') := by
  unfold Oriented.geodesic
  dsimp only [Oriented.perm]
  rcases (h.vs m.σ .torch).both with ⟨f, g, e, e', hf⟩ | ⟨_, _, e, e'⟩
  · rw [e, e']
    dsimp only
    rw [values_perm, values_alike hf]
    cases g.values m.gd with
    | error e => trivial
    | ok V =>
      dsimp only [Except.map]
      have h1 := linSolve_perm (Matrix.of fun i j => kXX m.σ m.gd i j * ∑ c, m.dir i c * m.dir j c) (fun i => ∑ c, V i c * m.dir i c) π
      rw [show (Matrix.of fun i j => kXX m.σ (fun i => m.gd (π i)) i j * ∑ c, m.dir (π i) c * m.dir (π j) c)
        = (Matrix.of fun i j => kXX m.σ m.gd i j * ∑ c, m.dir i c * m.dir j c).submatrix π π from rfl, h1]
      cases linSolve (Matrix.of fun i j => kXX m.σ m.gd i j * ∑ c, m.dir i c * m.dir j c) (fun i => ∑ c, V i c * m.dir i c) with
      | error e => trivial
      | ok c => cases tdiv 1 m.coeff with
        | error e => trivial
        | ok _ => rfl
  · rw [e, e']; trivial

theorem Constrained.geodesic_perm {n p : Nat} (π : Equiv.Perm (Fin n)) (m : Constrained d n p) {man man' : Mfd d} (h : Mirror man man') :
    PyRel (fun a b => b = a.perm π) (m.geodesic man) ((m.perm π).geodesic man') := by
  unfold Constrained.geodesic
  rw [m.energy_perm π, (m.funs_perm π).1, (m.funs_perm π).2]
  dsimp only [Constrained.perm]
  rcases (h.inner (.f0 .torch (m.fsupp m.gd) (m.fvec m.gd) m.σ)).both with ⟨a, b, e, e', hf⟩ | ⟨_, _, e, e'⟩
  · rw [e, e', ← hf]
    dsimp only
    cases tdiv a (m.coeff * m.energy) with
    | error e => trivial
    | ok c => rfl
  · rw [e, e']; trivial

theorem collect_rel {n : Nat} {f g : Fin n → Py ℝ} (h : ∀ i, PyRel Eq (f i) (g i)) : PyRel Eq (collect f) (collect g) := by
  induction n with
  | zero => exact PyRel.ok rfl
  | succ n ih =>
    rw [collect, collect]
    rcases (h 0).both with ⟨a, b, e, e', hf⟩ | ⟨_, _, e, e'⟩
    · rw [e, e', ← hf]
      dsimp only
      rcases (ih fun i => h i.succ).both with ⟨v, w, e, e', hf⟩ | ⟨_, _, e, e'⟩
      · rw [e, e', hf]; exact PyRel.ok rfl
      · rw [e, e']; trivial
    · rw [e, e']; trivial

theorem GlobalTranslation.geodesic_mirror (m : GlobalTranslation d) {man man' : Mfd d} (h : Mirror man man') : PyRel Eq (m.geodesic man) (m.geodesic man') := by
  unfold GlobalTranslation.geodesic
  have : ∀ i, PyRel Eq (m.entry man i) (m.entry man' i) := fun i => by
    unfold GlobalTranslation.entry
    rcases (h.inner (.const fun c => if c = i then 1 else 0)).both with ⟨a, b, e, e', hf⟩ | ⟨_, _, e, e'⟩
    · rw [e, e', hf]; exact PyRel.refl (fun _ => rfl) _
    · rw [e, e']; trivial
  rcases (collect_rel this).both with ⟨a, b, e, e', hf⟩ | ⟨_, _, e, e'⟩
  · rw [e, e', hf]; exact PyRel.ok rfl
  · rw [e, e']; trivial

theorem Linear.geodesic_mirror (m : Linear d) {man man' : Mfd d} (h : Mirror man man') : PyRel Eq (m.geodesic man) (m.geodesic man') := by
  unfold Linear.geodesic
  rcases (h.inner (.affine m.A m.gd 0)).both with ⟨a, b, e, e', hf⟩ | ⟨_, _, e, e'⟩
  · rw [e, e', hf]; exact PyRel.refl (fun _ => rfl) _
  · rw [e, e']; trivial

/-! ## The implicit module of order 1 -/

/-- The order of the pairs of a point and a component. -/
def pairPerm {n : Nat} (k : Nat) (π : Equiv.Perm (Fin n)) : Equiv.Perm (Fin n × Fin k) := Equiv.prodCongr π (Equiv.refl _)

theorem Implicit1.sks_perm {n p : Nat} (π : Equiv.Perm (Fin n)) (m : Implicit1 d n p) : (m.perm π).sks = m.sks.submatrix (pairPerm _ π) (pairPerm _ π) := by
  unfold Implicit1.sks
  rw [← submatrix_ridge]
  dsimp only [Implicit1.perm]
  cases m.r <;> rfl
theorem Implicit1.solve_perm {n p : Nat} (π : Equiv.Perm (Fin n)) (m : Implicit1 d n p) (b : Fin n × Fin (symDim d) → ℝ) :
    (m.perm π).solve (fun q => b (π q.1, q.2)) = (m.solve b).map fun v q => v (π q.1, q.2) := by
  unfold Implicit1.solve
  rw [m.sks_perm π, show (m.perm π).r = m.r from rfl]
  cases m.r with
  | torch => exact linSolve_perm m.sks b (pairPerm _ π)
  | keops => exact keopsSolve_perm m.sks b (pairPerm _ π)
theorem Implicit1.aqh_perm {n p : Nat} (π : Equiv.Perm (Fin n)) (m : Implicit1 d n p) (h : Fin p → ℝ) :
    (m.perm π).aqh h = fun q => m.aqh h (π q.1, q.2) := rfl
theorem Implicit1.computeMoments_perm {n p : Nat} (π : Equiv.Perm (Fin n)) (m : Implicit1 d n p) :
    (m.perm π).computeMoments = m.computeMoments.map (Implicit1.perm π) := by
  unfold Implicit1.computeMoments
  rw [m.aqh_perm π, m.solve_perm π, show (m.perm π).ctrl = m.ctrl from rfl]
  cases m.solve (m.aqh m.ctrl) with
  | error e => rfl
  | ok l => rfl
theorem Implicit1.fill_perm {n p : Nat} (π : Equiv.Perm (Fin n)) (m : Implicit1 d n p) (h : Fin p → ℝ) :
    (m.perm π).fill h = (m.fill h).map (Implicit1.perm π) :=
  Implicit1.computeMoments_perm π { m with ctrl := h }
theorem pair_sum {n k : Nat} (π : Equiv.Perm (Fin n)) (f : Fin n × Fin k → ℝ) : ∑ q : Fin n × Fin k, f (π q.1, q.2) = ∑ q, f q :=
  Equiv.sum_comp (pairPerm k π) f
theorem Implicit1.aqkiaq_perm {n p : Nat} (π : Equiv.Perm (Fin n)) (m : Implicit1 d n p) : (m.perm π).aqkiaq = m.aqkiaq := by
  have h0 := m.solve_perm π 0
  unfold Implicit1.aqkiaq
  rw [show (fun q : Fin n × Fin (symDim d) => (0 : Fin n × Fin (symDim d) → ℝ) (π q.1, q.2)) = 0 from rfl] at h0
  rw [h0]
  cases m.solve 0 with
  | error e => rfl
  | ok v =>
    dsimp only [Except.map]
    refine congrArg Except.ok (funext fun i => funext fun j => ?_)
    have hc : ∀ i, (m.perm π).aqCol i = fun q => m.aqCol i (π q.1, q.2) := fun i => rfl
    rw [hc i, hc j, m.solve_perm π]
    cases m.solve (m.aqCol i) with
    | error e => rfl
    | ok l => exact pair_sum π fun q => l q * m.aqCol j q
theorem Implicit1.cost_perm {n p : Nat} (π : Equiv.Perm (Fin n)) (m : Implicit1 d n p) : (m.perm π).cost = m.cost := by
  unfold Implicit1.cost
  dsimp only [Implicit1.perm]
  cases m.cache with
  | none => rfl
  | some k => exact congrArg Except.ok (congrArg (0.5 * m.coeff * ·) (pair_sum π fun q => k.aqh q * k.lambdas q))
theorem Implicit1.field_perm {n p : Nat} (π : Equiv.Perm (Fin n)) (m : Implicit1 d n p) : PyRel FieldExpr.Alike m.field (m.perm π).field := by
  unfold Implicit1.field
  dsimp only [Implicit1.perm]
  cases m.cache with
  | none => trivial
  | some k => exact perm_fp ..

theorem Implicit1.geodesic_perm {n p : Nat} (π : Equiv.Perm (Fin n)) (m : Implicit1 d n p) {man man' : Mfd d} (h : Mirror man man') :
    PyRel (fun a b => b = a.perm π) (m.geodesic man) ((m.perm π).geodesic man') := by
  unfold Implicit1.geodesic
  rw [m.aqkiaq_perm π, show (m.perm π).r = m.r from rfl, show (m.perm π).σ = m.σ from rfl, show (m.perm π).coeff = m.coeff from rfl,
    show (m.perm π).gd = fun i => m.gd (π i) from rfl]
  rcases (h.vs m.σ m.r).both with ⟨f, g, e, e', hf⟩ | ⟨_, _, e, e'⟩
  · rw [e, e']
    dsimp only
    rw [jacobians_perm, jacobians_alike hf]
    cases g.jacobians m.gd with
    | error e => trivial
    | ok J =>
      dsimp only [Except.map]
      rw [show strains (fun i => J (π i)) = fun q => strains J (π q.1, q.2) from rfl, m.solve_perm π]
      cases m.solve (strains J) with
      | error e => trivial
      | ok tl =>
        dsimp only [Except.map]
        cases tdiv 1 m.coeff with
        | error e => trivial
        | ok _ =>
          dsimp only
          cases m.aqkiaq with
          | error e => trivial
          | ok Q =>
            dsimp only
            have hb : (fun i => ∑ q : Fin n × Fin (symDim d), (m.perm π).aqCol i q * (tl (π q.1, q.2) / m.coeff)) = fun i => ∑ q, m.aqCol i q * (tl q / m.coeff) :=
              funext fun i => pair_sum π fun q => m.aqCol i q * (tl q / m.coeff)
            rw [hb]
            cases linSolve Q (fun i => ∑ q, m.aqCol i q * (tl q / m.coeff)) with
            | error e => trivial
            | ok c =>
              dsimp only
              rw [m.fill_perm π]
              cases m.fill c with
              | error e => trivial
              | ok m' =>
                dsimp only [Except.map]
                cases m.r with
                | torch =>
                  dsimp only
                  rw [m'.computeMoments_perm π]
                  cases m'.computeMoments with
                  | error e => trivial
                  | ok _ => rfl
                | keops => rfl
  · rw [e, e']; trivial

/-! ## Modules with two kinds of points -/

section Parts
variable {N P : Nat} {π : Equiv.Perm (Fin (N + P))}

theorem headOrder_eq (h : KeepsParts N P π) (i : Fin N) : π (Fin.castAdd P i) = Fin.castAdd P (headOrder π i) := by
  have h1 : (π (Fin.castAdd P i)).val < N := (h _).2 (by simp)
  unfold headOrder
  rw [dif_pos h1]
  rfl
theorem tailOrder_eq (h : KeepsParts N P π) (j : Fin P) : π (Fin.natAdd N j) = Fin.natAdd N (tailOrder π j) := by
  have h1 : N ≤ (π (Fin.natAdd N j)).val := by
    have := (h (Fin.natAdd N j)).not
    simp at this
    exact this
  unfold tailOrder
  rw [dif_pos h1]
  exact Fin.ext (by simp; omega)

/-- The order of the first points. -/
def headPerm (h : KeepsParts N P π) : Equiv.Perm (Fin N) :=
  Equiv.ofBijective (headOrder π) (Finite.injective_iff_bijective.1 fun i j hij => by
    have := headOrder_eq h i
    rw [hij, ← headOrder_eq h j] at this
    exact Fin.castAdd_injective N P (π.injective this))
/-- The order of the last points. -/
def tailPerm (h : KeepsParts N P π) : Equiv.Perm (Fin P) :=
  Equiv.ofBijective (tailOrder π) (Finite.injective_iff_bijective.1 fun i j hij => by
    have := tailOrder_eq h i
    rw [hij, ← tailOrder_eq h j] at this
    exact Fin.natAdd_injective P N (π.injective this))
end Parts

theorem perm_X {N P : Nat} {π : Equiv.Perm (Fin (N + P))} (h : KeepsParts N P π) (m : DivFree d N P) : (m.perm π).X = fun i => m.X (headPerm h i) :=
  funext fun i => congrArg m.gd (headOrder_eq h i)
theorem perm_Y {N P : Nat} {π : Equiv.Perm (Fin (N + P))} (h : KeepsParts N P π) (m : DivFree d N P) : (m.perm π).Y = fun i => m.Y (tailPerm h i) :=
  funext fun i => congrArg m.gd (tailOrder_eq h i)
theorem perm_aX {N P : Nat} {π : Equiv.Perm (Fin (N + P))} (h : KeepsParts N P π) (m : Arap d N P) : (m.perm π).X = fun i => m.X (headPerm h i) :=
  funext fun i => congrArg m.gd (headOrder_eq h i)
theorem perm_aY {N P : Nat} {π : Equiv.Perm (Fin (N + P))} (h : KeepsParts N P π) (m : Arap d N P) : (m.perm π).Y = fun i => m.Y (tailPerm h i) :=
  funext fun i => congrArg m.gd (tailOrder_eq h i)

/-- The order of the rows of the constraint matrices. -/
def divPerm {N P : Nat} {π : Equiv.Perm (Fin (N + P))} (h : KeepsParts N P π) : Equiv.Perm (Fin N ⊕ Fin P × Fin d) :=
  Equiv.sumCongr (headPerm h) (pairPerm d (tailPerm h))
def arapPerm {N P : Nat} {π : Equiv.Perm (Fin (N + P))} (h : KeepsParts N P π) : Equiv.Perm ((Fin N × Fin (symDim d)) ⊕ Fin P × Fin d) :=
  Equiv.sumCongr (pairPerm _ (headPerm h)) (pairPerm d (tailPerm h))

theorem zeroThen_div {N P : Nat} {π : Equiv.Perm (Fin (N + P))} (h : KeepsParts N P π) (c : Fin P → Vec d) :
    (zeroThen (κ := Fin N) fun j => c (tailOrder π j)) = fun q => zeroThen c (divPerm h q) := by
  funext q; rcases q with q | q <;> rfl
theorem zeroThen_arap {N P : Nat} {π : Equiv.Perm (Fin (N + P))} (h : KeepsParts N P π) (c : Fin P → Vec d) :
    (zeroThen (κ := Fin N × Fin (symDim d)) fun j => c (tailOrder π j)) = fun q => zeroThen c (arapPerm h q) := by
  funext q; rcases q with q | q <;> rfl

theorem DivFree.SKS_perm {N P : Nat} {π : Equiv.Perm (Fin (N + P))} (h : KeepsParts N P π) (m : DivFree d N P) :
    (m.perm π).SKS = m.SKS.submatrix (divPerm h) (divPerm h) := by
  unfold DivFree.SKS
  rw [← submatrix_ridge]
  refine congrArg (· + m.ν • (1 : Matrix (Fin N ⊕ Fin P × Fin d) (Fin N ⊕ Fin P × Fin d) ℝ)) ?_
  ext p q
  rcases p with p | p <;> rcases q with q | q
  · simp [DivFree.S1, perm_X h, divPerm]; rfl
  · simp [DivFree.T, perm_X h, perm_Y h, divPerm, pairPerm]; rfl
  · simp [DivFree.T, perm_X h, perm_Y h, divPerm, pairPerm]; rfl
  · simp [DivFree.S2, perm_Y h, divPerm, pairPerm]; left; rfl

theorem Arap.SKS_perm {N P : Nat} {π : Equiv.Perm (Fin (N + P))} (h : KeepsParts N P π) (m : Arap d N P) :
    (m.perm π).SKS = m.SKS.submatrix (arapPerm h) (arapPerm h) := by
  unfold Arap.SKS
  rw [← submatrix_ridge]
  refine congrArg (· + m.ν • (1 : Matrix ((Fin N × Fin (symDim d)) ⊕ Fin P × Fin d) ((Fin N × Fin (symDim d)) ⊕ Fin P × Fin d) ℝ)) ?_
  ext p q
  rcases p with p | p <;> rcases q with q | q
  · simp [Arap.S1, perm_aX h, arapPerm, pairPerm]; rfl
  · simp [Arap.T, perm_aX h, perm_aY h, arapPerm, pairPerm]; rfl
  · simp [Arap.T, perm_aX h, perm_aY h, arapPerm, pairPerm]; rfl
  · simp [Arap.S2, perm_aY h, arapPerm, pairPerm]; left; rfl


theorem DivFree.lambdas_perm {N P : Nat} {π : Equiv.Perm (Fin (N + P))} (h : KeepsParts N P π) (l : Fin N ⊕ Fin P × Fin d → ℝ) :
    (Sum.elim (fun i => l (.inl (headOrder π i))) fun q => l (.inr (tailOrder π q.1, q.2))) = fun q => l (divPerm h q) := by
  funext q; rcases q with q | q <;> rfl
theorem Arap.lambdas_perm {N P : Nat} {π : Equiv.Perm (Fin (N + P))} (h : KeepsParts N P π) (l : (Fin N × Fin (symDim d)) ⊕ Fin P × Fin d → ℝ) :
    (Sum.elim (fun q => l (.inl (headOrder π q.1, q.2))) fun q => l (.inr (tailOrder π q.1, q.2))) = fun q => l (arapPerm h q) := by
  funext q; rcases q with q | q <;> rfl

theorem DivFree.cost_perm {N P : Nat} {π : Equiv.Perm (Fin (N + P))} (h : KeepsParts N P π) (m : DivFree d N P) : (m.perm π).cost = m.cost := by
  unfold DivFree.cost
  dsimp only [DivFree.perm]
  cases m.lambdas with
  | none => rfl
  | some l =>
    refine congrArg Except.ok (congrArg (0.5 * m.coeff * ·) ?_)
    dsimp only
    rw [DivFree.lambdas_perm h, zeroThen_div h]
    exact Equiv.sum_comp (divPerm h) fun q => zeroThen m.ctrl q * l q
theorem Arap.cost_perm {N P : Nat} {π : Equiv.Perm (Fin (N + P))} (h : KeepsParts N P π) (m : Arap d N P) : (m.perm π).cost = m.cost := by
  unfold Arap.cost
  dsimp only [Arap.perm]
  cases m.lambdas with
  | none => rfl
  | some l =>
    refine congrArg Except.ok (congrArg (0.5 * m.coeff * ·) ?_)
    dsimp only
    rw [Arap.lambdas_perm h, zeroThen_arap h]
    exact Equiv.sum_comp (arapPerm h) fun q => zeroThen m.ctrl q * l q

theorem DivFree.computeMoments_perm {N P : Nat} {π : Equiv.Perm (Fin (N + P))} (h : KeepsParts N P π) (m : DivFree d N P) :
    (m.perm π).computeMoments = m.computeMoments.map (DivFree.perm π) := by
  unfold DivFree.computeMoments
  rw [DivFree.SKS_perm h, show (m.perm π).ctrl = fun j => m.ctrl (tailOrder π j) from rfl, zeroThen_div h, linSolve_perm]
  cases linSolve m.SKS (zeroThen m.ctrl) with
  | error e => rfl
  | ok l =>
    dsimp only [Except.map, DivFree.perm, Option.map]
    rw [DivFree.lambdas_perm h]
theorem Arap.computeMoments_perm {N P : Nat} {π : Equiv.Perm (Fin (N + P))} (h : KeepsParts N P π) (m : Arap d N P) :
    (m.perm π).computeMoments = m.computeMoments.map (Arap.perm π) := by
  unfold Arap.computeMoments
  rw [Arap.SKS_perm h, show (m.perm π).ctrl = fun j => m.ctrl (tailOrder π j) from rfl, zeroThen_arap h, linSolve_perm]
  cases linSolve m.SKS (zeroThen m.ctrl) with
  | error e => rfl
  | ok l =>
    dsimp only [Except.map, Arap.perm, Option.map]
    rw [Arap.lambdas_perm h]
theorem DivFree.fill_perm {N P : Nat} {π : Equiv.Perm (Fin (N + P))} (h : KeepsParts N P π) (m : DivFree d N P) (c : Fin P → Vec d) :
    (m.perm π).fill (fun j => c (tailOrder π j)) = (m.fill c).map (DivFree.perm π) := DivFree.computeMoments_perm h { m with ctrl := c }
theorem Arap.fill_perm {N P : Nat} {π : Equiv.Perm (Fin (N + P))} (h : KeepsParts N P π) (m : Arap d N P) (c : Fin P → Vec d) :
    (m.perm π).fill (fun j => c (tailOrder π j)) = (m.fill c).map (Arap.perm π) := Arap.computeMoments_perm h { m with ctrl := c }

theorem DivFree.field_perm {N P : Nat} {π : Equiv.Perm (Fin (N + P))} (h : KeepsParts N P π) (m : DivFree d N P) : PyRel FieldExpr.Alike m.field (m.perm π).field := by
  unfold DivFree.field
  rw [perm_X h, perm_Y h]
  dsimp only [DivFree.perm]
  cases m.lambdas with
  | none => trivial
  | some l => exact alike_mkSum (.cons (perm_f0 .torch m.Y (fun j c => l (.inr (j, c))) m.σ (tailPerm h)) (.cons (perm_f1 m.X (fun i => m.coeffDiv * l (.inl i)) m.σ (headPerm h)) .nil))
theorem Arap.field_perm {N P : Nat} {π : Equiv.Perm (Fin (N + P))} (h : KeepsParts N P π) (m : Arap d N P) : PyRel FieldExpr.Alike m.field (m.perm π).field := by
  unfold Arap.field
  rw [perm_aX h, perm_aY h]
  dsimp only [Arap.perm]
  cases m.lambdas with
  | none => trivial
  | some l =>
    exact alike_mkSum (.cons (perm_f0 .torch m.Y (fun j c => l (.inr (j, c))) m.σ (tailPerm h))
      (.cons (perm_fp .torch m.X (fun i => Matrix.of fun b c => m.coeffArap * ∑ t, l (.inl (i, t)) * etaOf d c b t) m.σ (headPerm h)) .nil))

theorem blocks₁₁_div {N P : Nat} {π : Equiv.Perm (Fin (N + P))} (h : KeepsParts N P π) (m : DivFree d N P) :
    (m.perm π).SKS.toBlocks₁₁ = m.SKS.toBlocks₁₁.submatrix (headPerm h) (headPerm h) := by rw [DivFree.SKS_perm h]; rfl
theorem blocks₂₁_div {N P : Nat} {π : Equiv.Perm (Fin (N + P))} (h : KeepsParts N P π) (m : DivFree d N P) (v : Fin N → ℝ) (q : Fin P × Fin d) :
    ((m.perm π).SKS.toBlocks₂₁.mulVec fun i => v (headPerm h i)) q = m.SKS.toBlocks₂₁.mulVec v (tailOrder π q.1, q.2) := by
  rw [DivFree.SKS_perm h]
  exact Equiv.sum_comp (headPerm h) fun i => m.SKS.toBlocks₂₁ (tailOrder π q.1, q.2) i * v i
theorem blocks₁₁_arap {N P : Nat} {π : Equiv.Perm (Fin (N + P))} (h : KeepsParts N P π) (m : Arap d N P) :
    (m.perm π).SKS.toBlocks₁₁ = m.SKS.toBlocks₁₁.submatrix (pairPerm _ (headPerm h)) (pairPerm _ (headPerm h)) := by rw [Arap.SKS_perm h]; rfl
theorem blocks₂₁_arap {N P : Nat} {π : Equiv.Perm (Fin (N + P))} (h : KeepsParts N P π) (m : Arap d N P) (v : Fin N × Fin (symDim d) → ℝ) (q : Fin P × Fin d) :
    ((m.perm π).SKS.toBlocks₂₁.mulVec fun i => v (pairPerm _ (headPerm h) i)) q = m.SKS.toBlocks₂₁.mulVec v (tailOrder π q.1, q.2) := by
  rw [Arap.SKS_perm h]
  exact Equiv.sum_comp (pairPerm _ (headPerm h)) fun i => m.SKS.toBlocks₂₁ (tailOrder π q.1, q.2) i * v i

theorem DivFree.geodesic_perm {N P : Nat} {π : Equiv.Perm (Fin (N + P))} (hπ : KeepsParts N P π) (m : DivFree d N P) {man man' : Mfd d} (h : Mirror man man') :
    PyRel (fun a b => b = a.perm π) (m.geodesic man) ((m.perm π).geodesic man') := by
  unfold DivFree.geodesic
  rw [perm_X hπ, perm_Y hπ, blocks₁₁_div hπ, show (m.perm π).σ = m.σ from rfl, show (m.perm π).coeff = m.coeff from rfl, show (m.perm π).coeffDiv = m.coeffDiv from rfl]
  rcases (h.vs m.σ .torch).both with ⟨f, g, e, e', hf⟩ | ⟨_, _, e, e'⟩
  · rw [e, e']
    dsimp only
    rw [jacobians_perm, values_perm, values_alike hf, jacobians_alike hf]
    cases g.jacobians m.X with
    | error e => trivial
    | ok J =>
      dsimp only [Except.map]
      cases g.values m.Y with
      | error e => trivial
      | ok V =>
        dsimp only
        rw [linSolve_perm m.SKS.toBlocks₁₁ (fun i => m.coeffDiv * ∑ k, J i k k) (headPerm hπ)]
        cases linSolve m.SKS.toBlocks₁₁ (fun i => m.coeffDiv * ∑ k, J i k k) with
        | error e => trivial
        | ok l =>
          dsimp only [Except.map]
          by_cases hc : m.coeff = 0
          · simp only [if_pos hc]; trivial
          · simp only [if_neg hc, blocks₂₁_div hπ]
            have := DivFree.fill_perm hπ m (fun j c => (1 / m.coeff) * (-(m.SKS.toBlocks₂₁.mulVec l) (j, c) + V j c))
            rw [show (fun j c => 1 / m.coeff * (-(m.SKS.toBlocks₂₁.mulVec l) (tailOrder π j, c) + V (tailPerm hπ j) c))
              = fun j => (fun j c => (1 / m.coeff) * (-(m.SKS.toBlocks₂₁.mulVec l) (j, c) + V j c) : Fin P → Vec d) (tailOrder π j) from rfl, this]
            cases m.fill (fun j c => (1 / m.coeff) * (-(m.SKS.toBlocks₂₁.mulVec l) (j, c) + V j c)) with
            | error e => trivial
            | ok m' =>
              dsimp only [Except.map]
              rw [DivFree.computeMoments_perm hπ]
              cases m'.computeMoments with
              | error e => trivial
              | ok _ => rfl
  · rw [e, e']; trivial

theorem Arap.geodesic_perm {N P : Nat} {π : Equiv.Perm (Fin (N + P))} (hπ : KeepsParts N P π) (m : Arap d N P) {man man' : Mfd d} (h : Mirror man man') :
    PyRel (fun a b => b = a.perm π) (m.geodesic man) ((m.perm π).geodesic man') := by
  unfold Arap.geodesic
  rw [perm_aX hπ, perm_aY hπ, blocks₁₁_arap hπ, show (m.perm π).σ = m.σ from rfl, show (m.perm π).coeff = m.coeff from rfl, show (m.perm π).coeffArap = m.coeffArap from rfl]
  rcases (h.vs m.σ .torch).both with ⟨f, g, e, e', hf⟩ | ⟨_, _, e, e'⟩
  · rw [e, e']
    dsimp only
    rw [jacobians_perm, values_perm, values_alike hf, jacobians_alike hf]
    cases g.jacobians m.X with
    | error e => trivial
    | ok J =>
      dsimp only [Except.map]
      cases g.values m.Y with
      | error e => trivial
      | ok V =>
        dsimp only
        have hs := linSolve_perm m.SKS.toBlocks₁₁ (strains fun i => m.coeffArap • J i) (pairPerm _ (headPerm hπ))
        rw [show (strains fun i => m.coeffArap • J (headPerm hπ i)) = fun q => (strains fun i => m.coeffArap • J i) (pairPerm _ (headPerm hπ) q) from rfl, hs]
        cases linSolve m.SKS.toBlocks₁₁ (strains fun i => m.coeffArap • J i) with
        | error e => trivial
        | ok l =>
          dsimp only [Except.map]
          by_cases hc : m.coeff = 0
          · simp only [if_pos hc]; trivial
          · simp only [if_neg hc, blocks₂₁_arap hπ]
            have := Arap.fill_perm hπ m (fun j c => (1 / m.coeff) * (-(m.SKS.toBlocks₂₁.mulVec l) (j, c) + V j c))
            rw [show (fun j c => 1 / m.coeff * (-(m.SKS.toBlocks₂₁.mulVec l) (tailOrder π j, c) + V (tailPerm hπ j) c))
              = fun j => (fun j c => (1 / m.coeff) * (-(m.SKS.toBlocks₂₁.mulVec l) (j, c) + V j c) : Fin P → Vec d) (tailOrder π j) from rfl, this]
            cases m.fill (fun j c => (1 / m.coeff) * (-(m.SKS.toBlocks₂₁.mulVec l) (j, c) + V j c)) with
            | error e => trivial
            | ok m' =>
              dsimp only [Except.map]
              rw [Arap.computeMoments_perm hπ]
              cases m'.computeMoments with
              | error e => trivial
              | ok _ => rfl
  · rw [e, e']; trivial

end
end Imodal
