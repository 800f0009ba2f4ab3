import Verif.Lemmas.DilField
/-!
# Modules in another unit of length
-/
set_option autoImplicit false
namespace Imodal
noncomputable section
open Matrix
variable {d : Nat} {s : ℝ}

theorem map_map_py {α β γ : Type} (f : α → β) (g : β → γ) (r : Py α) : (r.map f).map g = r.map (g ∘ f) := by cases r <;> rfl

/-! ## Translations and implicit modules of order 0 -/

section
variable {n : Nat}
def Translations.dilate (s : ℝ) (m : Translations d n) : Translations d n :=
  ⟨m.r, fun i c => s * m.gd i c, fun i c => s * m.cot i c, s * m.σ, fun i c => s * m.ctrl i c⟩
theorem Translations.cost_dil (hs : s ≠ 0) (m : Translations d n) : (m.dilate s).cost = s ^ 2 * m.cost := by
  unfold Translations.cost Translations.dilate
  cases m.r with
  | torch =>
    dsimp only
    rw [kXX_dil hs]
    have := Translations.cost_scale s { m with r := .torch }
    unfold Translations.cost Translations.scale at this
    exact this
  | keops =>
    dsimp only
    have e : ∀ i j, keopsGauss (s * m.σ) (fun c => s * m.gd i c) (fun c => s * m.gd j c) = keopsGauss m.σ (m.gd i) (m.gd j) := fun i j =>
      keopsGauss_dil hs m.σ (m.gd i) (m.gd j)
    simp only [e]
    have := Translations.cost_scale s { m with r := .keops }
    unfold Translations.cost Translations.scale at this
    exact this
theorem Translations.field_dil (hs : s ≠ 0) (m : Translations d n) : Dil s s m.field (m.dilate s).field := dil_f0 m.gd m.ctrl m.σ hs m.r
theorem Translations.geodesic_dil (hs : s ≠ 0) (m : Translations d n) (man : Mfd d) :
    (m.dilate s).geodesic (man.dilate s) = (m.geodesic man).map (Translations.dilate s) := by
  unfold Translations.geodesic
  rw [show (m.dilate s).σ = s * m.σ from rfl, show (m.dilate s).r = m.r from rfl, show (m.dilate s).gd = fun i c => s * m.gd i c from rfl,
    kXX_dil hs]
  have e : (fun i j => keopsGauss (s * m.σ) (fun c => s * m.gd i c) (fun c => s * m.gd j c)) = fun i j => keopsGauss m.σ (m.gd i) (m.gd j) :=
    funext fun i => funext fun j => keopsGauss_dil hs m.σ (m.gd i) (m.gd j)
  rw [e]
  rcases cotToVs_dil hs m.σ m.r man with ⟨e, h1, h2⟩ | ⟨vs, vs', h1, h2, h3⟩
  · rw [h1, h2]; rfl
  · rw [h1, h2]
    dsimp only
    rw [h3.values]
    cases vs.values m.gd with
    | error e => rfl
    | ok V =>
      cases m.r with
      | torch =>
        dsimp only [Except.map]
        rw [linSolveCols_scale]
        cases linSolveCols (Matrix.of (kXX m.σ m.gd)) V <;> rfl
      | keops =>
        dsimp only [Except.map]
        rw [keopsSolveCols_scale]
        cases keopsSolveCols (Matrix.of fun i j => keopsGauss m.σ (m.gd i) (m.gd j)) V <;> rfl

def Implicit0.dilate (s : ℝ) (m : Implicit0 d n) : Implicit0 d n :=
  ⟨m.r, fun i c => s * m.gd i c, fun i c => s * m.cot i c, s * m.σ, m.ν, m.coeff, fun i c => s * m.ctrl i c⟩
theorem Implicit0.cost_dil (hs : s ≠ 0) (m : Implicit0 d n) : (m.dilate s).cost = s ^ 2 * m.cost := by
  unfold Implicit0.cost Implicit0.dilate
  cases m.r with
  | torch =>
    dsimp only
    rw [kXX_dil hs]
    have := Implicit0.cost_scale s { m with r := .torch }
    unfold Implicit0.cost Implicit0.scale at this
    exact this
  | keops =>
    dsimp only
    have e : ∀ i j, keopsGauss0 (s * m.σ) (fun c => s * m.gd i c) (fun c => s * m.gd j c) = keopsGauss0 m.σ (m.gd i) (m.gd j) := fun i j =>
      keopsGauss0_dil hs m.σ (m.gd i) (m.gd j)
    simp only [e]
    have := Implicit0.cost_scale s { m with r := .keops }
    unfold Implicit0.cost Implicit0.scale at this
    exact this
theorem Implicit0.field_dil (hs : s ≠ 0) (m : Implicit0 d n) : Dil s s m.field (m.dilate s).field := dil_f0 m.gd m.ctrl m.σ hs m.r
theorem Implicit0.geodesic_dil (hs : s ≠ 0) (m : Implicit0 d n) (man : Mfd d) :
    (m.dilate s).geodesic (man.dilate s) = (m.geodesic man).map (Implicit0.dilate s) := by
  unfold Implicit0.geodesic
  rw [show (m.dilate s).σ = s * m.σ from rfl, show (m.dilate s).r = m.r from rfl, show (m.dilate s).gd = fun i c => s * m.gd i c from rfl,
    show (m.dilate s).ν = m.ν from rfl, show (m.dilate s).coeff = m.coeff from rfl, kXX_dil hs]
  have e : (fun i j => keopsGauss0 (s * m.σ) (fun c => s * m.gd i c) (fun c => s * m.gd j c)) = fun i j => keopsGauss0 m.σ (m.gd i) (m.gd j) :=
    funext fun i => funext fun j => keopsGauss0_dil hs m.σ (m.gd i) (m.gd j)
  rw [e]
  have hc : ∀ c : Fin n → Vec d, (fun i b => scV s c i b / m.coeff) = scV s fun i b => c i b / m.coeff := fun c => by
    funext i b; exact mul_div_assoc _ _ _
  rcases cotToVs_dil hs m.σ m.r man with ⟨e, h1, h2⟩ | ⟨vs, vs', h1, h2, h3⟩
  · rw [h1, h2]; rfl
  · rw [h1, h2]
    dsimp only
    rw [h3.values]
    cases vs.values m.gd with
    | error e => rfl
    | ok V =>
      cases m.r with
      | torch =>
        dsimp only [Except.map]
        rw [linSolveCols_scale]
        cases linSolveCols (Matrix.of (kXX m.σ m.gd) + m.ν • (1 : Matrix (Fin n) (Fin n) ℝ)) V with
        | error e => rfl
        | ok c =>
          dsimp only [Except.map]
          cases tdiv 1 m.coeff with
          | error e => rfl
          | ok x => dsimp only; rw [hc]; rfl
      | keops =>
        dsimp only [Except.map]
        rw [keopsSolveCols_scale]
        cases keopsSolveCols (Matrix.of (fun i j => keopsGauss0 m.σ (m.gd i) (m.gd j)) + m.ν • (1 : Matrix (Fin n) (Fin n) ℝ)) V with
        | error e => rfl
        | ok c =>
          dsimp only [Except.map]
          cases tdiv 1 m.coeff with
          | error e => rfl
          | ok x => dsimp only; rw [hc]; rfl

/-! ## Oriented and constrained translations -/

def Oriented.dilate (s : ℝ) (m : Oriented d n) : Oriented d n := ⟨m.t, fun i c => s * m.gd i c, m.dir, fun i c => s * m.cot i c,
  fun i c => s ^ 2 * m.cdir i c, s * m.σ, m.coeff, fun i => s * m.ctrl i⟩
theorem Oriented.vectors_dil (m : Oriented d n) : (m.dilate s).vectors = scV s m.vectors := by
  funext i c; simp only [Oriented.vectors, Oriented.dilate, scV, mul_assoc]
theorem Oriented.cost_dil (hs : s ≠ 0) (m : Oriented d n) : (m.dilate s).cost = s ^ 2 * m.cost := by
  unfold Oriented.cost
  rw [m.vectors_dil, show (m.dilate s).σ = s * m.σ from rfl, show (m.dilate s).gd = fun i c => s * m.gd i c from rfl,
    show (m.dilate s).coeff = m.coeff from rfl, kXX_dil hs, kMul_scale, dotFlat_scale_right]
  unfold scV
  rw [dotFlat_scale_left]; ring
theorem Oriented.field_dil (hs : s ≠ 0) (m : Oriented d n) : Dil s s m.field (m.dilate s).field := by
  unfold Oriented.field; rw [m.vectors_dil]; exact dil_f0 m.gd m.vectors m.σ hs .torch
theorem Oriented.geodesic_dil (hs : s ≠ 0) (m : Oriented d n) (man : Mfd d) :
    (m.dilate s).geodesic (man.dilate s) = (m.geodesic man).map (Oriented.dilate s) := by
  unfold Oriented.geodesic
  rw [show (m.dilate s).σ = s * m.σ from rfl, show (m.dilate s).gd = fun i c => s * m.gd i c from rfl, show (m.dilate s).dir = m.dir from rfl,
    show (m.dilate s).coeff = m.coeff from rfl, kXX_dil hs]
  rcases cotToVs_dil hs m.σ .torch man with ⟨e, h1, h2⟩ | ⟨vs, vs', h1, h2, h3⟩
  · rw [h1, h2]; rfl
  · rw [h1, h2]
    dsimp only
    rw [h3.values]
    cases vs.values m.gd with
    | error e => rfl
    | ok V =>
      dsimp only [Except.map]
      have e : (fun i => ∑ c, scV s V i c * m.dir i c) = scR s fun i => ∑ c, V i c * m.dir i c := by
        funext i; simp only [scV, scR, Finset.mul_sum, mul_assoc]
      rw [e, linSolve_scale]
      cases linSolve (Matrix.of fun i j => kXX m.σ m.gd i j * ∑ c, m.dir i c * m.dir j c) (fun i => ∑ c, V i c * m.dir i c) with
      | error e => rfl
      | ok c =>
        dsimp only [Except.map]
        cases tdiv 1 m.coeff with
        | error e => rfl
        | ok x =>
          dsimp only
          have e : (fun i => scR s c i / m.coeff) = scR s fun i => c i / m.coeff := by funext i; exact mul_div_assoc _ _ _
          rw [e]; rfl

section
variable {p : Nat}
def Constrained.dilate (s : ℝ) (m : Constrained d n p) : Constrained d n p := ⟨fun i c => s * m.gd i c, fun i c => s * m.cot i c, s * m.σ, m.coeff,
  fun g i c => s * m.fsupp (fun i c => s⁻¹ * g i c) i c, fun g => m.fvec fun i c => s⁻¹ * g i c, s * m.ctrl⟩
theorem gd_back (hs : s ≠ 0) (g : Fin n → Vec d) : (fun i c => s⁻¹ * (s * g i c)) = g := by
  funext i c; exact inv_mul_cancel_left₀ hs _
theorem Constrained.supp_dil (hs : s ≠ 0) (m : Constrained d n p) : (m.dilate s).fsupp (m.dilate s).gd = fun i c => s * m.fsupp m.gd i c := by
  show (fun i c => s * m.fsupp (fun i c => s⁻¹ * (s * m.gd i c)) i c) = _
  rw [gd_back hs]
theorem Constrained.vec_dil (hs : s ≠ 0) (m : Constrained d n p) : (m.dilate s).fvec (m.dilate s).gd = m.fvec m.gd := by
  show (m.fvec fun i c => s⁻¹ * (s * m.gd i c)) = _
  rw [gd_back hs]
theorem Constrained.energy_dil (hs : s ≠ 0) (m : Constrained d n p) : (m.dilate s).energy = m.energy := by
  unfold Constrained.energy
  rw [m.supp_dil hs, m.vec_dil hs, show (m.dilate s).σ = s * m.σ from rfl, kXX_dil hs]
theorem Constrained.cost_dil (hs : s ≠ 0) (m : Constrained d n p) : (m.dilate s).cost = s ^ 2 * m.cost := by
  unfold Constrained.cost
  rw [m.energy_dil hs, show (m.dilate s).coeff = m.coeff from rfl, show (m.dilate s).ctrl = s * m.ctrl from rfl]
  ring
theorem Constrained.field_dil (hs : s ≠ 0) (m : Constrained d n p) : Dil s s m.field (m.dilate s).field := by
  unfold Constrained.field
  rw [m.supp_dil hs, m.vec_dil hs, show (m.dilate s).σ = s * m.σ from rfl, show (m.dilate s).ctrl = s * m.ctrl from rfl]
  simp only [mul_assoc s]
  exact dil_f0 (m.fsupp m.gd) (fun i c => m.ctrl * m.fvec m.gd i c) m.σ hs .torch
theorem Constrained.geodesic_dil (hs : s ≠ 0) (m : Constrained d n p) (man : Mfd d) :
    (m.dilate s).geodesic (man.dilate s) = (m.geodesic man).map (Constrained.dilate s) := by
  unfold Constrained.geodesic
  rw [m.supp_dil hs, m.vec_dil hs, m.energy_dil hs, show (m.dilate s).σ = s * m.σ from rfl, show (m.dilate s).coeff = m.coeff from rfl]
  have hd : Dil s 1 (.f0 .torch (m.fsupp m.gd) (m.fvec m.gd) m.σ) (.f0 .torch (fun i c => s * m.fsupp m.gd i c) (m.fvec m.gd) (s * m.σ)) := by
    have := dil_f0 (c := 1) (m.fsupp m.gd) (m.fvec m.gd) m.σ hs .torch
    simpa only [one_mul] using this
  rw [innerProd_dil hs hd, mul_one]
  cases man.innerProd (.f0 .torch (m.fsupp m.gd) (m.fvec m.gd) m.σ) with
  | error e => rfl
  | ok x =>
    dsimp only [Except.map]
    rw [tdiv_scale]
    cases tdiv x (m.coeff * m.energy) <;> rfl
end
end

/-! ## Global translations and linear deformations -/

def GlobalTranslation.dilate (s : ℝ) (m : GlobalTranslation d) : GlobalTranslation d := ⟨m.coeff, fun c => s * m.ctrl c⟩
theorem GlobalTranslation.cost_dil (m : GlobalTranslation d) : (m.dilate s).cost = s ^ 2 * m.cost := m.cost_scale s
theorem GlobalTranslation.field_dil (m : GlobalTranslation d) : Dil s s m.field (m.dilate s).field := dil_const m.ctrl
theorem GlobalTranslation.geodesic_dil (hs : s ≠ 0) (m : GlobalTranslation d) (man : Mfd d) :
    (m.dilate s).geodesic (man.dilate s) = (m.geodesic man).map (GlobalTranslation.dilate s) := by
  unfold GlobalTranslation.geodesic
  have e : (m.dilate s).entry (man.dilate s) = fun i => (m.entry man i).map (s * ·) := by
    funext i
    unfold GlobalTranslation.entry
    have hd : Dil s 1 (.const fun c : Fin d => if c = i then 1 else 0) (.const fun c => if c = i then 1 else 0) := by
      have := dil_const (s := s) (c := 1) fun c : Fin d => if c = i then (1 : ℝ) else 0
      simpa only [one_mul] using this
    rw [innerProd_dil hs hd, mul_one, show (m.dilate s).coeff = m.coeff from rfl]
    cases man.innerProd (.const fun c => if c = i then 1 else 0) with
    | error e => rfl
    | ok x => exact tdiv_scale s x m.coeff
  rw [e, collect_scale]
  cases collect (m.entry man) <;> rfl

def Linear.dilate (s : ℝ) (m : Linear d) : Linear d := ⟨m.A, fun c => s * m.gd c, fun c => s * m.cot c, s ^ 2 * m.coeff, m.ctrl⟩
theorem Linear.cost_dil (m : Linear d) : (m.dilate s).cost = s ^ 2 * m.cost := by
  unfold Linear.cost Linear.dilate; ring
theorem dil_affine0 (hs : s ≠ 0) (A : Mat d) (x0 : Vec d) : Dil s s (.affine A x0 0) (.affine A (fun b => s * x0 b) 0) := by
  have := dil_affine hs A x0 0
  rwa [show (fun b => s * (0 : Vec d) b) = 0 from funext fun _ => mul_zero s] at this
theorem Linear.field_dil (hs : s ≠ 0) (m : Linear d) : Dil s s m.field (m.dilate s).field := dil_affine0 hs (m.ctrl • m.A) m.gd
theorem tdiv_dil (hs : s ≠ 0) (x y : ℝ) : tdiv (s * s * x) (s ^ 2 * y) = tdiv x y := by
  unfold tdiv
  rw [show s * s = s ^ 2 by ring]
  by_cases h : y = 0
  · rw [if_pos h, if_pos (by rw [h, mul_zero])]
  · rw [if_neg h, if_neg (mul_ne_zero (pow_ne_zero 2 hs) h), mul_div_mul_left _ _ (pow_ne_zero 2 hs)]
theorem Linear.geodesic_dil (hs : s ≠ 0) (m : Linear d) (man : Mfd d) : (m.dilate s).geodesic (man.dilate s) = (m.geodesic man).map (Linear.dilate s) := by
  unfold Linear.geodesic
  rw [show (m.dilate s).A = m.A from rfl, show (m.dilate s).gd = fun b => s * m.gd b from rfl, show (m.dilate s).coeff = s ^ 2 * m.coeff from rfl,
    innerProd_dil hs (dil_affine0 hs m.A m.gd)]
  cases man.innerProd (.affine m.A m.gd 0) with
  | error e => rfl
  | ok x =>
    dsimp only [Except.map]
    rw [tdiv_dil hs]
    cases tdiv x m.coeff <;> rfl

/-! ## Solves with a matrix that changes its unit -/

section
variable {ι : Type} [Fintype ι] [DecidableEq ι]
theorem inv_smul_mat {c : ℝ} (hc : c ≠ 0) (A : Matrix ι ι ℝ) (hA : A.det ≠ 0) : (c • A)⁻¹ = c⁻¹ • A⁻¹ := by
  letI : Invertible c := invertibleOfNonzero hc
  have h := Matrix.inv_smul A c (Ne.isUnit hA)
  rwa [invOf_eq_inv] at h
theorem det_smul_eq_zero {c : ℝ} (hc : c ≠ 0) (A : Matrix ι ι ℝ) : (c • A).det = 0 ↔ A.det = 0 := by
  rw [Matrix.det_smul, mul_eq_zero, or_iff_right (pow_ne_zero _ hc)]
theorem linSolve_smulMat {c : ℝ} (hc : c ≠ 0) (A : Matrix ι ι ℝ) (b : ι → ℝ) : linSolve (c • A) b = (linSolve A b).map (scR c⁻¹) := by
  unfold linSolve
  by_cases h : A.det = 0
  · rw [if_pos h, if_pos ((det_smul_eq_zero hc A).2 h)]; rfl
  · rw [if_neg h, if_neg (mt (det_smul_eq_zero hc A).1 h), inv_smul_mat hc A h, Matrix.smul_mulVec]; rfl
theorem keopsSolve_smulMat {c : ℝ} (hc : c ≠ 0) (A : Matrix ι ι ℝ) (b : ι → ℝ) : keopsSolve (c • A) b = (keopsSolve A b).map (scR c⁻¹) := by
  unfold keopsSolve
  by_cases h : A.det = 0
  · rw [if_pos h, if_pos ((det_smul_eq_zero hc A).2 h)]; rfl
  · rw [if_neg h, if_neg (mt (det_smul_eq_zero hc A).1 h), inv_smul_mat hc A h, Matrix.smul_mulVec]; rfl
end

/-! ## Implicit modules of order 1 -/

section
variable {n p : Nat}
theorem computeSks1_dil (hs : s ≠ 0) (σ : ℝ) (x : Fin n → Vec d) : computeSks1 (s * σ) (fun i c => s * x i c) = s⁻¹ ^ 2 • computeSks1 σ x := by
  ext p q
  rw [Matrix.smul_apply, smul_eq_mul]
  simp only [computeSks1, Finset.mul_sum]
  refine Finset.sum_congr rfl fun i _ => Finset.sum_congr rfl fun j _ => ?_
  rw [show relDiff (fun c => s * x p.1 c) (fun c => s * x q.1 c) = scR s (relDiff (x p.1) (x q.1)) from relDiff_dil _ _, gaussRow2_dil hs]
  ring
theorem computeSks1Keops_dil (hs : s ≠ 0) (σ : ℝ) (x : Fin n → Vec d) :
    computeSks1Keops (s * σ) (fun i c => s * x i c) = s⁻¹ ^ 2 • computeSks1Keops σ x := by
  ext p q
  rw [Matrix.smul_apply, smul_eq_mul]
  simp only [computeSks1Keops, Finset.mul_sum]
  have hi : s⁻¹ * s = 1 := inv_mul_cancel₀ hs
  have hg : keopsGauss (s * σ) (fun c => s * x p.1 c) (fun c => s * x q.1 c) = keopsGauss σ (x p.1) (x q.1) := keopsGauss_dil hs σ _ _
  refine Finset.sum_congr rfl fun m _ => Finset.sum_congr rfl fun k _ => Finset.sum_congr rfl fun a _ => Finset.sum_congr rfl fun b _ => ?_
  rw [hg, scale_one_div hs]
  have e3 : s⁻¹ * s⁻¹ * (1 / σ / σ) * ((s * x p.1 m - s * x q.1 m) * (s * x p.1 k - s * x q.1 k))
      = 1 / σ / σ * ((x p.1 m - x q.1 m) * (x p.1 k - x q.1 k)) := by
    linear_combination (1 / σ / σ * ((x p.1 m - x q.1 m) * (x p.1 k - x q.1 k))) * (s⁻¹ * s + 1) * hi
  rw [e3]; ring

def Implicit1.dilate (s : ℝ) (m : Implicit1 d n p) : Implicit1 d n p := ⟨m.r, fun i c => s * m.gd i c, m.R, fun i c => s * m.cot i c,
  fun i b c => s ^ 2 * m.cR i b c, m.C, s * m.σ, m.ν / s ^ 2, m.coeff, m.ctrl,
  m.cache.map fun k => ⟨k.aqh, fun q => s ^ 2 * k.lambdas q, fun i b c => s ^ 2 * k.moments i b c⟩⟩
theorem Implicit1.aqh_dil (m : Implicit1 d n p) (h : Fin p → ℝ) : (m.dilate s).aqh h = m.aqh h := rfl
theorem Implicit1.sks_dil (hs : s ≠ 0) (m : Implicit1 d n p) : (m.dilate s).sks = s⁻¹ ^ 2 • m.sks := by
  unfold Implicit1.sks Implicit1.dilate
  have e : m.ν / s ^ 2 = s⁻¹ ^ 2 * m.ν := by rw [inv_pow, div_eq_inv_mul]
  cases m.r with
  | torch => dsimp only; rw [computeSks1_dil hs, smul_add, smul_smul, e]
  | keops => dsimp only; rw [computeSks1Keops_dil hs, smul_add, smul_smul, e]
theorem Implicit1.solve_dil (hs : s ≠ 0) (m : Implicit1 d n p) (b : Fin n × Fin (symDim d) → ℝ) :
    (m.dilate s).solve b = (m.solve b).map (scR (s ^ 2)) := by
  have hi : s⁻¹ ^ 2 ≠ 0 := pow_ne_zero 2 (inv_ne_zero hs)
  have e : (s⁻¹ ^ 2)⁻¹ = s ^ 2 := by rw [inv_pow, inv_inv]
  unfold Implicit1.solve
  rw [m.sks_dil hs, show (m.dilate s).r = m.r from rfl]
  cases m.r with
  | torch => dsimp only; rw [linSolve_smulMat hi, e]
  | keops => dsimp only; rw [keopsSolve_smulMat hi, e]
theorem Implicit1.computeMoments_dil (hs : s ≠ 0) (m : Implicit1 d n p) : (m.dilate s).computeMoments = m.computeMoments.map (Implicit1.dilate s) := by
  unfold Implicit1.computeMoments
  rw [m.aqh_dil, show (m.dilate s).ctrl = m.ctrl from rfl, m.solve_dil hs]
  cases m.solve (m.aqh m.ctrl) with
  | error e => rfl
  | ok l =>
    dsimp only [Except.map]
    refine congrArg Except.ok ?_
    unfold Implicit1.dilate
    simp only [Option.map_some]
    congr 3
    funext i b c
    simp only [scR, Matrix.of_apply, Finset.mul_sum, mul_assoc]
theorem Implicit1.fill_dil (hs : s ≠ 0) (m : Implicit1 d n p) (h : Fin p → ℝ) : (m.dilate s).fill h = (m.fill h).map (Implicit1.dilate s) :=
  Implicit1.computeMoments_dil hs { m with ctrl := h }
theorem Implicit1.aqkiaq_dil (hs : s ≠ 0) (m : Implicit1 d n p) : (m.dilate s).aqkiaq = m.aqkiaq.map (s ^ 2 • ·) := by
  unfold Implicit1.aqkiaq
  have ec : ∀ i, (m.dilate s).aqCol i = m.aqCol i := fun i => rfl
  simp only [m.solve_dil hs, ec]
  cases m.solve 0 with
  | error e =>
    dsimp only [Except.map]
    split_ifs
    · exact congrArg Except.ok (by ext i j; exact (mul_zero _).symm)
    · rfl
  | ok l0 =>
    dsimp only [Except.map]
    refine congrArg Except.ok ?_
    ext i j
    show _ = s ^ 2 * (match m.solve (m.aqCol i) with
      | .ok l => ∑ q, l q * m.aqCol j q
      | .error _ => 0)
    cases m.solve (m.aqCol i) with
    | error e => exact (mul_zero _).symm
    | ok l => exact dot_scR_left (s ^ 2) l (m.aqCol j)
theorem scR_inv {ι : Type} {c : ℝ} (hc : c ≠ 0) (x : ι → ℝ) : scR c⁻¹ (scR c x) = x := funext fun i => inv_mul_cancel_left₀ hc (x i)
theorem linSolve_both {ι : Type} [Fintype ι] [DecidableEq ι] {c : ℝ} (hc : c ≠ 0) (A : Matrix ι ι ℝ) (b : ι → ℝ) :
    linSolve (c • A) (scR c b) = linSolve A b := by
  rw [linSolve_smulMat hc, linSolve_scale]
  cases linSolve A b with
  | error e => rfl
  | ok x => exact congrArg Except.ok (scR_inv hc x)
theorem Implicit1.geodesic_dil (hs : s ≠ 0) (m : Implicit1 d n p) (man : Mfd d) :
    (m.dilate s).geodesic (man.dilate s) = (m.geodesic man).map (Implicit1.dilate s) := by
  unfold Implicit1.geodesic
  rw [show (m.dilate s).σ = s * m.σ from rfl, show (m.dilate s).r = m.r from rfl, show (m.dilate s).gd = fun i c => s * m.gd i c from rfl,
    show (m.dilate s).coeff = m.coeff from rfl, show (m.dilate s).aqCol = m.aqCol from rfl]
  have h2 : s ^ 2 ≠ 0 := pow_ne_zero 2 hs
  rcases cotToVs_dil hs m.σ m.r man with ⟨e, h1, h2⟩ | ⟨vs, vs', h1, h2, h3⟩
  · rw [h1, h2]; rfl
  · rw [h1, h2]
    dsimp only
    rw [h3.jacobians, mul_inv_cancel₀ hs]
    cases vs.jacobians m.gd with
    | error e => rfl
    | ok J =>
      dsimp only [Except.map]
      rw [scM_one, m.solve_dil hs]
      cases m.solve (strains J) with
      | error e => rfl
      | ok tl =>
        dsimp only [Except.map]
        cases tdiv 1 m.coeff with
        | error e => rfl
        | ok _ =>
          dsimp only
          rw [m.aqkiaq_dil hs]
          cases m.aqkiaq with
          | error e => rfl
          | ok Q =>
            dsimp only [Except.map]
            have hb : (fun i => ∑ q, m.aqCol i q * (scR (s ^ 2) tl q / m.coeff)) = scR (s ^ 2) fun i => ∑ q, m.aqCol i q * (tl q / m.coeff) := by
              funext i
              simp only [scR, Finset.mul_sum]
              exact Finset.sum_congr rfl fun _ _ => by ring
            rw [hb, linSolve_both (pow_ne_zero 2 hs)]
            cases linSolve Q (fun i => ∑ q, m.aqCol i q * (tl q / m.coeff)) with
            | error e => rfl
            | ok c =>
              dsimp only [Except.map]
              rw [m.fill_dil hs]
              cases m.fill c with
              | error e => rfl
              | ok m' =>
                cases m.r with
                | torch => exact m'.computeMoments_dil hs
                | keops => rfl
theorem Implicit1.cost_dil (m : Implicit1 d n p) : (m.dilate s).cost = m.cost.map (s ^ 2 * ·) := by
  unfold Implicit1.cost Implicit1.dilate
  cases m.cache with
  | none => rfl
  | some k =>
    simp only [Option.map_some]
    refine congrArg Except.ok ?_
    have := dot_scR_right (s ^ 2) k.aqh k.lambdas
    unfold scR at this
    rw [this]; ring
theorem Implicit1.field_dil (hs : s ≠ 0) (m : Implicit1 d n p) : DilPy s s m.field (m.dilate s).field := by
  unfold Implicit1.field Implicit1.dilate
  dsimp only
  cases m.cache with
  | none => exact .inl ⟨_, rfl, rfl⟩
  | some k => exact .inr ⟨_, _, rfl, rfl, dil_fp m.gd k.moments m.σ hs m.r fun j a b => by ring⟩
end

/-! ## Divergence-free and as-rigid-as-possible modules -/

section
variable {N P : Nat}
def DivFree.dilate (s : ℝ) (m : DivFree d N P) : DivFree d N P := ⟨fun i c => s * m.gd i c, fun i c => s * m.cot i c, s * m.σ, s * m.coeffDiv,
  m.ν, m.coeff, fun i c => s * m.ctrl i c, m.lambdas.map fun l q => s * l q⟩
theorem DivFree.SKS_dil (hs : s ≠ 0) (m : DivFree d N P) : (m.dilate s).SKS = m.SKS := by
  have hi : s⁻¹ * s = 1 := inv_mul_cancel₀ hs
  have e1 : (m.dilate s).S1 = m.S1 := by
    ext i j
    simp only [DivFree.S1, Finset.mul_sum]
    refine Finset.sum_congr rfl fun k _ => ?_
    rw [show relDiff ((m.dilate s).X i) ((m.dilate s).X j) = scR s (relDiff (m.X i) (m.X j)) from relDiff_dil _ _,
      show (m.dilate s).σ = s * m.σ from rfl, show (m.dilate s).coeffDiv = s * m.coeffDiv from rfl, gaussRow2_dil hs]
    linear_combination (m.coeffDiv ^ 2 * -gaussRow2 m.σ (relDiff (m.X i) (m.X j)) k k) * (s⁻¹ * s + 1) * hi
  have e2 : (m.dilate s).S2 = m.S2 := by
    ext i j
    unfold DivFree.S2
    rw [show kXX (m.dilate s).σ (m.dilate s).Y = kXX m.σ m.Y from kXX_dil hs m.σ m.Y]
  have e3 : (m.dilate s).T = m.T := by
    ext i j
    unfold DivFree.T
    rw [show relDiff ((m.dilate s).X i) ((m.dilate s).Y j.1) = scR s (relDiff (m.X i) (m.Y j.1)) from relDiff_dil _ _,
      show (m.dilate s).σ = s * m.σ from rfl, show (m.dilate s).coeffDiv = s * m.coeffDiv from rfl, gaussRow1_dil hs]
    linear_combination (m.coeffDiv * gaussRow1 m.σ (relDiff (m.X i) (m.Y j.1)) j.2) * hi
  unfold DivFree.SKS
  rw [e1, e2, e3]; rfl
theorem DivFree.computeMoments_dil (hs : s ≠ 0) (m : DivFree d N P) : (m.dilate s).computeMoments = m.computeMoments.map (DivFree.dilate s) := by
  unfold DivFree.computeMoments
  rw [m.SKS_dil hs, show (m.dilate s).ctrl = scV s m.ctrl from rfl, zeroThen_scale, linSolve_scale]
  cases linSolve m.SKS (zeroThen m.ctrl) <;> rfl
theorem DivFree.fill_dil (hs : s ≠ 0) (m : DivFree d N P) (h : Fin P → Vec d) : (m.dilate s).fill (scV s h) = (m.fill h).map (DivFree.dilate s) :=
  DivFree.computeMoments_dil hs { m with ctrl := h }
theorem DivFree.cost_dil (m : DivFree d N P) : (m.dilate s).cost = m.cost.map (s ^ 2 * ·) := by
  have := m.cost_scale s
  exact this
theorem DivFree.field_dil (hs : s ≠ 0) (m : DivFree d N P) : DilPy s s m.field (m.dilate s).field := by
  unfold DivFree.field
  rw [show (m.dilate s).lambdas = m.lambdas.map (scR s) from rfl]
  cases m.lambdas with
  | none => exact .inl ⟨_, rfl, rfl⟩
  | some l =>
    dsimp only [Option.map_some]
    refine dilPy_mkSum (.cons (dil_f0 m.Y (fun j c => l (.inr (j, c))) m.σ hs .torch) (.cons (dil_f1 m.X _ m.σ hs .torch fun j => ?_) .nil))
    show s * m.coeffDiv * (s * l (.inl j)) = _
    ring
theorem DivFree.geodesic_dil (hs : s ≠ 0) (m : DivFree d N P) (man : Mfd d) :
    (m.dilate s).geodesic (man.dilate s) = (m.geodesic man).map (DivFree.dilate s) := by
  unfold DivFree.geodesic
  rw [m.SKS_dil hs, show (m.dilate s).σ = s * m.σ from rfl, show (m.dilate s).X = fun i c => s * m.X i c from rfl,
    show (m.dilate s).Y = fun i c => s * m.Y i c from rfl, show (m.dilate s).coeff = m.coeff from rfl,
    show (m.dilate s).coeffDiv = s * m.coeffDiv from rfl]
  rcases cotToVs_dil hs m.σ .torch man with ⟨e, h1, h2⟩ | ⟨vs, vs', h1, h2, h3⟩
  · rw [h1, h2]; rfl
  · rw [h1, h2]
    dsimp only
    rw [h3.jacobians, h3.values, mul_inv_cancel₀ hs]
    cases vs.jacobians m.X with
    | error e => rfl
    | ok J =>
      cases vs.values m.Y with
      | error e => rfl
      | ok V =>
        dsimp only [Except.map]
        have e1 : (fun i => s * m.coeffDiv * ∑ k, scM 1 J i k k) = scR s fun i => m.coeffDiv * ∑ k, J i k k := by
          rw [scM_one]; funext i; simp only [scR, mul_assoc]
        rw [e1, linSolve_scale]
        cases linSolve m.SKS.toBlocks₁₁ (fun i => m.coeffDiv * ∑ k, J i k k) with
        | error e => rfl
        | ok h =>
          dsimp only [Except.map]
          by_cases hc : m.coeff = 0
          · rw [if_pos hc, if_pos hc]
          · rw [if_neg hc, if_neg hc]
            have e2 : (fun j c => 1 / m.coeff * (-(m.SKS.toBlocks₂₁ *ᵥ scR s h) (j, c) + scV s V j c))
                = scV s fun j c => 1 / m.coeff * (-(m.SKS.toBlocks₂₁ *ᵥ h) (j, c) + V j c) := by
              rw [mulVec_scR]; funext j c; simp only [scV, scR]; ring
            rw [e2, m.fill_dil hs]
            cases m.fill (fun j c => 1 / m.coeff * (-(m.SKS.toBlocks₂₁ *ᵥ h) (j, c) + V j c)) with
            | error e => rfl
            | ok m' => exact m'.computeMoments_dil hs

def Arap.dilate (s : ℝ) (m : Arap d N P) : Arap d N P := ⟨fun i c => s * m.gd i c, fun i c => s * m.cot i c, s * m.σ, s * m.coeffArap,
  m.ν, m.coeff, fun i c => s * m.ctrl i c, m.lambdas.map fun l q => s * l q⟩
theorem Arap.SKS_dil (hs : s ≠ 0) (m : Arap d N P) : (m.dilate s).SKS = m.SKS := by
  have hi : s⁻¹ * s = 1 := inv_mul_cancel₀ hs
  have e1 : (m.dilate s).S1 = m.S1 := by
    ext i j
    unfold Arap.S1
    rw [show computeSks1 (m.dilate s).σ (m.dilate s).X = s⁻¹ ^ 2 • computeSks1 m.σ m.X from computeSks1_dil hs m.σ m.X,
      show (m.dilate s).coeffArap = s * m.coeffArap from rfl, Matrix.smul_apply, smul_eq_mul]
    linear_combination (m.coeffArap ^ 2 * computeSks1 m.σ m.X i j) * (s⁻¹ * s + 1) * hi
  have e2 : (m.dilate s).S2 = m.S2 := by
    ext i j
    unfold Arap.S2
    rw [show kXX (m.dilate s).σ (m.dilate s).Y = kXX m.σ m.Y from kXX_dil hs m.σ m.Y]
  have e3 : (m.dilate s).T = m.T := by
    ext i j
    simp only [Arap.T, Finset.mul_sum]
    refine Finset.sum_congr rfl fun k _ => Finset.sum_congr rfl fun l _ => ?_
    rw [show relDiff ((m.dilate s).X i.1) ((m.dilate s).Y j.1) = scR s (relDiff (m.X i.1) (m.Y j.1)) from relDiff_dil _ _,
      show (m.dilate s).σ = s * m.σ from rfl, show (m.dilate s).coeffArap = s * m.coeffArap from rfl, gaussRow1_dil hs, gaussRow1_dil hs]
    linear_combination (m.coeffArap * (0.5 * (gaussRow1 m.σ (relDiff (m.X i.1) (m.Y j.1)) k * eye j.2 l
      + gaussRow1 m.σ (relDiff (m.X i.1) (m.Y j.1)) l * eye j.2 k) * etaOf d k l i.2)) * hi
  unfold Arap.SKS
  rw [e1, e2, e3]; rfl
theorem Arap.computeMoments_dil (hs : s ≠ 0) (m : Arap d N P) : (m.dilate s).computeMoments = m.computeMoments.map (Arap.dilate s) := by
  unfold Arap.computeMoments
  rw [m.SKS_dil hs, show (m.dilate s).ctrl = scV s m.ctrl from rfl, zeroThen_scale, linSolve_scale]
  cases linSolve m.SKS (zeroThen m.ctrl) <;> rfl
theorem Arap.fill_dil (hs : s ≠ 0) (m : Arap d N P) (h : Fin P → Vec d) : (m.dilate s).fill (scV s h) = (m.fill h).map (Arap.dilate s) :=
  Arap.computeMoments_dil hs { m with ctrl := h }
theorem Arap.cost_dil (m : Arap d N P) : (m.dilate s).cost = m.cost.map (s ^ 2 * ·) := by
  have := m.cost_scale s
  exact this
theorem Arap.field_dil (hs : s ≠ 0) (m : Arap d N P) : DilPy s s m.field (m.dilate s).field := by
  unfold Arap.field
  rw [show (m.dilate s).lambdas = m.lambdas.map (scR s) from rfl]
  cases m.lambdas with
  | none => exact .inl ⟨_, rfl, rfl⟩
  | some l =>
    dsimp only [Option.map_some]
    refine dilPy_mkSum (.cons (dil_f0 m.Y (fun j c => l (.inr (j, c))) m.σ hs .torch) (.cons (dil_fp m.X _ m.σ hs .torch fun j a b => ?_) .nil))
    show s * m.coeffArap * ∑ t, s * l (.inl (j, t)) * etaOf d b a t = s * s * (m.coeffArap * ∑ t, l (.inl (j, t)) * etaOf d b a t)
    simp only [Finset.mul_sum]
    exact Finset.sum_congr rfl fun t _ => by ring
theorem Arap.geodesic_dil (hs : s ≠ 0) (m : Arap d N P) (man : Mfd d) : (m.dilate s).geodesic (man.dilate s) = (m.geodesic man).map (Arap.dilate s) := by
  unfold Arap.geodesic
  rw [m.SKS_dil hs, show (m.dilate s).σ = s * m.σ from rfl, show (m.dilate s).X = fun i c => s * m.X i c from rfl,
    show (m.dilate s).Y = fun i c => s * m.Y i c from rfl, show (m.dilate s).coeff = m.coeff from rfl,
    show (m.dilate s).coeffArap = s * m.coeffArap from rfl]
  rcases cotToVs_dil hs m.σ .torch man with ⟨e, h1, h2⟩ | ⟨vs, vs', h1, h2, h3⟩
  · rw [h1, h2]; rfl
  · rw [h1, h2]
    dsimp only
    rw [h3.jacobians, h3.values, mul_inv_cancel₀ hs]
    cases vs.jacobians m.X with
    | error e => rfl
    | ok J =>
      cases vs.values m.Y with
      | error e => rfl
      | ok V =>
        dsimp only [Except.map]
        have e1 : strains (fun i => (s * m.coeffArap) • scM 1 J i) = scR s (strains fun i => m.coeffArap • J i) := by
          rw [← strains_scale, scM_one]
          congr 1
          funext i b c
          exact mul_assoc _ _ _
        rw [e1, linSolve_scale]
        cases linSolve m.SKS.toBlocks₁₁ (strains fun i => m.coeffArap • J i) with
        | error e => rfl
        | ok h =>
          dsimp only [Except.map]
          by_cases hc : m.coeff = 0
          · rw [if_pos hc, if_pos hc]
          · rw [if_neg hc, if_neg hc]
            have e2 : (fun j c => 1 / m.coeff * (-(m.SKS.toBlocks₂₁ *ᵥ scR s h) (j, c) + scV s V j c))
                = scV s fun j c => 1 / m.coeff * (-(m.SKS.toBlocks₂₁ *ᵥ h) (j, c) + V j c) := by
              rw [mulVec_scR]; funext j c; simp only [scV, scR]; ring
            rw [e2, m.fill_dil hs]
            cases m.fill (fun j c => 1 / m.coeff * (-(m.SKS.toBlocks₂₁ *ᵥ h) (j, c) + V j c)) with
            | error e => rfl
            | ok m' => exact m'.computeMoments_dil hs
end

end
end Imodal
