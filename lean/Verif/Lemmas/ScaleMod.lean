import Verif.Lemmas.ScaleField
import Verif.Lemmas.Reset
/-!
# Scaling momenta and controls of modules
-/
set_option autoImplicit false
namespace Imodal
noncomputable section
open Matrix
variable {d : Nat} (a : ℝ)

/-- An array of numbers multiplied. -/
def scR {ι : Type} (b : ι → ℝ) : ι → ℝ := fun i => a * b i

section
variable {ι : Type} [Fintype ι] [DecidableEq ι]
theorem mulVec_scR {κ : Type} (M : Matrix κ ι ℝ) (b : ι → ℝ) : M *ᵥ scR a b = scR a (M *ᵥ b) := Matrix.mulVec_smul M a b
theorem linSolve_scale (A : Matrix ι ι ℝ) (b : ι → ℝ) : linSolve A (scR a b) = (linSolve A b).map (scR a) := by
  unfold linSolve; split_ifs
  · rfl
  · exact congrArg Except.ok (mulVec_scR a _ b)
theorem keopsSolve_scale (A : Matrix ι ι ℝ) (b : ι → ℝ) : keopsSolve A (scR a b) = (keopsSolve A b).map (scR a) := by
  unfold keopsSolve; split_ifs
  · rfl
  · exact congrArg Except.ok (mulVec_scR a _ b)
theorem dot_scR_left (u v : ι → ℝ) : ∑ q, scR a u q * v q = a * ∑ q, u q * v q := by
  simp only [scR, Finset.mul_sum, mul_assoc]
theorem dot_scR_right (u v : ι → ℝ) : ∑ q, u q * scR a v q = a * ∑ q, u q * v q := by
  simp only [scR, Finset.mul_sum]; exact Finset.sum_congr rfl fun _ _ => by ring
end
section
variable {n : Nat}
theorem linSolveCols_scale (A : Matrix (Fin n) (Fin n) ℝ) (B : Fin n → Vec d) : linSolveCols A (scV a B) = (linSolveCols A B).map (scV a) := by
  unfold linSolveCols; split_ifs
  · rfl
  · exact congrArg Except.ok (funext fun i => funext fun c => congrFun (mulVec_scR a A⁻¹ fun j => B j c) i)
theorem keopsSolveCols_scale (A : Matrix (Fin n) (Fin n) ℝ) (B : Fin n → Vec d) : keopsSolveCols A (scV a B) = (keopsSolveCols A B).map (scV a) := by
  unfold keopsSolveCols; split_ifs
  · rfl
  · exact congrArg Except.ok (funext fun i => funext fun c => congrFun (mulVec_scR a A⁻¹ fun j => B j c) i)
theorem kMul_scale (K : Fin n → Fin n → ℝ) (P : Fin n → Vec d) : kMul K (scV a P) = scV a (kMul K P) := by
  funext i c
  simp only [kMul, scV, Finset.mul_sum]
  exact Finset.sum_congr rfl fun _ _ => by ring
theorem tdiv_scale (x y : ℝ) : tdiv (a * x) y = (tdiv x y).map (a * ·) := by
  unfold tdiv; split_ifs
  · rfl
  · exact congrArg Except.ok (mul_div_assoc a x y)

/-! ## Translations and implicit modules of order 0 -/

def Translations.scale (m : Translations d n) : Translations d n := { m with cot := scV a m.cot, ctrl := scV a m.ctrl }
theorem Translations.cost_scale (m : Translations d n) : (m.scale a).cost = a ^ 2 * m.cost := by
  unfold Translations.cost Translations.scale
  cases m.r with
  | torch =>
    dsimp only
    rw [kMul_scale]
    unfold scV
    rw [dotFlat_scale_left]
    have := dotFlat_scale_right a (kMul (kXX m.σ m.gd) m.ctrl) m.ctrl
    unfold scV at this
    rw [this]; ring
  | keops =>
    dsimp only
    simp only [scV, Finset.mul_sum, Finset.sum_div]
    exact Finset.sum_congr rfl fun _ _ => Finset.sum_congr rfl fun _ _ => Finset.sum_congr rfl fun _ _ => by ring
theorem Translations.field_scale (m : Translations d n) : (m.scale a).field = m.field.scale a := by
  unfold Translations.field Translations.scale; rw [FieldExpr.scale]; rfl
theorem Translations.geodesic_scale (m : Translations d n) (man : Mfd d) :
    (m.scale a).geodesic (man.scale a) = (m.geodesic man).map (Translations.scale a) := by
  unfold Translations.geodesic
  rw [show (m.scale a).σ = m.σ from rfl, show (m.scale a).r = m.r from rfl, show (m.scale a).gd = m.gd from rfl]
  rcases cotToVs_scale a m.σ m.r man with ⟨e, h1, h2⟩ | ⟨vs, vs', h1, h2, h3⟩
  · rw [h1, h2]; rfl
  · rw [h1, h2]
    dsimp only
    rw [h3.values]
    cases vs.values m.gd with
    | error e => rfl
    | ok V =>
      cases m.r with
      | torch =>
        dsimp only [Except.map]
        rw [linSolveCols_scale]
        cases linSolveCols (Matrix.of (kXX m.σ m.gd)) V <;> rfl
      | keops =>
        dsimp only [Except.map]
        rw [keopsSolveCols_scale]
        cases keopsSolveCols (Matrix.of fun i j => keopsGauss m.σ (m.gd i) (m.gd j)) V <;> rfl

def Implicit0.scale (m : Implicit0 d n) : Implicit0 d n := { m with cot := scV a m.cot, ctrl := scV a m.ctrl }
theorem Implicit0.cost_scale (m : Implicit0 d n) : (m.scale a).cost = a ^ 2 * m.cost := by
  unfold Implicit0.cost Implicit0.scale
  cases m.r with
  | torch =>
    dsimp only
    rw [kMul_scale]
    have e : (fun i c => scV a (kMul (kXX m.σ m.gd) m.ctrl) i c + m.ν * scV a m.ctrl i c)
        = fun i c => a * (fun i c => kMul (kXX m.σ m.gd) m.ctrl i c + m.ν * m.ctrl i c : Fin n → Vec d) i c := by
      funext i c; simp only [scV]; ring
    rw [e, dotFlat_scale_left, dotFlat_scale_right]; ring
  | keops =>
    dsimp only
    have e1 : ∀ j i c, keopsGauss0 m.σ (m.gd i) (m.gd j) * scV a m.ctrl i c * scV a m.ctrl j c
        = a ^ 2 * (keopsGauss0 m.σ (m.gd i) (m.gd j) * m.ctrl i c * m.ctrl j c) := fun j i c => by simp only [scV]; ring
    have e2 : ∀ i c, scV a m.ctrl i c ^ 2 = a ^ 2 * m.ctrl i c ^ 2 := fun i c => by simp only [scV]; ring
    simp only [e1, e2, ← Finset.mul_sum]
    ring
theorem Implicit0.field_scale (m : Implicit0 d n) : (m.scale a).field = m.field.scale a := by
  unfold Implicit0.field Implicit0.scale; rw [FieldExpr.scale]; rfl
theorem Implicit0.geodesic_scale (m : Implicit0 d n) (man : Mfd d) :
    (m.scale a).geodesic (man.scale a) = (m.geodesic man).map (Implicit0.scale a) := by
  unfold Implicit0.geodesic
  rw [show (m.scale a).σ = m.σ from rfl, show (m.scale a).r = m.r from rfl, show (m.scale a).gd = m.gd from rfl,
    show (m.scale a).ν = m.ν from rfl, show (m.scale a).coeff = m.coeff from rfl]
  have hc : ∀ c : Fin n → Vec d, (fun i b => scV a c i b / m.coeff) = scV a fun i b => c i b / m.coeff := fun c => by
    funext i b; exact mul_div_assoc _ _ _
  rcases cotToVs_scale a m.σ m.r man with ⟨e, h1, h2⟩ | ⟨vs, vs', h1, h2, h3⟩
  · rw [h1, h2]; rfl
  · rw [h1, h2]
    dsimp only
    rw [h3.values]
    cases vs.values m.gd with
    | error e => rfl
    | ok V =>
      cases m.r with
      | torch =>
        dsimp only [Except.map]
        rw [linSolveCols_scale]
        cases linSolveCols (Matrix.of (kXX m.σ m.gd) + m.ν • (1 : Matrix (Fin n) (Fin n) ℝ)) V with
        | error e => rfl
        | ok c =>
          dsimp only [Except.map]
          cases tdiv 1 m.coeff with
          | error e => rfl
          | ok x => dsimp only; rw [hc]; rfl
      | keops =>
        dsimp only [Except.map]
        rw [keopsSolveCols_scale]
        cases keopsSolveCols (Matrix.of (fun i j => keopsGauss0 m.σ (m.gd i) (m.gd j)) + m.ν • (1 : Matrix (Fin n) (Fin n) ℝ)) V with
        | error e => rfl
        | ok c =>
          dsimp only [Except.map]
          cases tdiv 1 m.coeff with
          | error e => rfl
          | ok x => dsimp only; rw [hc]; rfl

/-! ## Oriented and constrained translations -/

def Oriented.scale (m : Oriented d n) : Oriented d n := { m with cot := scV a m.cot, cdir := scV a m.cdir, ctrl := scR a m.ctrl }
theorem Oriented.vectors_scale (m : Oriented d n) : (m.scale a).vectors = scV a m.vectors := by
  funext i c; simp only [Oriented.vectors, Oriented.scale, scR, scV, mul_assoc]
theorem Oriented.cost_scale (m : Oriented d n) : (m.scale a).cost = a ^ 2 * m.cost := by
  unfold Oriented.cost
  rw [m.vectors_scale, show (m.scale a).σ = m.σ from rfl, show (m.scale a).gd = m.gd from rfl, show (m.scale a).coeff = m.coeff from rfl,
    kMul_scale, dotFlat_scale_right]
  unfold scV
  rw [dotFlat_scale_left]; ring
theorem Oriented.field_scale (m : Oriented d n) : (m.scale a).field = m.field.scale a := by
  unfold Oriented.field; rw [FieldExpr.scale, m.vectors_scale]; rfl
theorem Oriented.geodesic_scale (m : Oriented d n) (man : Mfd d) :
    (m.scale a).geodesic (man.scale a) = (m.geodesic man).map (Oriented.scale a) := by
  unfold Oriented.geodesic
  rw [show (m.scale a).σ = m.σ from rfl, show (m.scale a).gd = m.gd from rfl, show (m.scale a).dir = m.dir from rfl,
    show (m.scale a).coeff = m.coeff from rfl]
  rcases cotToVs_scale a m.σ .torch man with ⟨e, h1, h2⟩ | ⟨vs, vs', h1, h2, h3⟩
  · rw [h1, h2]; rfl
  · rw [h1, h2]
    dsimp only
    rw [h3.values]
    cases vs.values m.gd with
    | error e => rfl
    | ok V =>
      dsimp only [Except.map]
      have e : (fun i => ∑ c, scV a V i c * m.dir i c) = scR a fun i => ∑ c, V i c * m.dir i c := by
        funext i; simp only [scV, scR, Finset.mul_sum, mul_assoc]
      rw [e, linSolve_scale]
      cases linSolve (Matrix.of fun i j => kXX m.σ m.gd i j * ∑ c, m.dir i c * m.dir j c) (fun i => ∑ c, V i c * m.dir i c) with
      | error e => rfl
      | ok c =>
        dsimp only [Except.map]
        cases tdiv 1 m.coeff with
        | error e => rfl
        | ok x =>
          dsimp only
          have e : (fun i => scR a c i / m.coeff) = scR a fun i => c i / m.coeff := by funext i; exact mul_div_assoc _ _ _
          rw [e]; rfl

def Constrained.scale {p : Nat} (m : Constrained d n p) : Constrained d n p := { m with cot := scV a m.cot, ctrl := a * m.ctrl }
theorem Constrained.cost_scale {p : Nat} (m : Constrained d n p) : (m.scale a).cost = a ^ 2 * m.cost := by
  unfold Constrained.cost
  rw [show (m.scale a).coeff = m.coeff from rfl, show (m.scale a).energy = m.energy from rfl, show (m.scale a).ctrl = a * m.ctrl from rfl]
  ring
theorem Constrained.field_scale {p : Nat} (m : Constrained d n p) : (m.scale a).field = m.field.scale a := by
  unfold Constrained.field Constrained.scale; rw [FieldExpr.scale]; simp only [mul_assoc]
theorem Constrained.geodesic_scale {p : Nat} (m : Constrained d n p) (man : Mfd d) :
    (m.scale a).geodesic (man.scale a) = (m.geodesic man).map (Constrained.scale a) := by
  unfold Constrained.geodesic
  rw [show (m.scale a).σ = m.σ from rfl, show (m.scale a).gd = m.gd from rfl, show (m.scale a).fsupp = m.fsupp from rfl,
    show (m.scale a).fvec = m.fvec from rfl, show (m.scale a).coeff = m.coeff from rfl, show (m.scale a).energy = m.energy from rfl,
    innerProd_scaleCot]
  cases man.innerProd (.f0 .torch (m.fsupp m.gd) (m.fvec m.gd) m.σ) with
  | error e => rfl
  | ok x =>
    dsimp only [Except.map]
    rw [tdiv_scale]
    cases tdiv x (m.coeff * m.energy) <;> rfl
end

/-! ## Global translations and linear deformations -/

def GlobalTranslation.scale (m : GlobalTranslation d) : GlobalTranslation d := { m with ctrl := scR a m.ctrl }
theorem GlobalTranslation.cost_scale (m : GlobalTranslation d) : (m.scale a).cost = a ^ 2 * m.cost := by
  unfold GlobalTranslation.cost GlobalTranslation.scale
  dsimp only
  rw [dot_scR_left, dot_scR_right]; ring
theorem GlobalTranslation.field_scale (m : GlobalTranslation d) : (m.scale a).field = m.field.scale a := by
  unfold GlobalTranslation.field GlobalTranslation.scale; rw [FieldExpr.scale]; rfl
theorem collect_scale {n : Nat} (f : Fin n → Py ℝ) : collect (fun i => (f i).map (a * ·)) = (collect f).map (scR a) := by
  induction n with
  | zero => rw [collect, collect]; exact congrArg Except.ok (funext fun i => i.elim0)
  | succ n ih =>
    rw [collect, collect, ih fun i => f i.succ]
    cases f 0 with
    | error e => rfl
    | ok x =>
      cases collect (fun i : Fin n => f i.succ) with
      | error e => rfl
      | ok g =>
        dsimp only [Except.map]
        exact congrArg Except.ok (funext fun i => Fin.cases rfl (fun j => rfl) i)
theorem GlobalTranslation.geodesic_scale (m : GlobalTranslation d) (man : Mfd d) :
    (m.scale a).geodesic (man.scale a) = (m.geodesic man).map (GlobalTranslation.scale a) := by
  unfold GlobalTranslation.geodesic
  have e : (m.scale a).entry (man.scale a) = fun i => (m.entry man i).map (a * ·) := by
    funext i
    unfold GlobalTranslation.entry
    rw [innerProd_scaleCot, show (m.scale a).coeff = m.coeff from rfl]
    cases man.innerProd (.const fun c => if c = i then 1 else 0) with
    | error e => rfl
    | ok x => exact tdiv_scale a x m.coeff
  rw [e, collect_scale]
  cases collect (m.entry man) <;> rfl

def Linear.scale (m : Linear d) : Linear d := { m with cot := scR a m.cot, ctrl := a * m.ctrl }
theorem Linear.cost_scale (m : Linear d) : (m.scale a).cost = a ^ 2 * m.cost := by
  unfold Linear.cost Linear.scale; ring
theorem Linear.field_scale (m : Linear d) : (m.scale a).field = m.field.scale a := by
  unfold Linear.field Linear.scale; rw [FieldExpr.scale]
  dsimp only
  congr 1
  · rw [mul_smul]; rfl
  · exact funext fun c => (mul_zero a).symm
theorem Linear.geodesic_scale (m : Linear d) (man : Mfd d) : (m.scale a).geodesic (man.scale a) = (m.geodesic man).map (Linear.scale a) := by
  unfold Linear.geodesic
  rw [show (m.scale a).A = m.A from rfl, show (m.scale a).gd = m.gd from rfl, show (m.scale a).coeff = m.coeff from rfl, innerProd_scaleCot]
  cases man.innerProd (.affine m.A m.gd 0) with
  | error e => rfl
  | ok x =>
    dsimp only [Except.map]
    rw [tdiv_scale]
    cases tdiv x m.coeff <;> rfl

/-! ## Implicit modules of order 1 -/

section
variable {n p : Nat}
def Implicit1.scale (m : Implicit1 d n p) : Implicit1 d n p := { m with
  cot := scV a m.cot, cR := scM a m.cR, ctrl := scR a m.ctrl
  cache := m.cache.map fun k => ⟨scR a k.aqh, scR a k.lambdas, scM a k.moments⟩ }
theorem Implicit1.aqh_scale (m : Implicit1 d n p) (h : Fin p → ℝ) : m.aqh (scR a h) = scR a (m.aqh h) := by
  funext q
  simp only [Implicit1.aqh, scR, Finset.mul_sum]
  exact Finset.sum_congr rfl fun _ _ => Finset.sum_congr rfl fun _ _ => Finset.sum_congr rfl fun _ _ => Finset.sum_congr rfl fun _ _ =>
    Finset.sum_congr rfl fun _ _ => by ring
theorem Implicit1.solve_scale (m : Implicit1 d n p) (b : Fin n × Fin (symDim d) → ℝ) : m.solve (scR a b) = (m.solve b).map (scR a) := by
  unfold Implicit1.solve
  cases m.r with
  | torch => exact linSolve_scale a _ b
  | keops => exact keopsSolve_scale a _ b
theorem Implicit1.computeMoments_scale (m : Implicit1 d n p) : (m.scale a).computeMoments = m.computeMoments.map (Implicit1.scale a) := by
  unfold Implicit1.computeMoments
  have e : (m.scale a).aqh (m.scale a).ctrl = scR a (m.aqh m.ctrl) := m.aqh_scale a m.ctrl
  have e2 : ∀ b, (m.scale a).solve b = m.solve b := fun b => rfl
  rw [e, e2, m.solve_scale]
  cases m.solve (m.aqh m.ctrl) with
  | error e => rfl
  | ok l =>
    dsimp only [Except.map]
    refine congrArg Except.ok ?_
    unfold Implicit1.scale
    simp only [Option.map_some]
    congr 3
    funext i b c
    simp only [scM, scR, Matrix.of_apply, Finset.mul_sum, mul_assoc]
theorem Implicit1.fill_scale (m : Implicit1 d n p) (h : Fin p → ℝ) : (m.scale a).fill (scR a h) = (m.fill h).map (Implicit1.scale a) :=
  Implicit1.computeMoments_scale a { m with ctrl := h }
theorem strains_scale (J : Fin n → Mat d) : strains (scM a J) = scR a (strains J) := by
  funext q
  simp only [strains, scM, scR, Finset.mul_sum]
  exact Finset.sum_congr rfl fun _ _ => Finset.sum_congr rfl fun _ _ => by ring
theorem Implicit1.geodesic_scale (m : Implicit1 d n p) (man : Mfd d) :
    (m.scale a).geodesic (man.scale a) = (m.geodesic man).map (Implicit1.scale a) := by
  unfold Implicit1.geodesic
  rw [show (m.scale a).σ = m.σ from rfl, show (m.scale a).r = m.r from rfl, show (m.scale a).gd = m.gd from rfl,
    show (m.scale a).coeff = m.coeff from rfl, show (m.scale a).aqkiaq = m.aqkiaq from rfl, show (m.scale a).aqCol = m.aqCol from rfl]
  have es : ∀ b, (m.scale a).solve b = m.solve b := fun b => rfl
  rcases cotToVs_scale a m.σ m.r man with ⟨e, h1, h2⟩ | ⟨vs, vs', h1, h2, h3⟩
  · rw [h1, h2]; rfl
  · rw [h1, h2]
    dsimp only
    rw [h3.jacobians]
    cases vs.jacobians m.gd with
    | error e => rfl
    | ok J =>
      dsimp only [Except.map]
      rw [es, strains_scale, m.solve_scale]
      cases m.solve (strains J) with
      | error e => rfl
      | ok tl =>
        dsimp only [Except.map]
        cases tdiv 1 m.coeff with
        | error e => rfl
        | ok _ =>
          dsimp only
          cases m.aqkiaq with
          | error e => rfl
          | ok Q =>
            dsimp only
            have hb : (fun i => ∑ q, m.aqCol i q * (scR a tl q / m.coeff)) = scR a fun i => ∑ q, m.aqCol i q * (tl q / m.coeff) := by
              funext i
              simp only [scR, Finset.mul_sum]
              exact Finset.sum_congr rfl fun _ _ => by ring
            rw [hb, linSolve_scale]
            cases linSolve Q (fun i => ∑ q, m.aqCol i q * (tl q / m.coeff)) with
            | error e => rfl
            | ok c =>
              dsimp only [Except.map]
              rw [m.fill_scale]
              cases m.fill c with
              | error e => rfl
              | ok m' =>
                cases m.r with
                | torch => exact m'.computeMoments_scale a
                | keops => rfl
theorem Implicit1.cost_scale (m : Implicit1 d n p) : (m.scale a).cost = m.cost.map (a ^ 2 * ·) := by
  unfold Implicit1.cost Implicit1.scale
  cases m.cache with
  | none => rfl
  | some k =>
    simp only [Option.map_some]
    refine congrArg Except.ok ?_
    rw [dot_scR_left, dot_scR_right]; ring
theorem Implicit1.field_scale (m : Implicit1 d n p) : (m.scale a).field = m.field.map (FieldExpr.scale a) := by
  unfold Implicit1.field Implicit1.scale
  dsimp only
  cases m.cache with
  | none => rfl
  | some k =>
    dsimp only [Option.map_some, Except.map]
    rw [FieldExpr.scale]; rfl
end

/-! ## Divergence-free and as-rigid-as-possible modules -/

section
variable {N P : Nat}
theorem zeroThen_scale {κ : Type} (h : Fin P → Vec d) : (zeroThen (scV a h) : κ ⊕ Fin P × Fin d → ℝ) = scR a (zeroThen h) := by
  funext q
  cases q with
  | inl i => exact (mul_zero a).symm
  | inr i => rfl

def DivFree.scale (m : DivFree d N P) : DivFree d N P := { m with cot := scV a m.cot, ctrl := scV a m.ctrl, lambdas := m.lambdas.map (scR a) }
theorem DivFree.computeMoments_scale (m : DivFree d N P) : (m.scale a).computeMoments = m.computeMoments.map (DivFree.scale a) := by
  unfold DivFree.computeMoments
  rw [show (m.scale a).SKS = m.SKS from rfl, show (m.scale a).ctrl = scV a m.ctrl from rfl, zeroThen_scale, linSolve_scale]
  cases linSolve m.SKS (zeroThen m.ctrl) <;> rfl
theorem DivFree.fill_scale (m : DivFree d N P) (h : Fin P → Vec d) : (m.scale a).fill (scV a h) = (m.fill h).map (DivFree.scale a) :=
  DivFree.computeMoments_scale a { m with ctrl := h }
theorem DivFree.cost_scale (m : DivFree d N P) : (m.scale a).cost = m.cost.map (a ^ 2 * ·) := by
  unfold DivFree.cost DivFree.scale
  cases m.lambdas with
  | none => rfl
  | some l =>
    simp only [Option.map_some]
    refine congrArg Except.ok ?_
    rw [zeroThen_scale, dot_scR_left, dot_scR_right]; ring
theorem DivFree.field_scale (m : DivFree d N P) : (m.scale a).field = m.field.map (FieldExpr.scale a) := by
  unfold DivFree.field
  rw [show (m.scale a).lambdas = m.lambdas.map (scR a) from rfl]
  cases m.lambdas with
  | none => rfl
  | some l =>
    dsimp only [Option.map_some]
    rw [← mkSumField_scale]
    simp only [List.map_cons, List.map_nil, FieldExpr.scale, scR, mul_left_comm a]
    rfl
theorem DivFree.geodesic_scale (m : DivFree d N P) (man : Mfd d) : (m.scale a).geodesic (man.scale a) = (m.geodesic man).map (DivFree.scale a) := by
  unfold DivFree.geodesic
  rw [show (m.scale a).σ = m.σ from rfl, show (m.scale a).X = m.X from rfl, show (m.scale a).Y = m.Y from rfl,
    show (m.scale a).coeff = m.coeff from rfl, show (m.scale a).coeffDiv = m.coeffDiv from rfl, show (m.scale a).SKS = m.SKS from rfl]
  rcases cotToVs_scale a m.σ .torch man with ⟨e, h1, h2⟩ | ⟨vs, vs', h1, h2, h3⟩
  · rw [h1, h2]; rfl
  · rw [h1, h2]
    dsimp only
    rw [h3.jacobians, h3.values]
    cases vs.jacobians m.X with
    | error e => rfl
    | ok J =>
      cases vs.values m.Y with
      | error e => rfl
      | ok V =>
        dsimp only [Except.map]
        have e1 : (fun i => m.coeffDiv * ∑ k, scM a J i k k) = scR a fun i => m.coeffDiv * ∑ k, J i k k := by
          funext i; simp only [scM, scR, ← Finset.mul_sum]; ring
        rw [e1, linSolve_scale]
        cases linSolve m.SKS.toBlocks₁₁ (fun i => m.coeffDiv * ∑ k, J i k k) with
        | error e => rfl
        | ok h =>
          dsimp only [Except.map]
          by_cases hc : m.coeff = 0
          · rw [if_pos hc, if_pos hc]
          · rw [if_neg hc, if_neg hc]
            have e2 : (fun j c => 1 / m.coeff * (-(m.SKS.toBlocks₂₁ *ᵥ scR a h) (j, c) + scV a V j c))
                = scV a fun j c => 1 / m.coeff * (-(m.SKS.toBlocks₂₁ *ᵥ h) (j, c) + V j c) := by
              rw [mulVec_scR]; funext j c; simp only [scV, scR]; ring
            rw [e2, m.fill_scale]
            cases m.fill (fun j c => 1 / m.coeff * (-(m.SKS.toBlocks₂₁ *ᵥ h) (j, c) + V j c)) with
            | error e => rfl
            | ok m' => exact m'.computeMoments_scale a

def Arap.scale (m : Arap d N P) : Arap d N P := { m with cot := scV a m.cot, ctrl := scV a m.ctrl, lambdas := m.lambdas.map (scR a) }
theorem Arap.computeMoments_scale (m : Arap d N P) : (m.scale a).computeMoments = m.computeMoments.map (Arap.scale a) := by
  unfold Arap.computeMoments
  rw [show (m.scale a).SKS = m.SKS from rfl, show (m.scale a).ctrl = scV a m.ctrl from rfl, zeroThen_scale, linSolve_scale]
  cases linSolve m.SKS (zeroThen m.ctrl) <;> rfl
theorem Arap.fill_scale (m : Arap d N P) (h : Fin P → Vec d) : (m.scale a).fill (scV a h) = (m.fill h).map (Arap.scale a) :=
  Arap.computeMoments_scale a { m with ctrl := h }
theorem Arap.cost_scale (m : Arap d N P) : (m.scale a).cost = m.cost.map (a ^ 2 * ·) := by
  unfold Arap.cost Arap.scale
  cases m.lambdas with
  | none => rfl
  | some l =>
    simp only [Option.map_some]
    refine congrArg Except.ok ?_
    rw [zeroThen_scale, dot_scR_left, dot_scR_right]; ring
theorem Arap.field_scale (m : Arap d N P) : (m.scale a).field = m.field.map (FieldExpr.scale a) := by
  unfold Arap.field
  rw [show (m.scale a).lambdas = m.lambdas.map (scR a) from rfl]
  cases m.lambdas with
  | none => rfl
  | some l =>
    dsimp only [Option.map_some]
    rw [← mkSumField_scale]
    simp only [List.map_cons, List.map_nil, FieldExpr.scale, scR]
    refine congrArg (fun M => mkSumField [_, FieldExpr.fp _ _ M _]) (funext fun i => ?_)
    ext b c
    simp only [Matrix.of_apply, mul_assoc, ← Finset.mul_sum]
    exact mul_left_comm _ _ _
theorem Arap.geodesic_scale (m : Arap d N P) (man : Mfd d) : (m.scale a).geodesic (man.scale a) = (m.geodesic man).map (Arap.scale a) := by
  unfold Arap.geodesic
  rw [show (m.scale a).σ = m.σ from rfl, show (m.scale a).X = m.X from rfl, show (m.scale a).Y = m.Y from rfl,
    show (m.scale a).coeff = m.coeff from rfl, show (m.scale a).coeffArap = m.coeffArap from rfl, show (m.scale a).SKS = m.SKS from rfl]
  rcases cotToVs_scale a m.σ .torch man with ⟨e, h1, h2⟩ | ⟨vs, vs', h1, h2, h3⟩
  · rw [h1, h2]; rfl
  · rw [h1, h2]
    dsimp only
    rw [h3.jacobians, h3.values]
    cases vs.jacobians m.X with
    | error e => rfl
    | ok J =>
      cases vs.values m.Y with
      | error e => rfl
      | ok V =>
        dsimp only [Except.map]
        have e1 : strains (fun i => m.coeffArap • scM a J i) = scR a (strains fun i => m.coeffArap • J i) := by
          rw [← strains_scale]
          congr 1
          funext i b c
          exact mul_left_comm _ _ _
        rw [e1, linSolve_scale]
        cases linSolve m.SKS.toBlocks₁₁ (strains fun i => m.coeffArap • J i) with
        | error e => rfl
        | ok h =>
          dsimp only [Except.map]
          by_cases hc : m.coeff = 0
          · rw [if_pos hc, if_pos hc]
          · rw [if_neg hc, if_neg hc]
            have e2 : (fun j c => 1 / m.coeff * (-(m.SKS.toBlocks₂₁ *ᵥ scR a h) (j, c) + scV a V j c))
                = scV a fun j c => 1 / m.coeff * (-(m.SKS.toBlocks₂₁ *ᵥ h) (j, c) + V j c) := by
              rw [mulVec_scR]; funext j c; simp only [scV, scR]; ring
            rw [e2, m.fill_scale]
            cases m.fill (fun j c => 1 / m.coeff * (-(m.SKS.toBlocks₂₁ *ᵥ h) (j, c) + V j c)) with
            | error e => rfl
            | ok m' => exact m'.computeMoments_scale a
end

end
end Imodal
