import Verif.Lemmas.Sks
import Verif.Spec.Modules
/-! Every deformation module is a quadratic form in its controls. -/
set_option autoImplicit false
namespace Imodal
noncomputable section
open Matrix
variable {d : Nat}

/-- The module generates a field whose pairing with the momentum of `man` is `h · s` and has cost
`½ h · Q h`. -/
def Has (man : Mfd d) {ι : Type} [Fintype ι] (Q : Matrix ι ι ℝ) (s h : ι → ℝ) (m : DefModule d) : Prop :=
  ∃ f, m.field = .ok f ∧ Avail 0 f ∧ Avail 1 f ∧
    pair (momAtoms man) (fieldVal f) (fieldJac f) = h ⬝ᵥ s ∧ m.cost = .ok (1 / 2 * (h ⬝ᵥ Q *ᵥ h))

/-- A module seen as a quadratic form in the controls. -/
structure Quad (man : Mfd d) (m : DefModule d) where
  ι : Type
  inst : Fintype ι
  Q : Matrix ι ι ℝ
  s : ι → ℝ
  enc : Ctrl d → ι → ℝ
  symm : Qᵀ = Q
  psd : ∀ l, 0 ≤ l ⬝ᵥ Q *ᵥ l
  enc_smul : ∀ t c, enc (c.smul t) = t • enc c
  fill : ∀ c m', m.fillControls c = .ok m' → Has man Q s (enc c) m'
  geo : ∀ m', m.geodesic man = .ok m' → ∃ h, Has man Q s h m' ∧ Q *ᵥ h = s

/-! ### Tools -/

theorem smul_psd {ι : Type} [Fintype ι] {Q : Matrix ι ι ℝ} (h : ∀ l, 0 ≤ l ⬝ᵥ Q *ᵥ l) {t : ℝ} (ht : 0 ≤ t) (l : ι → ℝ) :
    0 ≤ l ⬝ᵥ (t • Q) *ᵥ l := by
  rw [smul_mulVec, dotProduct_smul]
  exact mul_nonneg ht (h l)

theorem pair_rep {σ : ℝ} {f : FieldExpr d} {A : List (Atom d)} (hf : IsRep σ f A) (h1 : Avail 1 f)
    (M : List (Atom d)) : pair M (fieldVal f) (fieldJac f) = gram σ M A := by
  unfold gram
  rw [funext hf.val, funext (hf.jac h1)]

/-- Functionals measured by the values at points. -/
def pointAtom {n : Nat} (x : Fin n → Vec d) (q : Fin n × Fin d) : Atom d := atom0 (x q.1) (Pi.single q.2 1)

theorem pointAtom_pair {n : Nat} (x : Fin n → Vec d) (q : Fin n × Fin d) (v : Vec d → Vec d) (J : Vec d → Mat d) :
    (pointAtom x q).pair v J = v (x q.1) q.2 := by
  unfold pointAtom
  rw [atom0_pair, Finset.sum_eq_single q.2]
  · simp
  · intro b _ hb; simp [hb]
  · simp

theorem comb_point {n : Nat} (x p : Fin n → Vec d) :
    Comb (List.ofFn fun i => atom0 (x i) (p i)) (pointAtom x) (fun q => p q.1 q.2) := by
  intro v J
  rw [pair_ofFn, Fintype.sum_prod_type]
  refine Finset.sum_congr rfl fun i _ => ?_
  rw [atom0_pair]
  exact Finset.sum_congr rfl fun c _ => by rw [pointAtom_pair]

theorem dualVec_point {n : Nat} (σ : ℝ) (x : Fin n → Vec d) (M : List (Atom d)) (q : Fin n × Fin d) :
    dualVec σ (pointAtom x) M q = rep σ M (x q.1) q.2 := pointAtom_pair x q _ _

theorem gramMat_point {n : Nat} (σ : ℝ) (x : Fin n → Vec d) (q r : Fin n × Fin d) :
    gramMat σ (pointAtom x) q r = kXY σ (x q.1) (x r.1) * if q.2 = r.2 then 1 else 0 := by
  show (pointAtom x q).pair _ _ = _
  rw [pointAtom_pair]
  simp only [Atom.rep, pointAtom, atom0, Matrix.zero_apply, mul_zero, Finset.sum_const_zero, sub_zero, Pi.single_apply]

theorem gramMat_point_mulVec {n : Nat} (σ : ℝ) (x : Fin n → Vec d) (l : Fin n × Fin d → ℝ) (i : Fin n) (c : Fin d) :
    (gramMat σ (pointAtom x) *ᵥ l) (i, c) = ∑ j, kXY σ (x i) (x j) * l (j, c) := by
  rw [mulVec, dotProduct, Fintype.sum_prod_type]
  refine Finset.sum_congr rfl fun j _ => ?_
  rw [Finset.sum_eq_single c]
  · rw [gramMat_point]; simp
  · intro e _ he; rw [gramMat_point]; simp [Ne.symm he]
  · simp

theorem dotFlat_kMul {n : Nat} (σ : ℝ) (x p : Fin n → Vec d) :
    dotFlat (kMul (kXX σ x) p) p
      = (fun q : Fin n × Fin d => p q.1 q.2) ⬝ᵥ gramMat σ (pointAtom x) *ᵥ fun q => p q.1 q.2 := by
  rw [dotProduct, Fintype.sum_prod_type]
  unfold dotFlat kMul
  refine Finset.sum_congr rfl fun i _ => Finset.sum_congr rfl fun c _ => ?_
  rw [gramMat_point_mulVec, mul_comm]
  rfl

theorem keops_cost {n : Nat} (σ : ℝ) (x p : Fin n → Vec d) (k : Vec d → Vec d → ℝ) (hk : ∀ y z, k y z = kXY σ y z) :
    ∑ j, ∑ i, ∑ c, k (x i) (x j) * p i c * p j c
      = (fun q : Fin n × Fin d => p q.1 q.2) ⬝ᵥ gramMat σ (pointAtom x) *ᵥ fun q => p q.1 q.2 := by
  rw [← dotFlat_kMul]
  unfold dotFlat kMul
  refine Finset.sum_congr rfl fun j _ => ?_
  rw [Finset.sum_comm]
  refine Finset.sum_congr rfl fun c _ => ?_
  rw [Finset.sum_mul]
  refine Finset.sum_congr rfl fun i _ => ?_
  rw [hk, kXX_eq, kXY_comm]

theorem keopsGauss0_eq (σ : ℝ) (x y : Vec d) : keopsGauss0 σ x y = kXY σ x y := by
  unfold keopsGauss0 kXY sqDistance
  congr 1
  rcases eq_or_ne σ 0 with h | h
  · simp [h]
  · field_simp; norm_num; ring

/-! ### Translations -/

theorem Translations.cost_eq {n : Nat} (m : Translations d n) :
    m.cost = 1 / 2 * ((fun q : Fin n × Fin d => m.ctrl q.1 q.2) ⬝ᵥ gramMat m.σ (pointAtom m.gd) *ᵥ
      fun q => m.ctrl q.1 q.2) := by
  unfold Translations.cost
  cases m.r
  · simp only; rw [dotFlat_kMul]; norm_num
  · simp only
    rw [← keops_cost m.σ m.gd m.ctrl _ (keopsGauss_eq m.σ), Finset.mul_sum]
    refine Finset.sum_congr rfl fun j _ => ?_
    rw [Finset.mul_sum]
    exact Finset.sum_congr rfl fun i _ => by ring

theorem Translations.has {n : Nat} (man : Mfd d) (m : Translations d n) :
    Has man (gramMat m.σ (pointAtom m.gd)) (dualVec m.σ (pointAtom m.gd) (momAtoms man))
      (fun q => m.ctrl q.1 q.2) (.translations m) := by
  refine ⟨m.field, rfl, (isRep_f0 ..).avail, avail_f0_one .., ?_, congrArg Except.ok m.cost_eq⟩
  unfold Translations.field
  rw [pair_rep (isRep_f0 m.r m.gd m.ctrl m.σ) (avail_f0_one ..), comb_dual (comb_point m.gd m.ctrl)]

theorem Translations.geo {n : Nat} (man : Mfd d) (m m' : Translations d n) (h : m.geodesic man = .ok m') :
    ∃ c, m' = { m with ctrl := c } ∧
      gramMat m.σ (pointAtom m.gd) *ᵥ (fun q => c q.1 q.2) = dualVec m.σ (pointAtom m.gd) (momAtoms man) := by
  unfold Translations.geodesic at h
  cases h1 : man.cotToVs m.σ m.r with
  | error e => rw [h1] at h; cases h
  | ok vs =>
    rw [h1] at h
    dsimp only at h
    cases h2 : vs.values m.gd with
    | error e => rw [h2] at h; cases h
    | ok V =>
      rw [h2] at h
      dsimp only at h
      obtain ⟨-, rfl⟩ := values_ok h2
      have hv := (cotToVs_isRep man h1).val
      have hsol : ∃ c, m' = { m with ctrl := c } ∧ ∀ i b, ∑ j, kXY m.σ (m.gd i) (m.gd j) * c j b = fieldVal vs (m.gd i) b := by
        cases hr : m.r with
        | torch =>
          rw [hr] at h
          dsimp only at h
          cases h3 : linSolveCols (Matrix.of (kXX m.σ m.gd)) (fun i => fieldVal vs (m.gd i)) with
          | error e => rw [h3] at h; cases h
          | ok c => rw [h3] at h; exact ⟨c, (Except.ok.inj h).symm, fun i b => (linSolveCols_ok h3).2 i b⟩
        | keops =>
          rw [hr] at h
          dsimp only at h
          cases h3 : keopsSolveCols (Matrix.of fun i j => keopsGauss m.σ (m.gd i) (m.gd j)) (fun i => fieldVal vs (m.gd i)) with
          | error e => rw [h3] at h; cases h
          | ok c =>
            rw [h3] at h
            refine ⟨c, (Except.ok.inj h).symm, fun i b => ?_⟩
            rw [← (keopsSolveCols_ok h3).2 i b]
            exact Finset.sum_congr rfl fun j _ => by rw [Matrix.of_apply, keopsGauss_eq]
      obtain ⟨c, hc, hsol⟩ := hsol
      refine ⟨c, hc, funext fun q => ?_⟩
      rw [gramMat_point_mulVec, hsol, dualVec_point, hv]

/-- Encoding of an array of vectors. -/
def encVecs (n : Nat) : Ctrl d → Fin n × Fin d → ℝ
  | .vecs (n := n') h => if e : n' = n then fun q => h (e ▸ q.1) q.2 else 0
  | _ => 0
/-- Encoding of a vector of numbers. -/
def encScalars (n : Nat) : Ctrl d → Fin n → ℝ
  | .scalars (n := n') h => if e : n' = n then fun q => h (e ▸ q) else 0
  | _ => 0
def encScalar : Ctrl d → Unit → ℝ
  | .scalar h => fun _ => h
  | _ => 0
def encVec : Ctrl d → Fin d → ℝ
  | .vec h => h
  | _ => 0

theorem encVecs_smul (n : Nat) (t : ℝ) (c : Ctrl d) : encVecs n (c.smul t) = t • encVecs n c := by
  cases c with
  | vecs h =>
    rw [Ctrl.smul, encVecs, encVecs]
    split
    · rfl
    · simp
  | _ => rw [Ctrl.smul]; simp [encVecs]
theorem encScalars_smul (n : Nat) (t : ℝ) (c : Ctrl d) : encScalars n (c.smul t) = t • encScalars n c := by
  cases c with
  | scalars h =>
    rw [Ctrl.smul, encScalars, encScalars]
    split
    · rfl
    · simp
  | _ => rw [Ctrl.smul]; simp [encScalars]
theorem encScalar_smul (t : ℝ) (c : Ctrl d) : encScalar (c.smul t) = t • encScalar c := by
  cases c <;> rw [Ctrl.smul] <;> first | rfl | simp [encScalar]
theorem encVec_smul (t : ℝ) (c : Ctrl d) : encVec (c.smul t) = t • encVec c := by
  cases c <;> rw [Ctrl.smul] <;> first | rfl | simp [encVec]

theorem wrap_ok {α : Type} {f : α → DefModule d} {x : Py α} {m : DefModule d} (h : wrap f x = .ok m) :
    ∃ a, x = .ok a ∧ m = f a := by
  cases x with
  | error e => cases h
  | ok a => exact ⟨a, rfl, (Except.ok.inj h).symm⟩


theorem encVecs_rfl {n : Nat} (h : Fin n → Vec d) : encVecs n (.vecs h) = fun q => h q.1 q.2 := by
  rw [encVecs, dif_pos rfl]
theorem encScalars_rfl {n : Nat} (h : Fin n → ℝ) : encScalars n (.scalars h : Ctrl d) = h := by
  rw [encScalars, dif_pos rfl]

/-! What successful `fill_controls` calls do. -/

theorem fill_translations {n : Nat} {m : Translations d n} {c : Ctrl d} {m' : DefModule d}
    (h : (DefModule.translations m).fillControls c = .ok m') :
    ∃ k : Fin n → Vec d, c = .vecs k ∧ m' = .translations { m with ctrl := k } := by
  cases c with
  | vecs c =>
    rw [DefModule.fillControls] at h
    split at h
    · rename_i e; subst e; exact ⟨c, rfl, (Except.ok.inj h).symm⟩
    · cases h
  | _ => simp [DefModule.fillControls] at h
theorem fill_implicit0 {n : Nat} {m : Implicit0 d n} {c : Ctrl d} {m' : DefModule d}
    (h : (DefModule.implicit0 m).fillControls c = .ok m') :
    ∃ k : Fin n → Vec d, c = .vecs k ∧ m' = .implicit0 { m with ctrl := k } := by
  cases c with
  | vecs c =>
    rw [DefModule.fillControls] at h
    split at h
    · rename_i e; subst e; exact ⟨c, rfl, (Except.ok.inj h).symm⟩
    · cases h
  | _ => simp [DefModule.fillControls] at h
theorem fill_oriented {n : Nat} {m : Oriented d n} {c : Ctrl d} {m' : DefModule d}
    (h : (DefModule.oriented m).fillControls c = .ok m') :
    ∃ k : Fin n → ℝ, c = .scalars k ∧ m' = .oriented { m with ctrl := k } := by
  cases c with
  | scalars c =>
    rw [DefModule.fillControls] at h
    split at h
    · rename_i e; subst e; exact ⟨c, rfl, (Except.ok.inj h).symm⟩
    · cases h
  | _ => simp [DefModule.fillControls] at h
theorem fill_constrained {n p : Nat} {m : Constrained d n p} {c : Ctrl d} {m' : DefModule d}
    (h : (DefModule.constrained m).fillControls c = .ok m') :
    ∃ k, c = .scalar k ∧ m' = .constrained { m with ctrl := k } := by
  cases c with
  | scalar c => rw [DefModule.fillControls] at h; exact ⟨c, rfl, (Except.ok.inj h).symm⟩
  | _ => simp [DefModule.fillControls] at h
theorem fill_global {m : GlobalTranslation d} {c : Ctrl d} {m' : DefModule d}
    (h : (DefModule.globalTranslation m).fillControls c = .ok m') :
    ∃ k, c = .vec k ∧ m' = .globalTranslation { m with ctrl := k } := by
  cases c with
  | vec c => rw [DefModule.fillControls] at h; exact ⟨c, rfl, (Except.ok.inj h).symm⟩
  | _ => simp [DefModule.fillControls] at h
theorem fill_linear {m : Linear d} {c : Ctrl d} {m' : DefModule d}
    (h : (DefModule.linear m).fillControls c = .ok m') :
    ∃ k, c = .scalar k ∧ m' = .linear { m with ctrl := k } := by
  cases c with
  | scalar c => rw [DefModule.fillControls] at h; exact ⟨c, rfl, (Except.ok.inj h).symm⟩
  | _ => simp [DefModule.fillControls] at h
theorem fill_implicit1 {n p : Nat} {m : Implicit1 d n p} {c : Ctrl d} {m' : DefModule d}
    (h : (DefModule.implicit1 m).fillControls c = .ok m') :
    ∃ (k : Fin p → ℝ) (a : _), c = .scalars k ∧ m.fill k = .ok a ∧ m' = .implicit1 a := by
  cases c with
  | scalars c =>
    rw [DefModule.fillControls] at h
    split at h
    · rename_i e; subst e
      obtain ⟨a, h1, h2⟩ := wrap_ok h
      exact ⟨c, a, rfl, h1, h2⟩
    · cases h
  | _ => simp [DefModule.fillControls] at h
theorem fill_divFree {N P : Nat} {m : DivFree d N P} {c : Ctrl d} {m' : DefModule d}
    (h : (DefModule.divFree m).fillControls c = .ok m') :
    ∃ (k : Fin P → Vec d) (a : _), c = .vecs k ∧ m.fill k = .ok a ∧ m' = .divFree a := by
  cases c with
  | vecs c =>
    rw [DefModule.fillControls] at h
    split at h
    · rename_i e; subst e
      obtain ⟨a, h1, h2⟩ := wrap_ok h
      exact ⟨c, a, rfl, h1, h2⟩
    · cases h
  | _ => simp [DefModule.fillControls] at h
theorem fill_arap {N P : Nat} {m : Arap d N P} {c : Ctrl d} {m' : DefModule d}
    (h : (DefModule.arap m).fillControls c = .ok m') :
    ∃ (k : Fin P → Vec d) (a : _), c = .vecs k ∧ m.fill k = .ok a ∧ m' = .arap a := by
  cases c with
  | vecs c =>
    rw [DefModule.fillControls] at h
    split at h
    · rename_i e; subst e
      obtain ⟨a, h1, h2⟩ := wrap_ok h
      exact ⟨c, a, rfl, h1, h2⟩
    · cases h
  | _ => simp [DefModule.fillControls] at h

def Translations.quad {n : Nat} (man : Mfd d) (m : Translations d n) : Quad man (.translations m) where
  ι := Fin n × Fin d
  inst := inferInstance
  Q := gramMat m.σ (pointAtom m.gd)
  s := dualVec m.σ (pointAtom m.gd) (momAtoms man)
  enc := encVecs n
  symm := gramMat_symm _ _
  psd := gramMat_psd _ _
  enc_smul := encVecs_smul n
  fill c m' h := by
    obtain ⟨k, rfl, rfl⟩ := fill_translations h
    rw [encVecs_rfl]
    exact Translations.has man ({ m with ctrl := k } : Translations d n)
  geo m' h := by
    rw [DefModule.geodesic] at h
    obtain ⟨a, ha, rfl⟩ := wrap_ok h
    obtain ⟨c, rfl, hc⟩ := m.geo man a ha
    exact ⟨_, Translations.has man ({ m with ctrl := c } : Translations d n), hc⟩

/-! ### Implicit modules of order 0 -/

theorem quad_nu {ι : Type} [Fintype ι] [DecidableEq ι] (G : Matrix ι ι ℝ) (ν c : ℝ) (l : ι → ℝ) :
    l ⬝ᵥ (c • (G + ν • (1 : Matrix ι ι ℝ))) *ᵥ l = c * (l ⬝ᵥ G *ᵥ l + ν * ∑ q, l q * l q) := by
  rw [smul_mulVec, dotProduct_smul, add_mulVec, smul_mulVec, one_mulVec, dotProduct_add, dotProduct_smul]
  rfl

theorem Implicit0.cost_eq {n : Nat} (m : Implicit0 d n) :
    m.cost = 1 / 2 * ((fun q : Fin n × Fin d => m.ctrl q.1 q.2) ⬝ᵥ
      (m.coeff • (gramMat m.σ (pointAtom m.gd) + m.ν • (1 : Matrix _ _ ℝ))) *ᵥ fun q => m.ctrl q.1 q.2) := by
  rw [quad_nu, Fintype.sum_prod_type]
  unfold Implicit0.cost
  cases m.r
  · simp only
    rw [← dotFlat_kMul]
    have : dotFlat (fun i c => kMul (kXX m.σ m.gd) m.ctrl i c + m.ν * m.ctrl i c) m.ctrl
        = dotFlat (kMul (kXX m.σ m.gd) m.ctrl) m.ctrl + m.ν * ∑ i, ∑ c, m.ctrl i c * m.ctrl i c := by
      unfold dotFlat
      simp only [add_mul, Finset.sum_add_distrib, Finset.mul_sum, mul_assoc]
    rw [this]
    ring
  · simp only
    rw [← keops_cost m.σ m.gd m.ctrl _ (keopsGauss0_eq m.σ)]
    simp only [pow_two]
    ring

theorem Implicit0.has {n : Nat} (man : Mfd d) (m : Implicit0 d n) :
    Has man (m.coeff • (gramMat m.σ (pointAtom m.gd) + m.ν • (1 : Matrix _ _ ℝ)))
      (dualVec m.σ (pointAtom m.gd) (momAtoms man)) (fun q => m.ctrl q.1 q.2) (.implicit0 m) := by
  refine ⟨m.field, rfl, (isRep_f0 ..).avail, avail_f0_one .., ?_, congrArg Except.ok m.cost_eq⟩
  unfold Implicit0.field
  rw [pair_rep (isRep_f0 m.r m.gd m.ctrl m.σ) (avail_f0_one ..), comb_dual (comb_point m.gd m.ctrl)]

theorem Implicit0.geo {n : Nat} (man : Mfd d) (m m' : Implicit0 d n) (h : m.geodesic man = .ok m') :
    ∃ c, m' = { m with ctrl := c } ∧
      (m.coeff • (gramMat m.σ (pointAtom m.gd) + m.ν • (1 : Matrix _ _ ℝ))) *ᵥ (fun q => c q.1 q.2)
        = dualVec m.σ (pointAtom m.gd) (momAtoms man) := by
  unfold Implicit0.geodesic at h
  cases h1 : man.cotToVs m.σ m.r with
  | error e => rw [h1] at h; cases h
  | ok vs =>
    rw [h1] at h
    dsimp only at h
    cases h2 : vs.values m.gd with
    | error e => rw [h2] at h; cases h
    | ok V =>
      rw [h2] at h
      dsimp only at h
      obtain ⟨-, rfl⟩ := values_ok h2
      have hv := (cotToVs_isRep man h1).val
      have hsol : ∃ c : Fin n → Vec d, m.coeff ≠ 0 ∧ m' = { m with ctrl := fun i b => c i b / m.coeff } ∧
          ∀ i b, (∑ j, kXY m.σ (m.gd i) (m.gd j) * c j b) + m.ν * c i b = fieldVal vs (m.gd i) b := by
        have expand : ∀ (K : Fin n → Fin n → ℝ) (c : Fin n → Vec d) i b,
            ∑ j, (Matrix.of K + m.ν • (1 : Matrix (Fin n) (Fin n) ℝ)) i j * c j b
              = (∑ j, K i j * c j b) + m.ν * c i b := by
          intro K c i b
          simp only [Matrix.add_apply, Matrix.of_apply, Matrix.smul_apply, Matrix.one_apply, smul_eq_mul, add_mul,
            Finset.sum_add_distrib, mul_ite, mul_one, mul_zero, ite_mul, zero_mul, Finset.sum_ite_eq, Finset.mem_univ,
            if_true]
        cases hr : m.r with
        | torch =>
          rw [hr] at h
          dsimp only at h
          cases h3 : linSolveCols (Matrix.of (kXX m.σ m.gd) + m.ν • (1 : Matrix (Fin n) (Fin n) ℝ))
              (fun i => fieldVal vs (m.gd i)) with
          | error e => rw [h3] at h; cases h
          | ok c =>
            rw [h3] at h
            dsimp only at h
            cases h4 : tdiv 1 m.coeff with
            | error e => rw [h4] at h; cases h
            | ok u =>
              rw [h4] at h
              refine ⟨c, (tdiv_ok h4).1, (Except.ok.inj h).symm, fun i b => ?_⟩
              rw [← (linSolveCols_ok h3).2 i b, expand]; rfl
        | keops =>
          rw [hr] at h
          dsimp only at h
          cases h3 : keopsSolveCols (Matrix.of (fun i j => keopsGauss0 m.σ (m.gd i) (m.gd j))
              + m.ν • (1 : Matrix (Fin n) (Fin n) ℝ)) (fun i => fieldVal vs (m.gd i)) with
          | error e => rw [h3] at h; cases h
          | ok c =>
            rw [h3] at h
            dsimp only at h
            cases h4 : tdiv 1 m.coeff with
            | error e => rw [h4] at h; cases h
            | ok u =>
              rw [h4] at h
              refine ⟨c, (tdiv_ok h4).1, (Except.ok.inj h).symm, fun i b => ?_⟩
              rw [← (keopsSolveCols_ok h3).2 i b, expand]
              simp only [keopsGauss0_eq]
      obtain ⟨c, hc0, hc, hsol⟩ := hsol
      refine ⟨_, hc, funext fun q => ?_⟩
      rw [dualVec_point, ← hv, ← hsol, smul_mulVec, add_mulVec, smul_mulVec, one_mulVec]
      show m.coeff * ((gramMat m.σ (pointAtom m.gd) *ᵥ _) (q.1, q.2) + m.ν * (c q.1 q.2 / m.coeff)) = _
      rw [gramMat_point_mulVec, mul_add, Finset.mul_sum]
      congr 1
      · exact Finset.sum_congr rfl fun j _ => by field_simp
      · field_simp

def Implicit0.quad {n : Nat} (man : Mfd d) (m : Implicit0 d n) (hc : 0 ≤ m.coeff) (hν : 0 ≤ m.ν) :
    Quad man (.implicit0 m) where
  ι := Fin n × Fin d
  inst := inferInstance
  Q := m.coeff • (gramMat m.σ (pointAtom m.gd) + m.ν • (1 : Matrix _ _ ℝ))
  s := dualVec m.σ (pointAtom m.gd) (momAtoms man)
  enc := encVecs n
  symm := by rw [transpose_smul, smul_one_symm (gramMat_symm _ _)]
  psd := smul_psd (smul_one_psd (gramMat_psd _ _) hν) hc
  enc_smul := encVecs_smul n
  fill c m' h := by
    obtain ⟨k, rfl, rfl⟩ := fill_implicit0 h
    rw [encVecs_rfl]
    exact Implicit0.has man ({ m with ctrl := k } : Implicit0 d n)
  geo m' h := by
    rw [DefModule.geodesic] at h
    obtain ⟨a, ha, rfl⟩ := wrap_ok h
    obtain ⟨c, rfl, hc⟩ := m.geo man a ha
    exact ⟨_, Implicit0.has man ({ m with ctrl := c } : Implicit0 d n), hc⟩

/-! ### Oriented translations -/

def dirAtom {n : Nat} (x u : Fin n → Vec d) (i : Fin n) : Atom d := atom0 (x i) (u i)

theorem comb_dir {n : Nat} (x u : Fin n → Vec d) (l : Fin n → ℝ) :
    Comb (List.ofFn fun i => atom0 (x i) (fun c => l i * u i c)) (dirAtom x u) l := by
  intro v J
  rw [pair_ofFn]
  refine Finset.sum_congr rfl fun i _ => ?_
  unfold dirAtom
  rw [atom0_pair, atom0_pair, Finset.mul_sum]
  exact Finset.sum_congr rfl fun c _ => by ring

theorem gramMat_dir {n : Nat} (σ : ℝ) (x u : Fin n → Vec d) (i j : Fin n) :
    gramMat σ (dirAtom x u) i j = kXX σ x i j * ∑ c, u i c * u j c := by
  show (atom0 (x i) (u i)).pair _ _ = _
  rw [atom0_pair, Finset.mul_sum]
  refine Finset.sum_congr rfl fun c _ => ?_
  simp only [Atom.rep, dirAtom, atom0, Matrix.zero_apply, mul_zero, Finset.sum_const_zero, sub_zero]
  rw [kXX_eq]; ring

theorem dualVec_dir {n : Nat} (σ : ℝ) (x u : Fin n → Vec d) (M : List (Atom d)) (i : Fin n) :
    dualVec σ (dirAtom x u) M i = ∑ c, rep σ M (x i) c * u i c := by
  show (atom0 (x i) (u i)).pair _ _ = _
  rw [atom0_pair]
  exact Finset.sum_congr rfl fun c _ => mul_comm _ _

theorem Oriented.cost_eq {n : Nat} (m : Oriented d n) :
    m.cost = 1 / 2 * (m.ctrl ⬝ᵥ (m.coeff • gramMat m.σ (dirAtom m.gd m.dir)) *ᵥ m.ctrl) := by
  unfold Oriented.cost
  rw [dotFlat_kMul, smul_mulVec, dotProduct_smul, ← comb_gram (comb_point m.gd m.vectors) (comb_point m.gd m.vectors)]
  have h := comb_gram (σ := m.σ) (comb_dir m.gd m.dir m.ctrl) (comb_dir m.gd m.dir m.ctrl)
  rw [← h, smul_eq_mul]
  unfold Oriented.vectors
  ring

theorem Oriented.has {n : Nat} (man : Mfd d) (m : Oriented d n) :
    Has man (m.coeff • gramMat m.σ (dirAtom m.gd m.dir))
      (dualVec m.σ (dirAtom m.gd m.dir) (momAtoms man)) m.ctrl (.oriented m) := by
  refine ⟨m.field, rfl, (isRep_f0 ..).avail, avail_f0_one .., ?_, congrArg Except.ok m.cost_eq⟩
  unfold Oriented.field
  rw [pair_rep (isRep_f0 .torch m.gd m.vectors m.σ) (avail_f0_one ..)]
  exact comb_dual (comb_dir m.gd m.dir m.ctrl) _

theorem Oriented.geo {n : Nat} (man : Mfd d) (m m' : Oriented d n) (h : m.geodesic man = .ok m') :
    ∃ c, m' = { m with ctrl := c } ∧
      (m.coeff • gramMat m.σ (dirAtom m.gd m.dir)) *ᵥ c = dualVec m.σ (dirAtom m.gd m.dir) (momAtoms man) := by
  unfold Oriented.geodesic at h
  cases h1 : man.cotToVs m.σ .torch with
  | error e => rw [h1] at h; cases h
  | ok vs =>
    rw [h1] at h
    dsimp only at h
    cases h2 : vs.values m.gd with
    | error e => rw [h2] at h; cases h
    | ok V =>
      rw [h2] at h
      dsimp only at h
      obtain ⟨-, rfl⟩ := values_ok h2
      have hv := (cotToVs_isRep man h1).val
      cases h3 : linSolve (Matrix.of fun i j => kXX m.σ m.gd i j * ∑ c, m.dir i c * m.dir j c)
          (fun i => ∑ c, fieldVal vs (m.gd i) c * m.dir i c) with
      | error e => rw [h3] at h; cases h
      | ok c =>
        rw [h3] at h
        dsimp only at h
        cases h4 : tdiv 1 m.coeff with
        | error e => rw [h4] at h; cases h
        | ok u =>
          rw [h4] at h
          have hc := (tdiv_ok h4).1
          refine ⟨_, (Except.ok.inj h).symm, ?_⟩
          have hsol := (linSolve_ok h3).2.2
          have e : (fun i => c i / m.coeff) = m.coeff⁻¹ • c := by funext i; simp [div_eq_inv_mul]
          rw [e, smul_mulVec, mulVec_smul, smul_smul, mul_inv_cancel₀ hc, one_smul]
          have eG : gramMat m.σ (dirAtom m.gd m.dir)
              = Matrix.of fun i j => kXX m.σ m.gd i j * ∑ c, m.dir i c * m.dir j c := by
            funext i j; exact gramMat_dir m.σ m.gd m.dir i j
          rw [eG, hsol]
          funext i
          rw [dualVec_dir, hv]

def Oriented.quad {n : Nat} (man : Mfd d) (m : Oriented d n) (hc : 0 ≤ m.coeff) : Quad man (.oriented m) where
  ι := Fin n
  inst := inferInstance
  Q := m.coeff • gramMat m.σ (dirAtom m.gd m.dir)
  s := dualVec m.σ (dirAtom m.gd m.dir) (momAtoms man)
  enc := encScalars n
  symm := by rw [transpose_smul, gramMat_symm]
  psd := smul_psd (gramMat_psd _ _) hc
  enc_smul := encScalars_smul n
  fill c m' h := by
    obtain ⟨k, rfl, rfl⟩ := fill_oriented h
    rw [encScalars_rfl]
    exact Oriented.has man ({ m with ctrl := k } : Oriented d n)
  geo m' h := by
    rw [DefModule.geodesic] at h
    obtain ⟨a, ha, rfl⟩ := wrap_ok h
    obtain ⟨c, rfl, hc⟩ := m.geo man a ha
    exact ⟨_, Oriented.has man ({ m with ctrl := c } : Oriented d n), hc⟩

/-! ### Modules with one control -/

theorem unit_quad (a : ℝ) (l : Unit → ℝ) : l ⬝ᵥ (Matrix.of fun _ _ : Unit => a) *ᵥ l = a * l () * l () := by
  simp [dotProduct, mulVec]; ring

theorem unit_psd {a : ℝ} (ha : 0 ≤ a) (l : Unit → ℝ) : 0 ≤ l ⬝ᵥ (Matrix.of fun _ _ : Unit => a) *ᵥ l := by
  rw [unit_quad, mul_assoc]; exact mul_nonneg ha (mul_self_nonneg _)

theorem Constrained.energy_eq {n p : Nat} (m : Constrained d n p) :
    m.energy = (fun q : Fin p × Fin d => m.fvec m.gd q.1 q.2) ⬝ᵥ
      gramMat m.σ (pointAtom (m.fsupp m.gd)) *ᵥ fun q => m.fvec m.gd q.1 q.2 := dotFlat_kMul _ _ _

theorem Constrained.energy_nonneg {n p : Nat} (m : Constrained d n p) : 0 ≤ m.energy := by
  rw [m.energy_eq]; exact gramMat_psd _ _ _

/-- The pairing of the momentum with the field of unit control. -/
def Constrained.unit {n p : Nat} (m : Constrained d n p) (man : Mfd d) : ℝ :=
  gram m.σ (momAtoms man) (List.ofFn fun i => atom0 (m.fsupp m.gd i) (m.fvec m.gd i))

theorem Constrained.has {n p : Nat} (man : Mfd d) (m : Constrained d n p) :
    Has man (Matrix.of fun _ _ : Unit => m.coeff * m.energy) (fun _ => m.unit man) (fun _ => m.ctrl) (.constrained m) := by
  refine ⟨m.field, rfl, (isRep_f0 ..).avail, avail_f0_one .., ?_, congrArg Except.ok ?_⟩
  · unfold Constrained.field
    rw [pair_rep (isRep_f0 .torch _ _ m.σ) (avail_f0_one ..), gram_symm]
    unfold Constrained.unit
    rw [gram_symm m.σ (momAtoms man)]
    unfold gram
    rw [pair_ofFn, pair_ofFn]
    simp only [atom0_pair, dotProduct, Finset.univ_unique, Finset.sum_singleton, Finset.mul_sum]
    exact Finset.sum_congr rfl fun i _ => Finset.sum_congr rfl fun c _ => by ring
  · rw [unit_quad]; unfold Constrained.cost; ring

theorem unit_mulVec (a : ℝ) (l : Unit → ℝ) : (Matrix.of fun _ _ : Unit => a) *ᵥ l = fun _ => a * l () := by
  funext i; simp [mulVec, dotProduct]

theorem Constrained.geo {n p : Nat} (man : Mfd d) (m m' : Constrained d n p) (h : m.geodesic man = .ok m') :
    ∃ c, m' = { m with ctrl := c } ∧ m.coeff * m.energy * c = m.unit man := by
  unfold Constrained.geodesic at h
  cases h1 : man.innerProd (.f0 .torch (m.fsupp m.gd) (m.fvec m.gd) m.σ) with
  | error e => rw [h1] at h; cases h
  | ok a =>
    rw [h1] at h
    dsimp only at h
    cases h2 : tdiv a (m.coeff * m.energy) with
    | error e => rw [h2] at h; cases h
    | ok c =>
      rw [h2] at h
      obtain ⟨hne, rfl⟩ := tdiv_ok h2
      refine ⟨_, (Except.ok.inj h).symm, ?_⟩
      rw [innerProd_rep (isRep_f0 .torch _ _ m.σ) (avail_f0_one ..)] at h1
      rw [← Except.ok.inj h1]
      unfold Constrained.unit
      rw [mul_div_assoc']
      exact mul_div_cancel_left₀ _ hne

def Constrained.quad {n p : Nat} (man : Mfd d) (m : Constrained d n p) (hc : 0 ≤ m.coeff) :
    Quad man (.constrained m) where
  ι := Unit
  inst := inferInstance
  Q := Matrix.of fun _ _ => m.coeff * m.energy
  s := fun _ => m.unit man
  enc := encScalar
  symm := rfl
  psd := unit_psd (mul_nonneg hc m.energy_nonneg)
  enc_smul := encScalar_smul
  fill c m' h := by
    obtain ⟨k, rfl, rfl⟩ := fill_constrained h
    exact Constrained.has man ({ m with ctrl := k } : Constrained d n p)
  geo m' h := by
    rw [DefModule.geodesic] at h
    obtain ⟨a, ha, rfl⟩ := wrap_ok h
    obtain ⟨c, rfl, hc⟩ := m.geo man a ha
    refine ⟨_, Constrained.has man ({ m with ctrl := c } : Constrained d n p), ?_⟩
    rw [unit_mulVec]; funext i; exact hc

theorem fieldVal_affine (A : Mat d) (x0 u x : Vec d) :
    fieldVal (.affine A x0 u) x = fun b => (∑ c, (x c - x0 c) * A b c) + u b := rfl
theorem fieldJac_affine (A : Mat d) (x0 u x : Vec d) : fieldJac (.affine A x0 u) x = A := rfl
theorem avail_affine (k : Nat) (A : Mat d) (x0 u : Vec d) : Avail k (.affine A x0 u) := ⟨_, fun _ => rfl⟩
theorem fieldVal_const (h x : Vec d) : fieldVal (.const h) x = h := rfl
theorem fieldJac_const (h x : Vec d) : fieldJac (.const h) x = 0 := rfl
theorem avail_const (k : Nat) (h : Vec d) : Avail k (.const h) := ⟨_, fun _ => rfl⟩

/-- The pairing of the momentum with the field of unit control. -/
def Linear.unit (m : Linear d) (man : Mfd d) : ℝ :=
  pair (momAtoms man) (fieldVal (.affine m.A m.gd 0)) (fieldJac (.affine m.A m.gd 0))

theorem Linear.has (man : Mfd d) (m : Linear d) :
    Has man (Matrix.of fun _ _ : Unit => m.coeff) (fun _ => m.unit man) (fun _ => m.ctrl) (.linear m) := by
  refine ⟨m.field, rfl, avail_affine .., avail_affine .., ?_, congrArg Except.ok ?_⟩
  · unfold Linear.field Linear.unit
    simp only [dotProduct, Finset.univ_unique, Finset.sum_singleton]
    rw [← pair_smul]
    refine congrArg₂ (pair (momAtoms man)) (funext fun x => funext fun b => ?_) (funext fun x => ?_)
    · rw [fieldVal_affine, Pi.smul_apply, fieldVal_affine]
      simp only [Matrix.smul_apply, smul_eq_mul, Pi.zero_apply, add_zero, Pi.smul_apply, Finset.mul_sum]
      exact Finset.sum_congr rfl fun c _ => by ring
    · rw [fieldJac_affine, Pi.smul_apply, fieldJac_affine]
  · rw [unit_quad]; unfold Linear.cost; ring

theorem Linear.geo (man : Mfd d) (m m' : Linear d) (h : m.geodesic man = .ok m') :
    ∃ c, m' = { m with ctrl := c } ∧ m.coeff * c = m.unit man := by
  unfold Linear.geodesic at h
  cases h1 : man.innerProd (.affine m.A m.gd 0) with
  | error e => rw [h1] at h; cases h
  | ok a =>
    rw [h1] at h
    dsimp only at h
    cases h2 : tdiv a m.coeff with
    | error e => rw [h2] at h; cases h
    | ok c =>
      rw [h2] at h
      obtain ⟨hne, rfl⟩ := tdiv_ok h2
      refine ⟨_, (Except.ok.inj h).symm, ?_⟩
      rw [innerProd_ok man h1]
      unfold Linear.unit
      field_simp

def Linear.quad (man : Mfd d) (m : Linear d) (hc : 0 ≤ m.coeff) : Quad man (.linear m) where
  ι := Unit
  inst := inferInstance
  Q := Matrix.of fun _ _ => m.coeff
  s := fun _ => m.unit man
  enc := encScalar
  symm := rfl
  psd := unit_psd hc
  enc_smul := encScalar_smul
  fill c m' h := by
    obtain ⟨k, rfl, rfl⟩ := fill_linear h
    exact Linear.has man ({ m with ctrl := k } : Linear d)
  geo m' h := by
    rw [DefModule.geodesic] at h
    obtain ⟨a, ha, rfl⟩ := wrap_ok h
    obtain ⟨c, rfl, hc⟩ := m.geo man a ha
    refine ⟨_, Linear.has man ({ m with ctrl := c } : Linear d), ?_⟩
    rw [unit_mulVec]; funext i; exact hc

/-! ### Global translations -/

/-- The pairing of the momentum with the constant fields of the basis. -/
def constDual (man : Mfd d) (i : Fin d) : ℝ :=
  pair (momAtoms man) (fieldVal (.const fun c => if c = i then 1 else 0)) (fieldJac (.const fun c => if c = i then 1 else 0))

theorem pair_const (M : List (Atom d)) (h : Vec d) :
    pair M (fieldVal (.const h)) (fieldJac (.const h))
      = ∑ i, h i * pair M (fieldVal (.const fun c => if c = i then 1 else 0)) (fieldJac (.const fun c => if c = i then 1 else 0)) := by
  induction M with
  | nil => simp [pair_nil]
  | cons a M ih =>
    rw [pair_cons, ih]
    simp only [pair_cons, mul_add, Finset.sum_add_distrib]
    congr 1
    simp only [Atom.pair, fieldVal_const, fieldJac_const, Matrix.zero_apply, mul_zero, Finset.sum_const_zero, add_zero,
      mul_ite, mul_one, Finset.sum_ite_eq', Finset.sum_ite_eq, Finset.mem_univ, if_true]
    exact Finset.sum_congr rfl fun i _ => mul_comm _ _

theorem collect_ok : {n : Nat} → {f : Fin n → Py ℝ} → {g : Fin n → ℝ} → collect f = .ok g → ∀ i, f i = .ok (g i)
  | 0, _, _, _, i => i.elim0
  | n + 1, f, g, h, i => by
    rw [collect] at h
    cases h0 : f 0 with
    | error e => rw [h0] at h; cases h
    | ok a =>
      rw [h0] at h
      dsimp only at h
      cases h1 : collect (fun i : Fin n => f i.succ) with
      | error e => rw [h1] at h; cases h
      | ok k =>
        rw [h1] at h
        have hg := Except.ok.inj h
        subst hg
        refine Fin.cases ?_ (fun j => ?_) i
        · rw [h0]; rfl
        · rw [collect_ok h1 j]; rfl

theorem GlobalTranslation.has (man : Mfd d) (m : GlobalTranslation d) :
    Has man (m.coeff • (1 : Matrix (Fin d) (Fin d) ℝ)) (constDual man) m.ctrl (.globalTranslation m) := by
  refine ⟨m.field, rfl, avail_const .., avail_const .., pair_const _ _, congrArg Except.ok ?_⟩
  rw [smul_mulVec, one_mulVec, dotProduct_smul]
  unfold GlobalTranslation.cost
  simp only [dotProduct, smul_eq_mul]
  ring

theorem GlobalTranslation.geo (man : Mfd d) (m m' : GlobalTranslation d) (h : m.geodesic man = .ok m') :
    ∃ c, m' = { m with ctrl := c } ∧ ∀ i, m.coeff * c i = constDual man i := by
  unfold GlobalTranslation.geodesic at h
  cases h1 : collect (m.entry man) with
  | error e => rw [h1] at h; cases h
  | ok c =>
    rw [h1] at h
    refine ⟨c, (Except.ok.inj h).symm, fun i => ?_⟩
    have hi := collect_ok h1 i
    unfold GlobalTranslation.entry at hi
    cases h2 : man.innerProd (.const fun c => if c = i then 1 else 0) with
    | error e => rw [h2] at hi; cases hi
    | ok a =>
      rw [h2] at hi
      obtain ⟨hne, hx⟩ := tdiv_ok hi
      rw [hx, innerProd_ok man h2]
      unfold constDual
      field_simp

def GlobalTranslation.quad (man : Mfd d) (m : GlobalTranslation d) (hc : 0 ≤ m.coeff) :
    Quad man (.globalTranslation m) where
  ι := Fin d
  inst := inferInstance
  Q := m.coeff • 1
  s := constDual man
  enc := encVec
  symm := by rw [transpose_smul, transpose_one]
  psd := smul_psd (fun l => by rw [one_mulVec]; exact Finset.sum_nonneg fun i _ => mul_self_nonneg _) hc
  enc_smul := encVec_smul
  fill c m' h := by
    obtain ⟨k, rfl, rfl⟩ := fill_global h
    exact GlobalTranslation.has man ({ m with ctrl := k } : GlobalTranslation d)
  geo m' h := by
    rw [DefModule.geodesic] at h
    obtain ⟨a, ha, rfl⟩ := wrap_ok h
    obtain ⟨c, rfl, hc⟩ := m.geo man a ha
    refine ⟨_, GlobalTranslation.has man ({ m with ctrl := c } : GlobalTranslation d), ?_⟩
    rw [smul_mulVec, one_mulVec]; funext i; exact hc i

/-! ### Silent modules -/

theorem silent_has (man s : Mfd d) : Has man (0 : Matrix Empty Empty ℝ) (fun _ => 0) (fun _ => 0) (.silent s) := by
  refine ⟨.null, rfl, (isRep_null 1).avail, ⟨_, fun _ => rfl⟩, ?_, ?_⟩
  · rw [pair_rep (isRep_null 1) ⟨_, fun _ => rfl⟩]
    simp [dotProduct, gram_symm, gram, pair_nil]
    exact pair_zero _
  · rw [DefModule.cost]; simp [dotProduct]

def silentQuad (man s : Mfd d) : Quad man (.silent s) where
  ι := Empty
  inst := inferInstance
  Q := 0
  s := fun _ => 0
  enc := fun _ _ => 0
  symm := rfl
  psd l := by simp [dotProduct]
  enc_smul t c := by funext i; exact i.elim
  fill c m' h := by
    have : (DefModule.silent s).fillControls c = .ok (.silent s) := by cases c <;> rw [DefModule.fillControls]
    rw [this] at h
    rw [← Except.ok.inj h]
    exact silent_has man s
  geo m' h := by
    rw [DefModule.geodesic] at h
    rw [← Except.ok.inj h]
    exact ⟨_, silent_has man s, by funext i; exact i.elim⟩

end
end Imodal
