import Verif.Lemmas.ModQuad
import Mathlib.Data.Matrix.ColumnRowPartitioned
/-! The implicit modules as quadratic forms. -/
set_option autoImplicit false
namespace Imodal
noncomputable section
open Matrix
variable {d : Nat}

section lin
variable {κ ι : Type} [Fintype κ] [DecidableEq κ] [Fintype ι] [DecidableEq ι]

theorem inv_psd' {S : Matrix κ κ ℝ} (hsym : Sᵀ = S) (hpsd : ∀ l, 0 ≤ l ⬝ᵥ S *ᵥ l) (l : κ → ℝ) :
    0 ≤ l ⬝ᵥ S⁻¹ *ᵥ l := by
  by_cases hd : S.det = 0
  · rw [nonsing_inv_apply_not_isUnit S (by rw [hd]; exact not_isUnit_zero), zero_mulVec, dotProduct_zero]
  · exact inv_psd hsym hpsd hd l

theorem schur_symm {S : Matrix κ κ ℝ} (hsym : Sᵀ = S) (A : Matrix κ ι ℝ) :
    (Aᵀ * S⁻¹ * A)ᵀ = Aᵀ * S⁻¹ * A := by
  rw [transpose_mul, transpose_mul, transpose_transpose, inv_symm hsym, Matrix.mul_assoc]

theorem schur_quad (S : Matrix κ κ ℝ) (A : Matrix κ ι ℝ) (h : ι → ℝ) :
    h ⬝ᵥ (Aᵀ * S⁻¹ * A) *ᵥ h = (A *ᵥ h) ⬝ᵥ S⁻¹ *ᵥ (A *ᵥ h) := by
  rw [← mulVec_mulVec, ← mulVec_mulVec, mulVec_transpose, dotProduct_comm, ← dotProduct_mulVec, dotProduct_comm]

theorem schur_psd {S : Matrix κ κ ℝ} (hsym : Sᵀ = S) (hpsd : ∀ l, 0 ≤ l ⬝ᵥ S *ᵥ l) (A : Matrix κ ι ℝ) (h : ι → ℝ) :
    0 ≤ h ⬝ᵥ (Aᵀ * S⁻¹ * A) *ᵥ h := by
  rw [schur_quad]; exact inv_psd' hsym hpsd _

theorem schur_pair {S : Matrix κ κ ℝ} (hsym : Sᵀ = S) (A : Matrix κ ι ℝ) (h : ι → ℝ) (t : κ → ℝ) :
    (S⁻¹ *ᵥ (A *ᵥ h)) ⬝ᵥ t = h ⬝ᵥ (Aᵀ *ᵥ (S⁻¹ *ᵥ t)) := by
  have h1 : (S⁻¹ *ᵥ (A *ᵥ h)) ⬝ᵥ t = (A *ᵥ h) ⬝ᵥ (S⁻¹ *ᵥ t) := by
    conv_lhs => rw [← inv_symm hsym]
    rw [mulVec_transpose, ← dotProduct_mulVec]
  rw [h1, mulVec_transpose, dotProduct_comm, dotProduct_mulVec, dotProduct_comm]

/-- The controls followed by the data of the constraint. -/
def embed : Matrix (κ ⊕ ι) ι ℝ := Matrix.fromRows 0 1

theorem embed_mulVec (h : ι → ℝ) : (embed : Matrix (κ ⊕ ι) ι ℝ) *ᵥ h = Sum.elim (fun _ => 0) h := by
  unfold embed
  rw [fromRows_mulVec, zero_mulVec, one_mulVec]; rfl

theorem embed_transpose (x : κ → ℝ) (h : ι → ℝ) : (embed : Matrix (κ ⊕ ι) ι ℝ)ᵀ *ᵥ Sum.elim x h = h := by
  unfold embed
  rw [transpose_fromRows, fromCols_mulVec]
  simp

theorem block_geo {S : Matrix (κ ⊕ ι) (κ ⊕ ι) ℝ} (hd : S.det ≠ 0) {a x : κ → ℝ} {b h : ι → ℝ} {co : ℝ}
    (hx : S.toBlocks₁₁ *ᵥ x = a) (hco : co ≠ 0)
    (hh : ∀ j, h j = (1 / co) * (-(S.toBlocks₂₁ *ᵥ x) j + b j)) :
    (co • ((embed : Matrix (κ ⊕ ι) ι ℝ)ᵀ * S⁻¹ * (embed : Matrix (κ ⊕ ι) ι ℝ))) *ᵥ h
      = (embed : Matrix (κ ⊕ ι) ι ℝ)ᵀ *ᵥ (S⁻¹ *ᵥ Sum.elim a b) := by
  have hS : S *ᵥ Sum.elim x (fun _ => 0) = Sum.elim a b - co • ((embed : Matrix (κ ⊕ ι) ι ℝ) *ᵥ h) := by
    rw [embed_mulVec]
    funext q
    have e : S *ᵥ Sum.elim x (fun _ => 0) = Sum.elim (S.toBlocks₁₁ *ᵥ x) (S.toBlocks₂₁ *ᵥ x) := by
      conv_lhs => rw [← fromBlocks_toBlocks S]
      rw [fromBlocks_mulVec]
      have z : (Sum.elim x (fun _ => 0) : κ ⊕ ι → ℝ) ∘ Sum.inr = 0 := rfl
      have y : (Sum.elim x (fun _ => 0) : κ ⊕ ι → ℝ) ∘ Sum.inl = x := rfl
      rw [z, y, mulVec_zero, mulVec_zero, add_zero, add_zero]
    rw [e, hx]
    rcases q with i | j
    · simp
    · simp only [Sum.elim_inr, Pi.sub_apply, Pi.smul_apply, smul_eq_mul, hh]
      field_simp
      ring
  have h2 : S⁻¹ *ᵥ Sum.elim a b = co • (S⁻¹ *ᵥ ((embed : Matrix (κ ⊕ ι) ι ℝ) *ᵥ h)) + Sum.elim x (fun _ => 0) := by
    have h3 : S⁻¹ *ᵥ (S *ᵥ Sum.elim x (fun _ => 0)) = Sum.elim x (fun _ => 0) := by
      rw [mulVec_mulVec, nonsing_inv_mul S (Ne.isUnit hd), one_mulVec]
    rw [hS, mulVec_sub, mulVec_smul] at h3
    rw [← h3]; abel
  rw [h2, mulVec_add, embed_transpose, mulVec_smul, smul_mulVec, ← mulVec_mulVec, ← mulVec_mulVec]
  exact (add_zero _).symm

end lin

/-! ### Implicit modules of order 1 -/

/-- The matrix of `__compute_aqh`. -/
def Implicit1.A {n p : Nat} (m : Implicit1 d n p) : Matrix (Fin n × Fin (symDim d)) (Fin p) ℝ :=
  Matrix.of fun q k => ∑ l, ∑ i, ∑ v, m.R q.1 l i * m.C q.1 i k * m.R q.1 v i * etaOf d l v q.2

theorem Implicit1.aqh_eq {n p : Nat} (m : Implicit1 d n p) (h : Fin p → ℝ) : m.aqh h = m.A *ᵥ h := by
  funext q
  unfold Implicit1.aqh Implicit1.A
  simp only [mulVec, dotProduct, Matrix.of_apply, Finset.sum_mul]
  symm
  rw [Finset.sum_comm]
  refine Finset.sum_congr rfl fun l _ => ?_
  rw [Finset.sum_comm]
  refine Finset.sum_congr rfl fun i _ => Finset.sum_congr rfl fun k _ => ?_
  rw [Finset.sum_comm]
  refine Finset.sum_congr rfl fun v _ => ?_
  rw [Finset.sum_eq_single i]
  · simp [eye]; ring
  · intro u _ hu; simp [eye, hu]
  · simp

theorem Implicit1.aqCol_eq {n p : Nat} (m : Implicit1 d n p) (i : Fin p) (q : Fin n × Fin (symDim d)) :
    m.aqCol i q = m.A q i := by
  unfold Implicit1.aqCol
  rw [m.aqh_eq]
  simp [mulVec, dotProduct]

theorem Implicit1.sks_eq {n p : Nat} (m : Implicit1 d n p) :
    m.sks = gramMat m.σ (strainAtom m.gd) + m.ν • (1 : Matrix _ _ ℝ) := by
  unfold Implicit1.sks
  cases m.r
  · simp only; rw [computeSks1_eq]
  · simp only; rw [computeSks1Keops_eq, computeSks1_eq]

theorem Implicit1.sks_symm {n p : Nat} (m : Implicit1 d n p) : m.sksᵀ = m.sks := by
  rw [m.sks_eq]; exact smul_one_symm (gramMat_symm _ _) _

theorem Implicit1.sks_psd {n p : Nat} (m : Implicit1 d n p) (hν : 0 ≤ m.ν) (l : _ → ℝ) : 0 ≤ l ⬝ᵥ m.sks *ᵥ l := by
  rw [m.sks_eq]; exact smul_one_psd (gramMat_psd _ _) hν l

theorem Implicit1.solve_ok {n p : Nat} {m : Implicit1 d n p} {b x : Fin n × Fin (symDim d) → ℝ}
    (h : m.solve b = .ok x) : m.sks.det ≠ 0 ∧ x = m.sks⁻¹ *ᵥ b := by
  unfold Implicit1.solve at h
  cases hr : m.r <;> rw [hr] at h <;> dsimp only at h
  · exact ⟨(linSolve_ok h).1, (linSolve_ok h).2.1⟩
  · exact ⟨(keopsSolve_ok h).1, (keopsSolve_ok h).2.1⟩

theorem Implicit1.solve_of_det {n p : Nat} {m : Implicit1 d n p} (hd : m.sks.det ≠ 0) (b : Fin n × Fin (symDim d) → ℝ) :
    m.solve b = .ok (m.sks⁻¹ *ᵥ b) := by
  unfold Implicit1.solve
  cases m.r <;> dsimp only
  · exact linSolve_of_det hd b
  · exact keopsSolve_of_det hd b

/-- The object after a successful `compute_moments`. -/
def Implicit1.done {n p : Nat} (m : Implicit1 d n p) (h : Fin p → ℝ) : Implicit1 d n p :=
  { m with ctrl := h, cache := .some ⟨m.aqh h, m.sks⁻¹ *ᵥ m.aqh h,
      fun i => Matrix.of fun b c => ∑ t, (m.sks⁻¹ *ᵥ m.aqh h) (i, t) * etaOf d c b t⟩ }

theorem Implicit1.computeMoments_ok {n p : Nat} {m m' : Implicit1 d n p} (h : m.computeMoments = .ok m') :
    m.sks.det ≠ 0 ∧ m' = m.done m.ctrl := by
  unfold Implicit1.computeMoments at h
  cases h1 : m.solve (m.aqh m.ctrl) with
  | error e => rw [h1] at h; cases h
  | ok l =>
    rw [h1] at h
    obtain ⟨hd, rfl⟩ := Implicit1.solve_ok h1
    exact ⟨hd, (Except.ok.inj h).symm⟩

theorem Implicit1.computeMoments_of_det {n p : Nat} {m : Implicit1 d n p} (hd : m.sks.det ≠ 0) :
    m.computeMoments = .ok (m.done m.ctrl) := by
  unfold Implicit1.computeMoments
  rw [Implicit1.solve_of_det hd]; rfl

theorem Implicit1.fill_ok {n p : Nat} {m m' : Implicit1 d n p} {h : Fin p → ℝ} (hf : m.fill h = .ok m') :
    m.sks.det ≠ 0 ∧ m' = m.done h := Implicit1.computeMoments_ok hf

theorem Implicit1.fill_of_det {n p : Nat} {m : Implicit1 d n p} (hd : m.sks.det ≠ 0) (h : Fin p → ℝ) :
    m.fill h = .ok (m.done h) :=
  Implicit1.computeMoments_of_det (m := { m with ctrl := h }) hd

/-- The quadratic form of the controls. -/
def Implicit1.Q {n p : Nat} (m : Implicit1 d n p) : Matrix (Fin p) (Fin p) ℝ := m.coeff • (m.Aᵀ * m.sks⁻¹ * m.A)
def Implicit1.dual {n p : Nat} (m : Implicit1 d n p) (man : Mfd d) : Fin p → ℝ :=
  m.Aᵀ *ᵥ (m.sks⁻¹ *ᵥ dualVec m.σ (strainAtom m.gd) (momAtoms man))

theorem Implicit1.comb {n p : Nat} (m : Implicit1 d n p) (l : Fin n × Fin (symDim d) → ℝ) :
    Comb (List.ofFn fun i => atom1 (m.gd i) (symPart (Matrix.of fun b c => ∑ t, l (i, t) * etaOf d c b t)))
      (strainAtom m.gd) l := by
  refine comb_strain m.gd l _ fun i b c => ?_
  unfold symPart
  simp only [Matrix.of_apply]
  rw [Finset.sum_congr rfl fun t _ => by rw [etaOf_symm c b t]]
  ring

theorem Implicit1.has {n p : Nat} (man : Mfd d) (m : Implicit1 d n p) (h : Fin p → ℝ) :
    Has man m.Q (m.dual man) h (.implicit1 (m.done h)) := by
  refine ⟨.fp m.r m.gd _ m.σ, rfl, (isRep_fp ..).avail, avail_fp_one .., ?_, congrArg Except.ok ?_⟩
  · rw [pair_rep (isRep_fp ..) (avail_fp_one ..), comb_dual (m.comb _), m.aqh_eq]
    exact schur_pair m.sks_symm _ _ _
  · show 0.5 * m.coeff * (m.aqh h ⬝ᵥ m.sks⁻¹ *ᵥ m.aqh h) = _
    unfold Implicit1.Q
    rw [smul_mulVec, dotProduct_smul, schur_quad, m.aqh_eq, smul_eq_mul]
    ring

theorem Implicit1.aqkiaq_of_det {n p : Nat} {m : Implicit1 d n p} (hd : m.sks.det ≠ 0) :
    m.aqkiaq = .ok (m.Aᵀ * m.sks⁻¹ * m.A) := by
  unfold Implicit1.aqkiaq
  rw [Implicit1.solve_of_det hd]
  refine congrArg Except.ok (funext fun i => funext fun j => ?_)
  rw [Implicit1.solve_of_det hd]
  have h1 : m.aqCol i = m.A *ᵥ (Pi.single i 1) := by
    funext q; rw [m.aqCol_eq]; simp
  have h2 : m.aqCol j = m.A *ᵥ (Pi.single j 1) := by
    funext q; rw [m.aqCol_eq]; simp
  show (m.sks⁻¹ *ᵥ m.aqCol i) ⬝ᵥ m.aqCol j = _
  rw [h1, schur_pair m.sks_symm, h2, mulVec_mulVec, mulVec_mulVec, single_one_dotProduct, mulVec_single_one]
  rfl

theorem Implicit1.geo {n p : Nat} (man : Mfd d) {m m' : Implicit1 d n p} (h : m.geodesic man = .ok m') :
    ∃ c, m' = m.done c ∧ m.Q *ᵥ c = m.dual man ∧ m.sks.det ≠ 0 := by
  unfold Implicit1.geodesic at h
  cases h1 : man.cotToVs m.σ m.r with
  | error e => rw [h1] at h; cases h
  | ok vs =>
    rw [h1] at h
    dsimp only at h
    cases h2 : vs.jacobians m.gd with
    | error e => rw [h2] at h; cases h
    | ok J =>
      rw [h2] at h
      dsimp only at h
      obtain ⟨hj1, rfl⟩ := jacobians_ok h2
      have hv := (cotToVs_isRep man h1).jac hj1
      cases h3 : m.solve (strains fun i => fieldJac vs (m.gd i)) with
      | error e => rw [h3] at h; cases h
      | ok tl =>
        rw [h3] at h
        dsimp only at h
        obtain ⟨hd, rfl⟩ := Implicit1.solve_ok h3
        cases h4 : tdiv 1 m.coeff with
        | error e => rw [h4] at h; cases h
        | ok u =>
          rw [h4] at h
          dsimp only at h
          have hc := (tdiv_ok h4).1
          rw [Implicit1.aqkiaq_of_det hd] at h
          dsimp only at h
          cases h5 : linSolve (m.Aᵀ * m.sks⁻¹ * m.A) (fun i => ∑ q, m.aqCol i q *
              ((m.sks⁻¹ *ᵥ strains fun i => fieldJac vs (m.gd i)) q / m.coeff)) with
          | error e => rw [h5] at h; cases h
          | ok c =>
            rw [h5] at h
            dsimp only at h
            rw [Implicit1.fill_of_det hd] at h
            dsimp only at h
            refine ⟨c, ?_, ?_, hd⟩
            · cases hr : m.r <;> rw [hr] at h <;> dsimp only at h
              · exact (Implicit1.computeMoments_ok (m := m.done c) h).2
              · exact (Except.ok.inj h).symm
            · unfold Implicit1.Q Implicit1.dual
              rw [smul_mulVec, (linSolve_ok h5).2.2]
              have e : (strains fun i => fieldJac vs (m.gd i)) = dualVec m.σ (strainAtom m.gd) (momAtoms man) := by
                funext q; rw [dualVec_strain]; simp only [hv]
              rw [e]
              funext i
              simp only [Pi.smul_apply, smul_eq_mul, Finset.mul_sum, mulVec_transpose, vecMul, dotProduct]
              refine Finset.sum_congr rfl fun q _ => ?_
              rw [m.aqCol_eq]
              field_simp

def Implicit1.quad {n p : Nat} (man : Mfd d) (m : Implicit1 d n p) (hc : 0 ≤ m.coeff) (hν : 0 ≤ m.ν) :
    Quad man (.implicit1 m) where
  ι := Fin p
  inst := inferInstance
  Q := m.Q
  s := m.dual man
  enc := encScalars p
  symm := by unfold Implicit1.Q; rw [transpose_smul, schur_symm m.sks_symm]
  psd := smul_psd (schur_psd m.sks_symm (m.sks_psd hν) _) hc
  enc_smul := encScalars_smul p
  fill c m' h := by
    obtain ⟨k, a, rfl, ha, rfl⟩ := fill_implicit1 h
    rw [encScalars_rfl, (Implicit1.fill_ok ha).2]
    exact m.has man k
  geo m' h := by
    rw [DefModule.geodesic] at h
    obtain ⟨a, ha, rfl⟩ := wrap_ok h
    obtain ⟨c, rfl, hc, -⟩ := Implicit1.geo man ha
    exact ⟨_, m.has man c, hc⟩

/-! ### Constraint on the divergence -/

section blocks
variable {κ ι : Type} [Fintype κ] [Fintype ι]

theorem gramMat_elim (σ : ℝ) (a : κ → Atom d) (b : ι → Atom d) (T : Matrix κ ι ℝ)
    (hT : ∀ i j, T i j = (a i).pair ((b j).rep σ) ((b j).repJ σ)) :
    gramMat σ (Sum.elim a b) = Matrix.fromBlocks (gramMat σ a) T Tᵀ (gramMat σ b) := by
  funext p q
  rcases p with i | i <;> rcases q with j | j
  · rfl
  · exact (hT i j).symm
  · show (b i).pair ((a j).rep σ) ((a j).repJ σ) = T j i
    rw [hT, atom_gram_symm]
  · rfl

theorem comb_elim {a : κ → Atom d} {b : ι → Atom d} {A B : List (Atom d)} {l : κ ⊕ ι → ℝ}
    (hA : Comb A b fun q => l (.inr q)) (hB : Comb B a fun q => l (.inl q)) :
    Comb (A ++ (B ++ [])) (Sum.elim a b) l := by
  intro v J
  rw [List.append_nil, pair_append, hA, hB, Fintype.sum_sum_type, add_comm]
  rfl
end blocks

theorem zeroThen_eq {κ : Type} [Fintype κ] [DecidableEq κ] {P : Nat} (h : Fin P → Vec d) :
    (zeroThen h : κ ⊕ Fin P × Fin d → ℝ) = (embed : Matrix (κ ⊕ Fin P × Fin d) (Fin P × Fin d) ℝ) *ᵥ fun q => h q.1 q.2 := by
  rw [embed_mulVec]; rfl

def divAtom {N : Nat} (α : ℝ) (x : Fin N → Vec d) (i : Fin N) : Atom d := atom1 (x i) (α • (1 : Mat d))

theorem divAtom_pair {N : Nat} (α : ℝ) (x : Fin N → Vec d) (i : Fin N) (v : Vec d → Vec d) (J : Vec d → Mat d) :
    (divAtom α x i).pair v J = α * ∑ k, J (x i) k k := by
  unfold divAtom
  rw [atom1_pair, Finset.mul_sum]
  refine Finset.sum_congr rfl fun b _ => ?_
  rw [Finset.sum_eq_single b]
  · simp
  · intro c _ hc; simp [Matrix.one_apply, Ne.symm hc]
  · simp

/-- The functionals of the constraint and of the values. -/
def DivFree.fam {N P : Nat} (m : DivFree d N P) : Fin N ⊕ Fin P × Fin d → Atom d :=
  Sum.elim (divAtom m.coeffDiv m.X) (pointAtom m.Y)

theorem DivFree.SKS_eq {N P : Nat} (m : DivFree d N P) :
    m.SKS = gramMat m.σ m.fam + m.ν • (1 : Matrix _ _ ℝ) := by
  unfold DivFree.SKS DivFree.fam
  congr 1
  rw [gramMat_elim m.σ _ _ m.T]
  · have e1 : gramMat m.σ (divAtom m.coeffDiv m.X) = m.S1 := by
      funext i j
      show (divAtom m.coeffDiv m.X i).pair _ _ = _
      rw [divAtom_pair]
      unfold DivFree.S1
      rw [pow_two, mul_assoc]
      congr 1
      rw [Finset.mul_sum]
      refine Finset.sum_congr rfl fun b _ => ?_
      simp only [Atom.repJ, divAtom, atom1, Pi.zero_apply, mul_zero, zero_sub, Matrix.smul_apply, Matrix.one_apply,
        smul_eq_mul, mul_ite, mul_one, Finset.sum_ite_eq, Finset.mem_univ, if_true, gaussRow2_eq]
      ring
    have e2 : gramMat m.σ (pointAtom m.Y) = m.S2 := by
      funext q r
      rw [gramMat_point]
      unfold DivFree.S2 eye
      rw [kXX_eq]
    rw [e1, e2]
  · intro i q
    rw [divAtom_pair]
    unfold DivFree.T
    congr 1
    simp [Atom.repJ, pointAtom, atom0, gaussRow1_eq, Pi.single_apply]

theorem DivFree.SKS_symm {N P : Nat} (m : DivFree d N P) : m.SKSᵀ = m.SKS := by
  rw [m.SKS_eq]; exact smul_one_symm (gramMat_symm _ _) _
theorem DivFree.SKS_psd {N P : Nat} (m : DivFree d N P) (hν : 0 ≤ m.ν) (l : _ → ℝ) : 0 ≤ l ⬝ᵥ m.SKS *ᵥ l := by
  rw [m.SKS_eq]; exact smul_one_psd (gramMat_psd _ _) hν l

/-- The object after a successful `compute_moments`. -/
def DivFree.done {N P : Nat} (m : DivFree d N P) (h : Fin P → Vec d) : DivFree d N P :=
  { m with ctrl := h, lambdas := some (m.SKS⁻¹ *ᵥ zeroThen h) }

theorem DivFree.computeMoments_ok {N P : Nat} {m m' : DivFree d N P} (h : m.computeMoments = .ok m') :
    m.SKS.det ≠ 0 ∧ m' = m.done m.ctrl := by
  unfold DivFree.computeMoments at h
  cases h1 : linSolve m.SKS (zeroThen m.ctrl) with
  | error e => rw [h1] at h; cases h
  | ok l =>
    rw [h1] at h
    obtain ⟨hd, rfl, -⟩ := linSolve_ok h1
    exact ⟨hd, (Except.ok.inj h).symm⟩
theorem DivFree.computeMoments_of_det {N P : Nat} {m : DivFree d N P} (hd : m.SKS.det ≠ 0) :
    m.computeMoments = .ok (m.done m.ctrl) := by
  unfold DivFree.computeMoments
  rw [linSolve_of_det hd]; rfl
theorem DivFree.fill_ok {N P : Nat} {m m' : DivFree d N P} {h : Fin P → Vec d} (hf : m.fill h = .ok m') :
    m.SKS.det ≠ 0 ∧ m' = m.done h := DivFree.computeMoments_ok hf
theorem DivFree.fill_of_det {N P : Nat} {m : DivFree d N P} (hd : m.SKS.det ≠ 0) (h : Fin P → Vec d) :
    m.fill h = .ok (m.done h) := DivFree.computeMoments_of_det (m := { m with ctrl := h }) hd

def DivFree.Q {N P : Nat} (m : DivFree d N P) : Matrix (Fin P × Fin d) (Fin P × Fin d) ℝ :=
  m.coeff • ((embed : Matrix (Fin N ⊕ Fin P × Fin d) (Fin P × Fin d) ℝ)ᵀ * m.SKS⁻¹ * embed)
def DivFree.dual {N P : Nat} (m : DivFree d N P) (man : Mfd d) : Fin P × Fin d → ℝ :=
  (embed : Matrix (Fin N ⊕ Fin P × Fin d) (Fin P × Fin d) ℝ)ᵀ *ᵥ (m.SKS⁻¹ *ᵥ dualVec m.σ m.fam (momAtoms man))

theorem comb_div {N : Nat} (α : ℝ) (x : Fin N → Vec d) (l : Fin N → ℝ) :
    Comb (List.ofFn fun i => atom1 (x i) ((α * l i) • (1 : Mat d))) (divAtom α x) l := by
  intro v J
  rw [pair_ofFn]
  refine Finset.sum_congr rfl fun i _ => ?_
  have h := divAtom_pair (α * l i) x i v J
  unfold divAtom at h
  rw [h, divAtom_pair]; ring

theorem DivFree.isRep {N P : Nat} (m : DivFree d N P) (l : Fin N ⊕ Fin P × Fin d → ℝ) :
    IsRep m.σ (.sum [.f0 .torch m.Y (fun j c => l (.inr (j, c))) m.σ, .f1 .torch m.X (fun i => m.coeffDiv * l (.inl i)) m.σ])
      ((List.ofFn fun j => atom0 (m.Y j) (fun c => l (.inr (j, c)))) ++
        ((List.ofFn fun i => atom1 (m.X i) ((m.coeffDiv * l (.inl i)) • (1 : Mat d))) ++ [])) :=
  (isRep_f0 ..).sum_cons ((isRep_f1 ..).sum_cons (isRep_sum_nil _))

theorem DivFree.avail {N P : Nat} (m : DivFree d N P) (l : Fin N ⊕ Fin P × Fin d → ℝ) :
    Avail 1 (.sum [.f0 .torch m.Y (fun j c => l (.inr (j, c))) m.σ, .f1 .torch m.X (fun i => m.coeffDiv * l (.inl i)) m.σ]) :=
  avail_sum_cons.mpr ⟨avail_f0_one .., avail_sum_cons.mpr ⟨avail_f1_one .., avail_sum_nil 1⟩⟩

theorem DivFree.comb {N P : Nat} (m : DivFree d N P) (l : Fin N ⊕ Fin P × Fin d → ℝ) :
    Comb ((List.ofFn fun j => atom0 (m.Y j) (fun c => l (.inr (j, c)))) ++
        ((List.ofFn fun i => atom1 (m.X i) ((m.coeffDiv * l (.inl i)) • (1 : Mat d))) ++ [])) m.fam l :=
  comb_elim (comb_point m.Y _) (comb_div _ _ _)

theorem DivFree.has {N P : Nat} (man : Mfd d) (m : DivFree d N P) (h : Fin P → Vec d) :
    Has man m.Q (m.dual man) (fun q => h q.1 q.2) (.divFree (m.done h)) := by
  refine ⟨_, rfl, (m.isRep (m.SKS⁻¹ *ᵥ zeroThen h)).avail, m.avail (m.SKS⁻¹ *ᵥ zeroThen h), ?_, congrArg Except.ok ?_⟩
  · refine (pair_rep (m.isRep (m.SKS⁻¹ *ᵥ zeroThen h)) (m.avail _) _).trans ?_
    rw [comb_dual (m.comb _), zeroThen_eq]
    exact schur_pair m.SKS_symm _ _ _
  · show 0.5 * m.coeff * (zeroThen h ⬝ᵥ m.SKS⁻¹ *ᵥ zeroThen h) = _
    unfold DivFree.Q
    rw [smul_mulVec, dotProduct_smul, schur_quad, zeroThen_eq, smul_eq_mul]
    ring

theorem DivFree.geo {N P : Nat} (man : Mfd d) {m m' : DivFree d N P} (h : m.geodesic man = .ok m') :
    ∃ c, m' = m.done c ∧ m.Q *ᵥ (fun q => c q.1 q.2) = m.dual man ∧ m.SKS.det ≠ 0 := by
  unfold DivFree.geodesic at h
  cases h1 : man.cotToVs m.σ .torch with
  | error e => rw [h1] at h; cases h
  | ok vs =>
    rw [h1] at h
    dsimp only at h
    cases h2 : vs.jacobians m.X with
    | error e => rw [h2] at h; cases h
    | ok J =>
      rw [h2] at h
      dsimp only at h
      cases h2' : vs.values m.Y with
      | error e => rw [h2'] at h; cases h
      | ok V =>
        rw [h2'] at h
        dsimp only at h
        obtain ⟨hj1, rfl⟩ := jacobians_ok h2
        obtain ⟨-, rfl⟩ := values_ok h2'
        have hr := cotToVs_isRep man h1
        cases h3 : linSolve m.SKS.toBlocks₁₁ (fun i => m.coeffDiv * ∑ k, fieldJac vs (m.X i) k k) with
        | error e => rw [h3] at h; cases h
        | ok x =>
          rw [h3] at h
          dsimp only at h
          split at h
          · cases h
          · rename_i hc
            cases h4 : m.fill (fun j c => (1 / m.coeff) * (-(m.SKS.toBlocks₂₁.mulVec x) (j, c) + fieldVal vs (m.Y j) c)) with
            | error e => rw [h4] at h; cases h
            | ok a =>
              rw [h4] at h
              dsimp only at h
              obtain ⟨hd, rfl⟩ := DivFree.fill_ok h4
              refine ⟨_, (DivFree.computeMoments_ok h).2, ?_, hd⟩
              unfold DivFree.Q DivFree.dual
              refine (block_geo hd (linSolve_ok h3).2.2 hc (b := fun q => fieldVal vs (m.Y q.1) q.2) fun q => rfl).trans ?_
              congr 2
              funext q
              rcases q with i | q
              · refine Eq.trans ?_ (divAtom_pair m.coeffDiv m.X i _ _).symm
                simp only [Sum.elim_inl, hr.jac hj1]
              · refine Eq.trans ?_ (pointAtom_pair m.Y q _ _).symm
                simp only [Sum.elim_inr, hr.val]

def DivFree.quad {N P : Nat} (man : Mfd d) (m : DivFree d N P) (hc : 0 ≤ m.coeff) (hν : 0 ≤ m.ν) :
    Quad man (.divFree m) where
  ι := Fin P × Fin d
  inst := inferInstance
  Q := m.Q
  s := m.dual man
  enc := encVecs P
  symm := by unfold DivFree.Q; rw [transpose_smul, schur_symm m.SKS_symm]
  psd := smul_psd (schur_psd m.SKS_symm (m.SKS_psd hν) _) hc
  enc_smul := encVecs_smul P
  fill c m' h := by
    obtain ⟨k, a, rfl, ha, rfl⟩ := fill_divFree h
    rw [encVecs_rfl, (DivFree.fill_ok ha).2]
    exact m.has man k
  geo m' h := by
    rw [DefModule.geodesic] at h
    obtain ⟨a, ha, rfl⟩ := wrap_ok h
    obtain ⟨c, rfl, hc, -⟩ := DivFree.geo man ha
    exact ⟨_, m.has man c, hc⟩

/-! ### Constraint on the strain -/

def arapAtom {N : Nat} (α : ℝ) (x : Fin N → Vec d) (q : Fin N × Fin (symDim d)) : Atom d := atom1 (x q.1) (α • etaM q.2)

theorem arapAtom_smul {N : Nat} (α : ℝ) (x : Fin N → Vec d) (q : Fin N × Fin (symDim d)) (v : Vec d → Vec d)
    (J : Vec d → Mat d) : (arapAtom α x q).pair v J = α * (strainAtom x q).pair v J := by
  unfold arapAtom strainAtom
  rw [atom1_pair, atom1_pair]
  simp only [Matrix.smul_apply, smul_eq_mul, Finset.mul_sum, mul_assoc]

theorem strainAtom_pair {N : Nat} (x : Fin N → Vec d) (q : Fin N × Fin (symDim d)) (v : Vec d → Vec d)
    (J : Vec d → Mat d) : (strainAtom x q).pair v J = strains (fun i => J (x i)) q := by
  unfold strainAtom strains
  rw [atom1_pair]
  have e : ∑ b, ∑ c, 0.5 * (J (x q.1) b c + J (x q.1) c b) * etaOf d b c q.2
      = 0.5 * ∑ b, ∑ c, J (x q.1) b c * etaOf d b c q.2 + 0.5 * ∑ b, ∑ c, J (x q.1) c b * etaOf d b c q.2 := by
    simp only [Finset.mul_sum, ← Finset.sum_add_distrib]
    exact Finset.sum_congr rfl fun b _ => Finset.sum_congr rfl fun c _ => by ring
  have e2 : ∑ b, ∑ c, J (x q.1) c b * etaOf d b c q.2 = ∑ b, ∑ c, J (x q.1) b c * etaOf d b c q.2 := by
    rw [Finset.sum_comm]
    exact Finset.sum_congr rfl fun b _ => Finset.sum_congr rfl fun c _ => by rw [etaOf_symm]
  rw [e, e2]
  have e3 : ∑ b, ∑ c, (etaM q.2 : Mat d) b c * J (x q.1) b c = ∑ b, ∑ c, J (x q.1) b c * etaOf d b c q.2 :=
    Finset.sum_congr rfl fun b _ => Finset.sum_congr rfl fun c _ => by rw [etaM_apply, mul_comm]
  rw [e3]; ring

theorem strains_smul {N : Nat} (α : ℝ) (J : Fin N → Mat d) (q : Fin N × Fin (symDim d)) :
    strains (fun i => α • J i) q = α * strains J q := by
  unfold strains
  simp only [Matrix.smul_apply, smul_eq_mul, Finset.mul_sum]
  exact Finset.sum_congr rfl fun b _ => Finset.sum_congr rfl fun c _ => by ring

theorem arapAtom_pair {N : Nat} (α : ℝ) (x : Fin N → Vec d) (q : Fin N × Fin (symDim d)) (v : Vec d → Vec d)
    (J : Vec d → Mat d) : (arapAtom α x q).pair v J = strains (fun i => α • J (x i)) q := by
  rw [arapAtom_smul, strainAtom_pair, strains_smul]

theorem comb_arap {N : Nat} (α : ℝ) (x : Fin N → Vec d) (l : Fin N × Fin (symDim d) → ℝ) :
    Comb (List.ofFn fun i => atom1 (x i) (symPart (Matrix.of fun b c => α * ∑ t, l (i, t) * etaOf d c b t)))
      (arapAtom α x) l := by
  intro v J
  rw [comb_strain x (fun q => α * l q) (fun i => Matrix.of fun b c => α * ∑ t, l (i, t) * etaOf d c b t) _ v J]
  · exact Finset.sum_congr rfl fun q _ => by rw [arapAtom_smul]; ring
  · intro i b c
    unfold symPart
    simp only [Matrix.of_apply]
    rw [Finset.sum_congr rfl fun t _ => by rw [etaOf_symm c b t], Finset.mul_sum, ← Finset.sum_add_distrib,
      Finset.sum_div]
    exact Finset.sum_congr rfl fun t _ => by ring

/-- The functionals of the constraint and of the values. -/
def Arap.fam {N P : Nat} (m : Arap d N P) : (Fin N × Fin (symDim d)) ⊕ Fin P × Fin d → Atom d :=
  Sum.elim (arapAtom m.coeffArap m.X) (pointAtom m.Y)

theorem Arap.SKS_eq {N P : Nat} (m : Arap d N P) :
    m.SKS = gramMat m.σ m.fam + m.ν • (1 : Matrix _ _ ℝ) := by
  unfold Arap.SKS Arap.fam
  congr 1
  rw [gramMat_elim m.σ _ _ m.T]
  · have e1 : gramMat m.σ (arapAtom m.coeffArap m.X) = m.S1 := by
      funext p q
      show (arapAtom m.coeffArap m.X p).pair _ _ = _
      unfold Arap.S1
      rw [arapAtom_smul, atom_gram_symm, arapAtom_smul, computeSks1_eq, atom_gram_symm]
      show _ = m.coeffArap ^ 2 * (strainAtom m.X p).pair _ _
      ring
    have e2 : gramMat m.σ (pointAtom m.Y) = m.S2 := by
      funext q r
      rw [gramMat_point]
      unfold Arap.S2 eye
      rw [kXX_eq]
    rw [e1, e2]
  · intro p q
    rw [arapAtom_smul, strainAtom_pair]
    unfold Arap.T strains
    congr 1
    refine Finset.sum_congr rfl fun k _ => Finset.sum_congr rfl fun l _ => ?_
    simp only [Atom.repJ, pointAtom, atom0, gaussRow1_eq, Pi.single_apply, Matrix.zero_apply, mul_zero,
      Finset.sum_const_zero, sub_zero, eye]
    have e1 : ∀ l : Fin d, (if q.2 = l then (1:ℝ) else 0) = if l = q.2 then 1 else 0 := fun l => by
      simp only [eq_comm]
    rw [e1 l, e1 k]
    ring

theorem Arap.SKS_symm {N P : Nat} (m : Arap d N P) : m.SKSᵀ = m.SKS := by
  rw [m.SKS_eq]; exact smul_one_symm (gramMat_symm _ _) _
theorem Arap.SKS_psd {N P : Nat} (m : Arap d N P) (hν : 0 ≤ m.ν) (l : _ → ℝ) : 0 ≤ l ⬝ᵥ m.SKS *ᵥ l := by
  rw [m.SKS_eq]; exact smul_one_psd (gramMat_psd _ _) hν l

/-- The object after a successful `compute_moments`. -/
def Arap.done {N P : Nat} (m : Arap d N P) (h : Fin P → Vec d) : Arap d N P :=
  { m with ctrl := h, lambdas := some (m.SKS⁻¹ *ᵥ zeroThen h) }

theorem Arap.computeMoments_ok {N P : Nat} {m m' : Arap d N P} (h : m.computeMoments = .ok m') :
    m.SKS.det ≠ 0 ∧ m' = m.done m.ctrl := by
  unfold Arap.computeMoments at h
  cases h1 : linSolve m.SKS (zeroThen m.ctrl) with
  | error e => rw [h1] at h; cases h
  | ok l =>
    rw [h1] at h
    obtain ⟨hd, rfl, -⟩ := linSolve_ok h1
    exact ⟨hd, (Except.ok.inj h).symm⟩
theorem Arap.computeMoments_of_det {N P : Nat} {m : Arap d N P} (hd : m.SKS.det ≠ 0) :
    m.computeMoments = .ok (m.done m.ctrl) := by
  unfold Arap.computeMoments
  rw [linSolve_of_det hd]; rfl
theorem Arap.fill_ok {N P : Nat} {m m' : Arap d N P} {h : Fin P → Vec d} (hf : m.fill h = .ok m') :
    m.SKS.det ≠ 0 ∧ m' = m.done h := Arap.computeMoments_ok hf
theorem Arap.fill_of_det {N P : Nat} {m : Arap d N P} (hd : m.SKS.det ≠ 0) (h : Fin P → Vec d) :
    m.fill h = .ok (m.done h) := Arap.computeMoments_of_det (m := { m with ctrl := h }) hd

def Arap.Q {N P : Nat} (m : Arap d N P) : Matrix (Fin P × Fin d) (Fin P × Fin d) ℝ :=
  m.coeff • ((embed : Matrix ((Fin N × Fin (symDim d)) ⊕ Fin P × Fin d) (Fin P × Fin d) ℝ)ᵀ * m.SKS⁻¹ * embed)
def Arap.dual {N P : Nat} (m : Arap d N P) (man : Mfd d) : Fin P × Fin d → ℝ :=
  (embed : Matrix ((Fin N × Fin (symDim d)) ⊕ Fin P × Fin d) (Fin P × Fin d) ℝ)ᵀ *ᵥ (m.SKS⁻¹ *ᵥ dualVec m.σ m.fam (momAtoms man))

theorem Arap.isRep {N P : Nat} (m : Arap d N P) (l : (Fin N × Fin (symDim d)) ⊕ Fin P × Fin d → ℝ) :
    IsRep m.σ (.sum [.f0 .torch m.Y (fun j c => l (.inr (j, c))) m.σ, .fp .torch m.X (fun i => Matrix.of fun b c => m.coeffArap * ∑ t, l (.inl (i, t)) * etaOf d c b t) m.σ])
      ((List.ofFn fun j => atom0 (m.Y j) (fun c => l (.inr (j, c)))) ++
        ((List.ofFn fun i => atom1 (m.X i) (symPart (Matrix.of fun b c => m.coeffArap * ∑ t, l (.inl (i, t)) * etaOf d c b t))) ++ [])) :=
  (isRep_f0 ..).sum_cons ((isRep_fp ..).sum_cons (isRep_sum_nil _))

theorem Arap.avail {N P : Nat} (m : Arap d N P) (l : (Fin N × Fin (symDim d)) ⊕ Fin P × Fin d → ℝ) :
    Avail 1 (.sum [.f0 .torch m.Y (fun j c => l (.inr (j, c))) m.σ, .fp .torch m.X (fun i => Matrix.of fun b c => m.coeffArap * ∑ t, l (.inl (i, t)) * etaOf d c b t) m.σ]) :=
  avail_sum_cons.mpr ⟨avail_f0_one .., avail_sum_cons.mpr ⟨avail_fp_one .., avail_sum_nil 1⟩⟩

theorem Arap.comb {N P : Nat} (m : Arap d N P) (l : (Fin N × Fin (symDim d)) ⊕ Fin P × Fin d → ℝ) :
    Comb ((List.ofFn fun j => atom0 (m.Y j) (fun c => l (.inr (j, c)))) ++
        ((List.ofFn fun i => atom1 (m.X i) (symPart (Matrix.of fun b c => m.coeffArap * ∑ t, l (.inl (i, t)) * etaOf d c b t))) ++ [])) m.fam l :=
  comb_elim (comb_point m.Y fun j c => l (.inr (j, c))) (comb_arap m.coeffArap m.X fun q => l (.inl q))

theorem Arap.has {N P : Nat} (man : Mfd d) (m : Arap d N P) (h : Fin P → Vec d) :
    Has man m.Q (m.dual man) (fun q => h q.1 q.2) (.arap (m.done h)) := by
  refine ⟨_, rfl, (m.isRep (m.SKS⁻¹ *ᵥ zeroThen h)).avail, m.avail (m.SKS⁻¹ *ᵥ zeroThen h), ?_, congrArg Except.ok ?_⟩
  · refine (pair_rep (m.isRep (m.SKS⁻¹ *ᵥ zeroThen h)) (m.avail _) _).trans ?_
    rw [comb_dual (m.comb _), zeroThen_eq]
    exact schur_pair m.SKS_symm _ _ _
  · show 0.5 * m.coeff * (zeroThen h ⬝ᵥ m.SKS⁻¹ *ᵥ zeroThen h) = _
    unfold Arap.Q
    rw [smul_mulVec, dotProduct_smul, schur_quad, zeroThen_eq, smul_eq_mul]
    ring

theorem Arap.geo {N P : Nat} (man : Mfd d) {m m' : Arap d N P} (h : m.geodesic man = .ok m') :
    ∃ c, m' = m.done c ∧ m.Q *ᵥ (fun q => c q.1 q.2) = m.dual man ∧ m.SKS.det ≠ 0 := by
  unfold Arap.geodesic at h
  cases h1 : man.cotToVs m.σ .torch with
  | error e => rw [h1] at h; cases h
  | ok vs =>
    rw [h1] at h
    dsimp only at h
    cases h2 : vs.jacobians m.X with
    | error e => rw [h2] at h; cases h
    | ok J =>
      rw [h2] at h
      dsimp only at h
      cases h2' : vs.values m.Y with
      | error e => rw [h2'] at h; cases h
      | ok V =>
        rw [h2'] at h
        dsimp only at h
        obtain ⟨hj1, rfl⟩ := jacobians_ok h2
        obtain ⟨-, rfl⟩ := values_ok h2'
        have hr := cotToVs_isRep man h1
        cases h3 : linSolve m.SKS.toBlocks₁₁ (strains fun i => m.coeffArap • fieldJac vs (m.X i)) with
        | error e => rw [h3] at h; cases h
        | ok x =>
          rw [h3] at h
          dsimp only at h
          split at h
          · cases h
          · rename_i hc
            cases h4 : m.fill (fun j c => (1 / m.coeff) * (-(m.SKS.toBlocks₂₁.mulVec x) (j, c) + fieldVal vs (m.Y j) c)) with
            | error e => rw [h4] at h; cases h
            | ok a =>
              rw [h4] at h
              dsimp only at h
              obtain ⟨hd, rfl⟩ := Arap.fill_ok h4
              refine ⟨_, (Arap.computeMoments_ok h).2, ?_, hd⟩
              unfold Arap.Q Arap.dual
              refine (block_geo hd (linSolve_ok h3).2.2 hc (b := fun q => fieldVal vs (m.Y q.1) q.2) fun q => rfl).trans ?_
              congr 2
              funext q
              rcases q with i | q
              · refine Eq.trans ?_ (arapAtom_pair m.coeffArap m.X i _ _).symm
                simp only [Sum.elim_inl, hr.jac hj1]
              · refine Eq.trans ?_ (pointAtom_pair m.Y q _ _).symm
                simp only [Sum.elim_inr, hr.val]

def Arap.quad {N P : Nat} (man : Mfd d) (m : Arap d N P) (hc : 0 ≤ m.coeff) (hν : 0 ≤ m.ν) :
    Quad man (.arap m) where
  ι := Fin P × Fin d
  inst := inferInstance
  Q := m.Q
  s := m.dual man
  enc := encVecs P
  symm := by unfold Arap.Q; rw [transpose_smul, schur_symm m.SKS_symm]
  psd := smul_psd (schur_psd m.SKS_symm (m.SKS_psd hν) _) hc
  enc_smul := encVecs_smul P
  fill c m' h := by
    obtain ⟨k, a, rfl, ha, rfl⟩ := fill_arap h
    rw [encVecs_rfl, (Arap.fill_ok ha).2]
    exact m.has man k
  geo m' h := by
    rw [DefModule.geodesic] at h
    obtain ⟨a, ha, rfl⟩ := wrap_ok h
    obtain ⟨c, rfl, hc, -⟩ := Arap.geo man ha
    exact ⟨_, m.has man c, hc⟩

end
end Imodal
