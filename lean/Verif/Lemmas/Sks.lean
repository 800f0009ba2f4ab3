import Verif.Lemmas.Quad
import Verif.Model.Modules
/-! The strain basis and the constraint matrices. -/
set_option autoImplicit false
namespace Imodal
noncomputable section
open Matrix
variable {d : Nat}

theorem gaussRow1_eq (σ : ℝ) (x : Vec d) (c : Fin d) : gaussRow1 σ x c = g1 σ x c := rfl
theorem gaussRow2_eq (σ : ℝ) (x : Vec d) (b c : Fin d) : gaussRow2 σ x b c = g2 σ x b c := rfl

theorem etaOf_two : etaOf 2 = fun i j t =>
    if i.val = 0 ∧ j.val = 0 then (if t.val = 0 then 1 else 0)
    else if i.val = 0 ∧ j.val = 1 then (if t.val = 1 then invSqrt2 else 0)
    else if i.val = 1 ∧ j.val = 0 then (if t.val = 1 then invSqrt2 else 0)
    else (if t.val = 2 then 1 else 0) := rfl

theorem etaOf_three : etaOf 3 = fun i j t =>
    if i.val = j.val ∧ t.val = i.val then 1
    else if i.val = 0 ∧ j.val = 1 ∧ t.val = 3 then invSqrt2
    else if i.val = 1 ∧ j.val = 0 ∧ t.val = 3 then invSqrt2
    else if i.val = 0 ∧ j.val = 2 ∧ t.val = 4 then invSqrt2
    else if i.val = 2 ∧ j.val = 0 ∧ t.val = 4 then invSqrt2
    else if i.val = 1 ∧ j.val = 2 ∧ t.val = 5 then invSqrt2
    else if i.val = 2 ∧ j.val = 1 ∧ t.val = 5 then invSqrt2
    else 0 := rfl

theorem etaOf_other (h2 : d ≠ 2) (h3 : d ≠ 3) : etaOf d = fun _ _ _ => 0 := by
  unfold etaOf eta; rw [if_neg h2, if_neg h3]

theorem etaOf_symm (b c : Fin d) (t : Fin (symDim d)) : etaOf d b c t = etaOf d c b t := by
  by_cases h2 : d = 2
  · subst h2
    fin_cases b <;> fin_cases c <;> rfl
  · by_cases h3 : d = 3
    · subst h3
      rw [etaOf_three]
      fin_cases b <;> fin_cases c <;> simp <;> rfl
    · rw [etaOf_other h2 h3]

/-- The basis tensor number `t`. -/
def etaM (t : Fin (symDim d)) : Mat d := Matrix.of fun b c => etaOf d b c t

theorem etaM_apply (t : Fin (symDim d)) (b c : Fin d) : etaM t b c = etaOf d b c t := rfl

theorem sksU_eq (t u : Fin (symDim d)) (m n : Fin d) :
    sksU d t u m n = ∑ r, etaOf d n r t * etaOf d m r u := by
  unfold sksU
  refine Finset.sum_congr rfl fun r _ => ?_
  rw [Finset.sum_eq_single r]
  · simp [eye]
  · intro s _ hs; simp [eye, hs.symm]
  · simp

/-- Functionals measured by the strain constraints. -/
def strainAtom {n : Nat} (x : Fin n → Vec d) (q : Fin n × Fin (symDim d)) : Atom d := atom1 (x q.1) (etaM q.2)

theorem atom1_gram (σ : ℝ) (x y : Vec d) (M N : Mat d) :
    (atom1 x M).pair ((atom1 y N).rep σ) ((atom1 y N).repJ σ)
      = ∑ b, ∑ c, ∑ e, M b c * N b e * -g2 σ (relDiff x y) e c := by
  rw [atom1_pair]
  refine Finset.sum_congr rfl fun b _ => Finset.sum_congr rfl fun c _ => ?_
  simp only [Atom.repJ, atom1, Pi.zero_apply, mul_zero, zero_sub, mul_neg, Finset.mul_sum, ← Finset.sum_neg_distrib]
  exact Finset.sum_congr rfl fun e _ => by ring

theorem computeSks1_eq {n : Nat} (σ : ℝ) (x : Fin n → Vec d) :
    computeSks1 σ x = gramMat σ (strainAtom x) := by
  funext p q
  show computeSks1 σ x p q = (strainAtom x p).pair ((strainAtom x q).rep σ) ((strainAtom x q).repJ σ)
  unfold computeSks1 strainAtom
  rw [atom1_gram]
  simp only [sksU_eq, gaussRow2_eq, Finset.sum_mul, etaM_apply]
  have h : ∑ b, ∑ c, ∑ e, etaOf d b c p.2 * etaOf d b e q.2 * -g2 σ (relDiff (x p.1) (x q.1)) e c
      = ∑ e, ∑ c, ∑ b, etaOf d b c p.2 * etaOf d b e q.2 * -g2 σ (relDiff (x p.1) (x q.1)) e c := by
    rw [Finset.sum_comm]
    refine (Finset.sum_congr rfl fun c _ => Finset.sum_comm).trans ?_
    rw [Finset.sum_comm]
  rw [h]
  refine Finset.sum_congr rfl fun i _ => Finset.sum_congr rfl fun j _ => Finset.sum_congr rfl fun r _ => ?_
  rw [etaOf_symm j r, etaOf_symm i r]

/-- Both backends use the same matrix. -/
theorem computeSks1Keops_eq {n : Nat} (σ : ℝ) (x : Fin n → Vec d) :
    computeSks1Keops σ x = computeSks1 σ x := by
  funext p q
  unfold computeSks1Keops computeSks1
  refine Finset.sum_congr rfl fun m _ => Finset.sum_congr rfl fun k _ => ?_
  have h : ∑ a, ∑ b, (if a = p.2 then (1 : ℝ) else 0) * (if b = q.2 then 1 else 0) * sksU d a b m k
      = sksU d p.2 q.2 m k := by
    rw [Finset.sum_eq_single p.2]
    · rw [Finset.sum_eq_single q.2]
      · simp
      · intro b _ hb; simp [hb]
      · simp
    · intro a _ ha; simp [ha]
    · simp
  rw [h, mul_comm, gaussRow2_eq]
  congr 1
  unfold g2
  rw [gauss0_relDiff, keopsGauss_eq]
  unfold eye relDiff
  split
  · field_simp
    try ring
  · field_simp
    try ring

/-- Moments in the strain basis are combinations of the strain functionals. -/
theorem comb_strain {n : Nat} (x : Fin n → Vec d) (l : Fin n × Fin (symDim d) → ℝ) (M : Fin n → Mat d)
    (hM : ∀ i b c, symPart (M i) b c = ∑ t, l (i, t) * etaOf d b c t) :
    Comb (List.ofFn fun i => atom1 (x i) (symPart (M i))) (strainAtom x) l := by
  intro v J
  rw [pair_ofFn, Fintype.sum_prod_type]
  refine Finset.sum_congr rfl fun i _ => ?_
  rw [atom1_pair]
  unfold strainAtom
  simp only [atom1_pair, hM, etaM_apply, Finset.sum_mul, Finset.mul_sum]
  have : ∀ b, ∑ c, ∑ t, l (i, t) * etaOf d b c t * J (x i) b c = ∑ t, ∑ c, l (i, t) * etaOf d b c t * J (x i) b c :=
    fun b => Finset.sum_comm
  simp only [this]
  rw [Finset.sum_comm]
  exact Finset.sum_congr rfl fun t _ => Finset.sum_congr rfl fun b _ => Finset.sum_congr rfl fun c _ => by ring

theorem dualVec_strain {n : Nat} (σ : ℝ) (x : Fin n → Vec d) (M : List (Atom d)) (q : Fin n × Fin (symDim d)) :
    dualVec σ (strainAtom x) M q = strains (fun i => repJ σ M (x i)) q := by
  unfold dualVec strains strainAtom
  rw [atom1_pair]
  set J := repJ σ M (x q.1)
  have e1 : ∑ b, ∑ c, 0.5 * (J b c + J c b) * etaOf d b c q.2
      = ∑ b, ∑ c, 0.5 * (J b c * etaOf d b c q.2) + ∑ b, ∑ c, 0.5 * (J c b * etaOf d b c q.2) := by
    simp only [← Finset.sum_add_distrib]
    exact Finset.sum_congr rfl fun b _ => Finset.sum_congr rfl fun c _ => by ring
  have e2 : ∑ b, ∑ c, 0.5 * (J c b * etaOf d b c q.2) = ∑ b, ∑ c, 0.5 * (J b c * etaOf d b c q.2) := by
    rw [Finset.sum_comm]
    exact Finset.sum_congr rfl fun b _ => Finset.sum_congr rfl fun c _ => by rw [etaOf_symm]
  rw [e1, e2]
  simp only [← Finset.sum_add_distrib, etaM_apply]
  exact Finset.sum_congr rfl fun b _ => Finset.sum_congr rfl fun c _ => by ring

end
end Imodal
