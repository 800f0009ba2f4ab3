import Verif.Spec.Mobility
import Verif.Lemmas.ModCompound
import Mathlib.Algebra.QuadraticDiscriminant
import Mathlib.Algebra.Order.BigOperators.Ring.Finset
/-! The cost of a module bounds its vector field. -/
set_option autoImplicit false
namespace Imodal
noncomputable section
open Matrix
variable {d : Nat}

/-! ### The inequality of Cauchy and Schwarz between functionals -/

def Atom.scale (t : ℝ) (a : Atom d) : Atom d := ⟨a.x, t • a.α, t • a.M⟩

theorem Atom.pair_scale (t : ℝ) (a : Atom d) (v : Vec d → Vec d) (J : Vec d → Mat d) :
    (a.scale t).pair v J = t * a.pair v J := by
  unfold Atom.pair Atom.scale
  simp only [Pi.smul_apply, Matrix.smul_apply, smul_eq_mul, mul_add, Finset.mul_sum, mul_assoc]

theorem pair_scale (t : ℝ) (A : List (Atom d)) (v : Vec d → Vec d) (J : Vec d → Mat d) :
    pair (A.map (Atom.scale t)) v J = t * pair A v J := by
  induction A with
  | nil => simp [pair_nil]
  | cons a A ih => rw [List.map_cons, pair_cons, pair_cons, ih, Atom.pair_scale]; ring

theorem gram_scale_left (σ t : ℝ) (A B : List (Atom d)) : gram σ (A.map (Atom.scale t)) B = t * gram σ A B :=
  pair_scale t A _ _
theorem gram_scale_right (σ t : ℝ) (A B : List (Atom d)) : gram σ A (B.map (Atom.scale t)) = t * gram σ A B := by
  rw [gram_symm, gram_scale_left, gram_symm]

theorem gram_cauchy (σ : ℝ) (A B : List (Atom d)) : gram σ B A ^ 2 ≤ gram σ B B * gram σ A A := by
  have h := discrim_le_zero (a := gram σ A A) (b := 2 * gram σ B A) (c := gram σ B B) fun t => by
    have := gram_nonneg σ (B ++ A.map (Atom.scale t))
    rw [gram_append_left, gram_append_right, gram_append_right, gram_scale_left, gram_scale_right,
      gram_scale_left, gram_scale_right, gram_symm σ A B] at this
    linarith
  unfold discrim at h
  linarith [mul_comm (gram σ A A) (gram σ B B)]

theorem kXY_self' (σ : ℝ) (x : Vec d) : kXY σ x x = 1 := by
  unfold kXY sqDistance
  simp

theorem rep_sq_le (σ : ℝ) (A : List (Atom d)) (x : Vec d) : ∑ c, rep σ A x c ^ 2 ≤ gram σ A A := by
  have h := gram_cauchy σ A [atom0 x (rep σ A x)]
  have e1 : gram σ [atom0 x (rep σ A x)] A = ∑ c, rep σ A x c ^ 2 := by
    unfold gram
    rw [pair_cons, pair_nil, atom0_pair, add_zero]
    exact Finset.sum_congr rfl fun c _ => (sq _).symm
  have e2 : gram σ [atom0 x (rep σ A x)] [atom0 x (rep σ A x)] = ∑ c, rep σ A x c ^ 2 := by
    unfold gram
    rw [pair_cons, pair_nil, atom0_pair, add_zero]
    refine Finset.sum_congr rfl fun c _ => ?_
    rw [rep_cons, rep_nil, add_zero]
    simp only [Atom.rep, atom0, kXY_self', one_mul, Matrix.zero_apply, mul_zero, Finset.sum_const_zero, sub_zero]
    exact (sq _).symm
  rw [e1, e2] at h
  have h0 : 0 ≤ ∑ c, rep σ A x c ^ 2 := Finset.sum_nonneg fun c _ => sq_nonneg _
  rcases h0.lt_or_eq with hp | hz
  · rw [sq] at h; exact le_of_mul_le_mul_left h hp
  · rw [← hz]; exact gram_nonneg σ A

theorem gram_zero {σ : ℝ} {A : List (Atom d)} (h : gram σ A A = 0) (B : List (Atom d)) : gram σ B A = 0 := by
  have := gram_cauchy σ A B
  rw [h, mul_zero] at this
  exact pow_eq_zero_iff (two_ne_zero) |>.mp (le_antisymm this (sq_nonneg _))

theorem rep_zero {σ : ℝ} {A : List (Atom d)} (h : gram σ A A = 0) (x : Vec d) : rep σ A x = 0 := by
  have := rep_sq_le σ A x
  rw [h] at this
  have h0 := (Finset.sum_eq_zero_iff_of_nonneg fun c _ => sq_nonneg (rep σ A x c)).mp
    (le_antisymm this (Finset.sum_nonneg fun c _ => sq_nonneg _))
  funext c
  exact pow_eq_zero_iff (two_ne_zero) |>.mp (h0 c (Finset.mem_univ c))

theorem repJ_zero {σ : ℝ} {A : List (Atom d)} (h : gram σ A A = 0) (x : Vec d) : repJ σ A x = 0 := by
  have := gram_zero h [atom1 x (repJ σ A x)]
  unfold gram at this
  rw [pair_cons, pair_nil, atom1_pair, add_zero] at this
  have h1 := (Finset.sum_eq_zero_iff_of_nonneg fun b _ => Finset.sum_nonneg fun c _ =>
    mul_self_nonneg (repJ σ A x b c)).mp this
  funext b c
  have h2 := (Finset.sum_eq_zero_iff_of_nonneg fun c _ => mul_self_nonneg (repJ σ A x b c)).mp (h1 b (Finset.mem_univ b))
  exact mul_self_eq_zero.mp (h2 c (Finset.mem_univ c))

/-! ### What is said of a module whose controls are filled -/

/-- A cost of zero means a field of zero. -/
def Rests (f : FieldExpr d) (a : ℝ) : Prop := a = 0 → ∀ x, fieldVal f x = 0 ∧ fieldJac f x = 0
/-- The cost bounds the speed. -/
def Slow (w : ℝ) (f : FieldExpr d) (a : ℝ) : Prop := ∀ x, ∑ c, fieldVal f x c ^ 2 ≤ 2 * w * a

theorem kernel_bounds {σ co a : ℝ} {f : FieldExpr d} {A : List (Atom d)} (hf : IsRep σ f A) (h1 : Avail 1 f)
    (hco : 0 < co) (ha : 1 / 2 * (co * gram σ A A) ≤ a) : 0 ≤ a ∧ Rests f a ∧ Slow (1 / co) f a := by
  have hg := gram_nonneg σ A
  refine ⟨le_trans (by positivity) ha, fun h0 x => ?_, fun x => ?_⟩
  · have hz : gram σ A A = 0 := by
      rw [h0] at ha
      nlinarith [mul_nonneg hco.le hg]
    exact ⟨by rw [hf.val, rep_zero hz], by rw [hf.jac h1, repJ_zero hz]⟩
  · rw [hf.val]
    refine (rep_sq_le σ A x).trans ?_
    rw [mul_assoc, one_div_mul_eq_div, mul_div_assoc', le_div_iff₀ hco]
    linarith

theorem inv_gram {ι : Type} [Fintype ι] [DecidableEq ι] {G S : Matrix ι ι ℝ} {ν : ℝ} (hν : 0 ≤ ν)
    (hS : S = G + ν • (1 : Matrix ι ι ℝ)) (hd : S.det ≠ 0) (b : ι → ℝ) :
    (S⁻¹ *ᵥ b) ⬝ᵥ G *ᵥ (S⁻¹ *ᵥ b) ≤ b ⬝ᵥ S⁻¹ *ᵥ b := by
  have h : S *ᵥ (S⁻¹ *ᵥ b) = b := by rw [mulVec_mulVec, mul_nonsing_inv S (Ne.isUnit hd), one_mulVec]
  have h2 : b ⬝ᵥ S⁻¹ *ᵥ b = (S⁻¹ *ᵥ b) ⬝ᵥ S *ᵥ (S⁻¹ *ᵥ b) := by rw [h, dotProduct_comm]
  rw [h2]
  generalize S⁻¹ *ᵥ b = l
  rw [hS, add_mulVec, dotProduct_add, smul_mulVec, one_mulVec, dotProduct_smul, smul_eq_mul]
  have : 0 ≤ l ⬝ᵥ l := Finset.sum_nonneg fun i _ => mul_self_nonneg _
  nlinarith [mul_nonneg hν this]

/-- Field, cost and their bounds. -/
def Says (m m' : DefModule d) : Prop := ∃ f a, m'.field = .ok f ∧ m'.cost = .ok a ∧ Avail 0 f ∧ Avail 1 f ∧ 0 ≤ a ∧
  Rests f a ∧ (m.NoLinear → Slow m.mobility f a)
def SaysAll (ms ms' : List (DefModule d)) : Prop := ∃ fs a, DefModule.fields ms' = .ok fs ∧ fs.length = ms'.length ∧
  DefModule.costs ms' = .ok a ∧ Avail 0 (.sum fs) ∧ Avail 1 (.sum fs) ∧ 0 ≤ a ∧
  Rests (.sum fs) a ∧ (DefModule.AllNoLinear ms → Slow (DefModule.mobilities ms) (.sum fs) a)

mutual
theorem mobility_nonneg : (m : DefModule d) → m.PositiveWeights → 0 ≤ m.mobility
  | .translations _, _ => by rw [DefModule.mobility]; exact zero_le_one
  | .implicit0 m, h => by rw [DefModule.PositiveWeights] at h; rw [DefModule.mobility]; exact (one_div_pos.mpr h.1).le
  | .oriented m, h => by rw [DefModule.PositiveWeights] at h; rw [DefModule.mobility]; exact (one_div_pos.mpr h).le
  | .constrained m, h => by rw [DefModule.PositiveWeights] at h; rw [DefModule.mobility]; exact (one_div_pos.mpr h).le
  | .globalTranslation m, h => by rw [DefModule.PositiveWeights] at h; rw [DefModule.mobility]; exact (one_div_pos.mpr h).le
  | .linear _, _ => by rw [DefModule.mobility]
  | .implicit1 m, h => by rw [DefModule.PositiveWeights] at h; rw [DefModule.mobility]; exact (one_div_pos.mpr h.1).le
  | .divFree m, h => by rw [DefModule.PositiveWeights] at h; rw [DefModule.mobility]; exact (one_div_pos.mpr h.1).le
  | .arap m, h => by rw [DefModule.PositiveWeights] at h; rw [DefModule.mobility]; exact (one_div_pos.mpr h.1).le
  | .silent _, _ => by rw [DefModule.mobility]
  | .compound ms, h => by rw [DefModule.PositiveWeights] at h; rw [DefModule.mobility]; exact mobilities_nonneg ms h.2
theorem mobilities_nonneg : (ms : List (DefModule d)) → DefModule.AllPositiveWeights ms → 0 ≤ DefModule.mobilities ms
  | [], _ => by rw [DefModule.mobilities]
  | m :: ms, h => by
    rw [DefModule.AllPositiveWeights] at h
    rw [DefModule.mobilities]
    exact add_nonneg (mobility_nonneg m h.1) (mobilities_nonneg ms h.2)
end

theorem slow_add {f : FieldExpr d} {fs : List (FieldExpr d)} (hf : Avail 0 f) (hfs : Avail 0 (.sum fs)) {w w' a a' : ℝ} (hw : 0 ≤ w)
    (hw' : 0 ≤ w') (ha : 0 ≤ a) (ha' : 0 ≤ a') (h : Slow w f a) (h' : Slow w' (.sum fs) a') :
    Slow (w + w') (.sum (f :: fs)) (a + a') := by
  intro x
  rw [fieldVal_sum_cons hf hfs]
  have e : ∑ c, (fieldVal f x + fieldVal (.sum fs) x) c ^ 2
      = ∑ c, fieldVal f x c ^ 2 + ∑ c, fieldVal (.sum fs) x c ^ 2 + 2 * ∑ c, fieldVal f x c * fieldVal (.sum fs) x c := by
    rw [Finset.mul_sum, ← Finset.sum_add_distrib, ← Finset.sum_add_distrib]
    exact Finset.sum_congr rfl fun c _ => by rw [Pi.add_apply]; ring
  have hcs := Finset.sum_mul_sq_le_sq_mul_sq Finset.univ (fieldVal f x) (fieldVal (.sum fs) x)
  have h1 := h x
  have h2 := h' x
  have hm : (∑ c, fieldVal f x c * fieldVal (.sum fs) x c) ^ 2 ≤ (w * a' + w' * a) ^ 2 := by
    have h3 : (∑ c, fieldVal f x c ^ 2) * ∑ c, fieldVal (.sum fs) x c ^ 2 ≤ 2 * w * a * (2 * w' * a') :=
      mul_le_mul h1 h2 (Finset.sum_nonneg fun c _ => sq_nonneg _) (by positivity)
    nlinarith [sq_nonneg (w * a' - w' * a)]
  have := abs_le_of_sq_le_sq' hm (by positivity)
  rw [e]
  linarith [this.2]

theorem rests_add {f : FieldExpr d} {fs : List (FieldExpr d)} (h0 : Avail 0 f) (h0' : Avail 0 (.sum fs)) (h1 : Avail 1 f) (h1' : Avail 1 (.sum fs))
    {a a' : ℝ} (ha : 0 ≤ a) (ha' : 0 ≤ a') (h : Rests f a) (h' : Rests (.sum fs) a') : Rests (.sum (f :: fs)) (a + a') := by
  intro hz x
  have e : a = 0 := by linarith
  have e' : a' = 0 := by linarith
  rw [fieldVal_sum_cons h0 h0', fieldJac_sum_cons h1 h1', (h e x).1, (h e x).2, (h' e' x).1, (h' e' x).2]
  exact ⟨add_zero _, add_zero _⟩

mutual
theorem says_fill : (m : DefModule d) → m.PositiveWeights → {c : Ctrl d} → {m' : DefModule d} → m.fillControls c = .ok m' → Says m m'
  | .translations m, _, c, m', h => by
    obtain ⟨k, rfl, rfl⟩ := fill_translations h
    obtain ⟨b1, b2, b3⟩ := kernel_bounds (isRep_f0 m.r m.gd k m.σ) (avail_f0_one ..) one_pos
      (a := (({ m with ctrl := k } : Translations d _)).cost) (by
        rw [Translations.cost_eq, comb_gram (comb_point m.gd k) (comb_point m.gd k), one_mul])
    refine ⟨_, _, rfl, rfl, (isRep_f0 m.r m.gd k m.σ).avail, avail_f0_one .., b1, b2, fun _ => ?_⟩
    rw [DefModule.mobility, ← one_div_one]; exact b3
  | .implicit0 m, hw, c, m', h => by
    rw [DefModule.PositiveWeights] at hw
    obtain ⟨k, rfl, rfl⟩ := fill_implicit0 h
    obtain ⟨b1, b2, b3⟩ := kernel_bounds (isRep_f0 m.r m.gd k m.σ) (avail_f0_one ..) hw.1
      (a := (({ m with ctrl := k } : Implicit0 d _)).cost) (by
        rw [Implicit0.cost_eq, quad_nu, comb_gram (comb_point m.gd k) (comb_point m.gd k)]
        have : 0 ≤ m.ν * ∑ q : _ × _, k q.1 q.2 * k q.1 q.2 := mul_nonneg hw.2 (Finset.sum_nonneg fun _ _ => mul_self_nonneg _)
        nlinarith [mul_nonneg hw.1.le this])
    refine ⟨_, _, rfl, rfl, (isRep_f0 m.r m.gd k m.σ).avail, avail_f0_one .., b1, b2, fun _ => ?_⟩
    rw [DefModule.mobility]; exact b3
  | .oriented m, hw, c, m', h => by
    rw [DefModule.PositiveWeights] at hw
    obtain ⟨k, rfl, rfl⟩ := fill_oriented h
    obtain ⟨b1, b2, b3⟩ := kernel_bounds (isRep_f0 .torch m.gd ({ m with ctrl := k } : Oriented d _).vectors m.σ) (avail_f0_one ..) hw
      (a := (({ m with ctrl := k } : Oriented d _)).cost) (by
        rw [Oriented.cost_eq, smul_mulVec, dotProduct_smul]
        have := comb_gram (σ := m.σ) (comb_dir m.gd m.dir k) (comb_dir m.gd m.dir k)
        rw [← this]; exact le_rfl)
    refine ⟨_, _, rfl, rfl, (isRep_f0 ..).avail, avail_f0_one .., b1, b2, fun _ => ?_⟩
    rw [DefModule.mobility]; exact b3
  | .constrained m, hw, c, m', h => by
    rw [DefModule.PositiveWeights] at hw
    obtain ⟨k, rfl, rfl⟩ := fill_constrained h
    obtain ⟨b1, b2, b3⟩ := kernel_bounds (isRep_f0 .torch (m.fsupp m.gd) (fun i c => k * m.fvec m.gd i c) m.σ) (avail_f0_one ..) hw
      (a := (({ m with ctrl := k } : Constrained d _ _)).cost) (by
        rw [comb_gram (comb_point _ _) (comb_point _ _)]
        have e : (fun q : _ × Fin d => k * m.fvec m.gd q.1 q.2) = k • fun q => m.fvec m.gd q.1 q.2 := rfl
        rw [e, mulVec_smul, smul_dotProduct, dotProduct_smul, ← Constrained.energy_eq]
        unfold Constrained.cost
        refine le_of_eq ?_
        show _ = 0.5 * m.coeff * m.energy * k * k
        rw [smul_eq_mul, smul_eq_mul]
        ring)
    refine ⟨_, _, rfl, rfl, (isRep_f0 ..).avail, avail_f0_one .., b1, b2, fun _ => ?_⟩
    rw [DefModule.mobility]; exact b3
  | .globalTranslation m, hw, c, m', h => by
    rw [DefModule.PositiveWeights] at hw
    obtain ⟨k, rfl, rfl⟩ := fill_global h
    have hs : 0 ≤ ∑ c, k c * k c := Finset.sum_nonneg fun c _ => mul_self_nonneg _
    have hc : ({ m with ctrl := k } : GlobalTranslation d).cost = 0.5 * m.coeff * ∑ c, k c * k c := rfl
    refine ⟨_, _, rfl, rfl, avail_const .., avail_const .., ?_, fun h0 x => ?_, fun _ x => ?_⟩
    · rw [hc]; positivity
    · rw [hc] at h0
      have hz : ∑ c, k c * k c = 0 := by
        rcases mul_eq_zero.mp h0 with h | h
        · exact absurd h (by positivity)
        · exact h
      have hk : k = 0 := funext fun c => mul_self_eq_zero.mp
        ((Finset.sum_eq_zero_iff_of_nonneg fun c _ => mul_self_nonneg (k c)).mp hz c (Finset.mem_univ c))
      exact ⟨hk, rfl⟩
    · rw [hc, DefModule.mobility]
      show ∑ c, k c ^ 2 ≤ _
      refine le_of_eq ?_
      simp only [sq]
      have := hw.ne'
      field_simp
      ring
  | .linear m, hw, c, m', h => by
    rw [DefModule.PositiveWeights] at hw
    obtain ⟨k, rfl, rfl⟩ := fill_linear h
    refine ⟨_, _, rfl, rfl, avail_affine .., avail_affine .., ?_, ?_, fun hn => ?_⟩
    · show 0 ≤ 0.5 * m.coeff * k ^ 2; positivity
    · intro h0 x
      have hk : k = 0 := by
        have h1 : 0.5 * m.coeff * k ^ 2 = 0 := h0
        rcases mul_eq_zero.mp h1 with h | h
        · exact absurd h (by positivity)
        · exact pow_eq_zero_iff two_ne_zero |>.mp h
      subst hk
      constructor
      · funext b
        show fieldVal (.affine _ _ _) x b = 0
        rw [fieldVal_affine]; simp
      · show fieldJac (.affine _ _ _) x = 0
        rw [fieldJac_affine]; simp
    · rw [DefModule.NoLinear] at hn; exact hn.elim
  | .implicit1 m, hw, c, m', h => by
    rw [DefModule.PositiveWeights] at hw
    obtain ⟨k, a, rfl, ha, rfl⟩ := fill_implicit1 h
    obtain ⟨hd, rfl⟩ := Implicit1.fill_ok ha
    obtain ⟨b1, b2, b3⟩ := kernel_bounds (isRep_fp m.r m.gd (fun i => Matrix.of fun b c => ∑ t, (m.sks⁻¹ *ᵥ m.aqh k) (i, t) * etaOf d c b t) m.σ) (avail_fp_one ..) hw.1
      (a := 0.5 * m.coeff * (m.aqh k ⬝ᵥ m.sks⁻¹ *ᵥ m.aqh k)) (by
        rw [comb_gram (m.comb _) (m.comb _)]
        have := inv_gram hw.2 m.sks_eq hd (m.aqh k)
        nlinarith [mul_le_mul_of_nonneg_left this hw.1.le])
    refine ⟨_, _, rfl, rfl, (isRep_fp ..).avail, avail_fp_one .., b1, b2, fun _ => ?_⟩
    rw [DefModule.mobility]; exact b3
  | .divFree m, hw, c, m', h => by
    rw [DefModule.PositiveWeights] at hw
    obtain ⟨k, a, rfl, ha, rfl⟩ := fill_divFree h
    obtain ⟨hd, rfl⟩ := DivFree.fill_ok ha
    obtain ⟨b1, b2, b3⟩ := kernel_bounds (m.isRep (m.SKS⁻¹ *ᵥ zeroThen k)) (m.avail _) hw.1
      (a := 0.5 * m.coeff * (zeroThen k ⬝ᵥ m.SKS⁻¹ *ᵥ zeroThen k)) (by
        rw [comb_gram (m.comb _) (m.comb _)]
        have := inv_gram hw.2 m.SKS_eq hd (zeroThen k)
        nlinarith [mul_le_mul_of_nonneg_left this hw.1.le])
    refine ⟨_, _, rfl, rfl, (m.isRep (m.SKS⁻¹ *ᵥ zeroThen k)).avail, m.avail _, b1, b2, fun _ => ?_⟩
    rw [DefModule.mobility]; exact b3
  | .arap m, hw, c, m', h => by
    rw [DefModule.PositiveWeights] at hw
    obtain ⟨k, a, rfl, ha, rfl⟩ := fill_arap h
    obtain ⟨hd, rfl⟩ := Arap.fill_ok ha
    obtain ⟨b1, b2, b3⟩ := kernel_bounds (m.isRep (m.SKS⁻¹ *ᵥ zeroThen k)) (m.avail _) hw.1
      (a := 0.5 * m.coeff * (zeroThen k ⬝ᵥ m.SKS⁻¹ *ᵥ zeroThen k)) (by
        rw [comb_gram (m.comb _) (m.comb _)]
        have := inv_gram hw.2 m.SKS_eq hd (zeroThen k)
        nlinarith [mul_le_mul_of_nonneg_left this hw.1.le])
    refine ⟨_, _, rfl, rfl, (m.isRep (m.SKS⁻¹ *ᵥ zeroThen k)).avail, m.avail _, b1, b2, fun _ => ?_⟩
    rw [DefModule.mobility]; exact b3
  | .silent s, _, c, m', h => by
    have : (DefModule.silent s).fillControls c = .ok (.silent s) := by cases c <;> rw [DefModule.fillControls]
    rw [this] at h
    rw [← Except.ok.inj h]
    refine ⟨.null, 0, rfl, by rw [DefModule.cost], (isRep_null 1).avail, ⟨_, fun _ => rfl⟩, le_rfl, fun _ x => ⟨?_, ?_⟩, fun _ x => ?_⟩
    · rw [(isRep_null 1).val]; rfl
    · rw [(isRep_null 1).jac ⟨_, fun _ => rfl⟩]; rfl
    · rw [(isRep_null 1).val, rep_nil]; simp
  | .compound ms, hw, c, m', h => by
    rw [DefModule.PositiveWeights] at hw
    obtain ⟨cs, ms', rfl, hl, h1, rfl⟩ := fill_compound h
    obtain ⟨fs, a, e1, e2, e3, e4, e5, e6, e7, e8⟩ := saysAll_fill ms hw.2 hl h1
    have hf : fs ≠ [] := by
      intro e; rw [e, fillAll_length hl h1] at e2
      exact hw.1 (List.length_eq_zero_iff.mp e2.symm)
    refine ⟨.sum fs, a, ?_, ?_, e4, e5, e6, e7, fun hn => ?_⟩
    · rw [DefModule.field, e1]
      cases fs with
      | nil => exact absurd rfl hf
      | cons f fs => rfl
    · rw [DefModule.cost, e3]
    · rw [DefModule.NoLinear] at hn
      rw [DefModule.mobility]
      exact e8 hn
theorem saysAll_fill : (ms : List (DefModule d)) → DefModule.AllPositiveWeights ms → {cs : List (Ctrl d)} → {ms' : List (DefModule d)} →
    cs.length = ms.length → DefModule.fillAll ms cs = .ok ms' → SaysAll ms ms'
  | [], _, cs, ms', hl, h => by
    rw [fillAll_nil] at h
    obtain rfl := Except.ok.inj h
    refine ⟨[], 0, rfl, rfl, by rw [DefModule.costs], avail_sum_nil 0, avail_sum_nil 1, le_rfl, fun _ x => ⟨rfl, rfl⟩, fun _ x => ?_⟩
    rw [fieldVal_sum_nil]; simp
  | m :: ms, hw, [], ms', hl, h => by simp at hl
  | m :: ms, hw, c :: cs, ms', hl, h => by
    rw [DefModule.AllPositiveWeights] at hw
    rw [DefModule.fillAll] at h
    cases h1 : m.fillControls c with
    | error e => rw [h1] at h; cases h
    | ok m1 =>
      rw [h1] at h
      dsimp only at h
      cases h2 : DefModule.fillAll ms cs with
      | error e => rw [h2] at h; cases h
      | ok ms1 =>
        rw [h2] at h
        obtain rfl := Except.ok.inj h
        obtain ⟨f, a, p1, p2, p3, p4, p5, p6, p7⟩ := says_fill m hw.1 h1
        obtain ⟨fs, b, q1, q2, q3, q4, q5, q6, q7, q8⟩ := saysAll_fill ms hw.2 (Nat.succ.inj hl) h2
        refine ⟨f :: fs, a + b, ?_, by rw [List.length_cons, q2, List.length_cons], ?_, avail_sum_cons.mpr ⟨p3, q4⟩,
          avail_sum_cons.mpr ⟨p4, q5⟩, add_nonneg p5 q6, rests_add p3 q4 p4 q5 p5 q6 p6 q7, fun hn => ?_⟩
        · rw [DefModule.fields, p1, q1]
        · rw [DefModule.costs, p2, q3]
        · rw [DefModule.AllNoLinear] at hn
          rw [DefModule.mobilities]
          exact slow_add p3 q4 (mobility_nonneg m hw.1) (mobilities_nonneg ms hw.2) p5 q6 (p7 hn.1) (q8 hn.2)
end

end
end Imodal
