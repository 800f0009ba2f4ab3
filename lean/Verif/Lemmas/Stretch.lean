import Verif.Spec.Stretch
import Verif.Lemmas.SpeedShoot
import Verif.Props.C91Path
import Verif.Spec.Euclid
/-! The cost of a module bounds the differences of its vector field. -/
set_option autoImplicit false
namespace Imodal
noncomputable section
open Matrix
variable {d : Nat}

theorem one_sub_kXY (σ : ℝ) (x y : Vec d) : 2 * (1 - kXY σ x y) ≤ 1 / σ ^ 2 * ∑ c, (x c - y c) ^ 2 := by
  unfold kXY sqDistance
  have := Real.add_one_le_exp (-(1 / 2) * (∑ c, (x c - y c) ^ 2) / σ ^ 2)
  have e : 1 / σ ^ 2 * ∑ c, (x c - y c) ^ 2 = -2 * (-(1 / 2) * (∑ c, (x c - y c) ^ 2) / σ ^ 2) := by ring
  rw [e]
  linarith

theorem kXY_swap (σ : ℝ) (x y : Vec d) : kXY σ x y = kXY σ y x := by
  unfold kXY sqDistance
  congr 3
  exact Finset.sum_congr rfl fun c _ => by ring

theorem rep_diff_sq_le (σ : ℝ) (A : List (Atom d)) (x y : Vec d) :
    ∑ c, (rep σ A x c - rep σ A y c) ^ 2 ≤ gram σ A A * (1 / σ ^ 2 * ∑ c, (x c - y c) ^ 2) := by
  set w : Vec d := fun c => rep σ A x c - rep σ A y c with hw
  have h := gram_cauchy σ A [atom0 x w, atom0 y (-w)]
  have e1 : gram σ [atom0 x w, atom0 y (-w)] A = ∑ c, w c ^ 2 := by
    unfold gram
    rw [pair_cons, pair_cons, pair_nil, atom0_pair, atom0_pair, add_zero, ← Finset.sum_add_distrib]
    refine Finset.sum_congr rfl fun c _ => ?_
    rw [Pi.neg_apply, hw]; ring
  have e2 : gram σ [atom0 x w, atom0 y (-w)] [atom0 x w, atom0 y (-w)] = 2 * (1 - kXY σ x y) * ∑ c, w c ^ 2 := by
    unfold gram
    rw [pair_cons, pair_cons, pair_nil, atom0_pair, atom0_pair, add_zero, ← Finset.sum_add_distrib, Finset.mul_sum]
    refine Finset.sum_congr rfl fun c _ => ?_
    simp only [rep_cons, rep_nil, add_zero, Pi.add_apply]
    simp only [Atom.rep, atom0, kXY_self', one_mul, Matrix.zero_apply, mul_zero, Finset.sum_const_zero, sub_zero, Pi.neg_apply]
    rw [kXY_swap σ y x]
    ring
  rw [e1, e2] at h
  have h0 : 0 ≤ ∑ c, w c ^ 2 := Finset.sum_nonneg fun c _ => sq_nonneg _
  have hg := gram_nonneg σ A
  have hk := mul_le_mul_of_nonneg_left (one_sub_kXY σ x y) hg
  rcases h0.lt_or_eq with hp | hz
  · have : (∑ c, w c ^ 2) * ∑ c, w c ^ 2 ≤ (∑ c, w c ^ 2) * (gram σ A A * (2 * (1 - kXY σ x y))) := by
      rw [← sq]; linarith
    exact (le_of_mul_le_mul_left this hp).trans hk
  · rw [← hz]
    exact mul_nonneg hg (mul_nonneg (by positivity) (Finset.sum_nonneg fun c _ => sq_nonneg _))

/-- The cost bounds the differences of the field. -/
def Steady (w : ℝ) (f : FieldExpr d) (a : ℝ) : Prop :=
  ∀ x y, ∑ c, (fieldVal f x c - fieldVal f y c) ^ 2 ≤ 2 * w * a * ∑ c, (x c - y c) ^ 2

theorem kernel_steady {σ co a : ℝ} {f : FieldExpr d} {A : List (Atom d)} (hf : IsRep σ f A)
    (hco : 0 < co) (ha : 1 / 2 * (co * gram σ A A) ≤ a) : Steady (1 / (co * σ ^ 2)) f a := by
  intro x y
  rw [hf.val, hf.val]
  refine (rep_diff_sq_le σ A x y).trans ?_
  have h1 : gram σ A A ≤ 2 * (1 / co) * a := by
    rw [mul_assoc, one_div_mul_eq_div, mul_div_assoc', le_div_iff₀ hco]
    linarith
  have h2 : 0 ≤ 1 / σ ^ 2 * ∑ c, (x c - y c) ^ 2 := mul_nonneg (by positivity) (Finset.sum_nonneg fun c _ => sq_nonneg _)
  refine (mul_le_mul_of_nonneg_right h1 h2).trans (le_of_eq ?_)
  rw [one_div_mul_eq_div, one_div, one_div, mul_inv]
  ring

mutual
theorem stretch_nonneg : (m : DefModule d) → m.PositiveWeights → 0 ≤ m.stretch
  | .translations _, _ => by rw [DefModule.stretch]; positivity
  | .implicit0 m, h => by
    rw [DefModule.PositiveWeights] at h; rw [DefModule.stretch]
    have := h.1
    positivity
  | .oriented m, h => by
    rw [DefModule.PositiveWeights] at h; rw [DefModule.stretch]
    have := h
    positivity
  | .constrained m, h => by
    rw [DefModule.PositiveWeights] at h; rw [DefModule.stretch]
    have := h
    positivity
  | .globalTranslation _, _ => by rw [DefModule.stretch]
  | .linear m, h => by
    rw [DefModule.PositiveWeights] at h; rw [DefModule.stretch]
    exact div_nonneg (Finset.sum_nonneg fun _ _ => Finset.sum_nonneg fun _ _ => sq_nonneg _) h.le
  | .implicit1 m, h => by
    rw [DefModule.PositiveWeights] at h; rw [DefModule.stretch]
    have := h.1
    positivity
  | .divFree m, h => by
    rw [DefModule.PositiveWeights] at h; rw [DefModule.stretch]
    have := h.1
    positivity
  | .arap m, h => by
    rw [DefModule.PositiveWeights] at h; rw [DefModule.stretch]
    have := h.1
    positivity
  | .silent _, _ => by rw [DefModule.stretch]
  | .compound ms, h => by rw [DefModule.PositiveWeights] at h; rw [DefModule.stretch]; exact stretches_nonneg ms h.2
theorem stretches_nonneg : (ms : List (DefModule d)) → DefModule.AllPositiveWeights ms → 0 ≤ DefModule.stretches ms
  | [], _ => by rw [DefModule.stretches]
  | m :: ms, h => by
    rw [DefModule.AllPositiveWeights] at h
    rw [DefModule.stretches]
    exact add_nonneg (stretch_nonneg m h.1) (stretches_nonneg ms h.2)
end

theorem steady_add {f : FieldExpr d} {fs : List (FieldExpr d)} (hf : Avail 0 f) (hfs : Avail 0 (.sum fs)) {w w' a a' : ℝ} (hw : 0 ≤ w)
    (hw' : 0 ≤ w') (ha : 0 ≤ a) (ha' : 0 ≤ a') (h : Steady w f a) (h' : Steady w' (.sum fs) a') :
    Steady (w + w') (.sum (f :: fs)) (a + a') := by
  intro x y
  rw [fieldVal_sum_cons hf hfs, fieldVal_sum_cons hf hfs]
  set D := ∑ c, (x c - y c) ^ 2 with hD
  have hD0 : 0 ≤ D := Finset.sum_nonneg fun c _ => sq_nonneg _
  set u : Vec d := fun c => fieldVal f x c - fieldVal f y c with hu
  set v : Vec d := fun c => fieldVal (.sum fs) x c - fieldVal (.sum fs) y c with hv
  have h1 : ∑ c, u c ^ 2 ≤ 2 * w * a * D := h x y
  have h2 : ∑ c, v c ^ 2 ≤ 2 * w' * a' * D := h' x y
  have e : ∑ c, ((fieldVal f x + fieldVal (.sum fs) x) c - (fieldVal f y + fieldVal (.sum fs) y) c) ^ 2
      = ∑ c, u c ^ 2 + ∑ c, v c ^ 2 + 2 * ∑ c, u c * v c := by
    rw [Finset.mul_sum, ← Finset.sum_add_distrib, ← Finset.sum_add_distrib]
    exact Finset.sum_congr rfl fun c _ => by rw [Pi.add_apply, Pi.add_apply, hu, hv]; ring
  have hcs := Finset.sum_mul_sq_le_sq_mul_sq Finset.univ u v
  have hm : (∑ c, u c * v c) ^ 2 ≤ ((w * a' + w' * a) * D) ^ 2 := by
    have h3 : (∑ c, u c ^ 2) * ∑ c, v c ^ 2 ≤ 2 * w * a * D * (2 * w' * a' * D) :=
      mul_le_mul h1 h2 (Finset.sum_nonneg fun c _ => sq_nonneg _) (by positivity)
    nlinarith [mul_nonneg (sq_nonneg (w * a' - w' * a)) (sq_nonneg D)]
  have := abs_le_of_sq_le_sq' hm (by positivity)
  rw [e]
  nlinarith [this.2]

/-- What is said of a module whose controls are filled. -/
def SaysSteady (m m' : DefModule d) : Prop := ∃ f a, m'.field = .ok f ∧ m'.cost = .ok a ∧ Avail 0 f ∧ 0 ≤ a ∧ Steady m.stretch f a
def SaysSteadyAll (ms ms' : List (DefModule d)) : Prop := ∃ fs a, DefModule.fields ms' = .ok fs ∧ fs.length = ms'.length ∧
  DefModule.costs ms' = .ok a ∧ Avail 0 (.sum fs) ∧ 0 ≤ a ∧ Steady (DefModule.stretches ms) (.sum fs) a

theorem saysSteady_of {m m' : DefModule d} (hw : m.PositiveWeights) {c : Ctrl d} (h : m.fillControls c = .ok m') {f : FieldExpr d} {a : ℝ}
    (hf : m'.field = .ok f) (ha : m'.cost = .ok a) (hs : Steady m.stretch f a) : SaysSteady m m' := by
  obtain ⟨f', a', h1, h2, h3, -, h4, -⟩ := says_fill m hw h
  rw [hf] at h1; rw [ha] at h2
  obtain rfl := Except.ok.inj h1
  obtain rfl := Except.ok.inj h2
  exact ⟨f, a, hf, ha, h3, h4, hs⟩

mutual
theorem steady_fill : (m : DefModule d) → m.PositiveWeights → {c : Ctrl d} → {m' : DefModule d} → m.fillControls c = .ok m' → SaysSteady m m'
  | .translations m, hw, c, m', h => by
    have hw' := hw
    obtain ⟨k, rfl, rfl⟩ := fill_translations h
    have b3 := kernel_steady (isRep_f0 m.r m.gd k m.σ) one_pos
      (a := (({ m with ctrl := k } : Translations d _)).cost) (by
        rw [Translations.cost_eq, comb_gram (comb_point m.gd k) (comb_point m.gd k), one_mul])
    refine saysSteady_of hw' h rfl rfl ?_
    rw [DefModule.stretch]; rwa [one_mul] at b3
  | .implicit0 m, hw, c, m', h => by
    have hw' := hw
    rw [DefModule.PositiveWeights] at hw
    obtain ⟨k, rfl, rfl⟩ := fill_implicit0 h
    have b3 := kernel_steady (isRep_f0 m.r m.gd k m.σ) hw.1
      (a := (({ m with ctrl := k } : Implicit0 d _)).cost) (by
        rw [Implicit0.cost_eq, quad_nu, comb_gram (comb_point m.gd k) (comb_point m.gd k)]
        have : 0 ≤ m.ν * ∑ q : _ × _, k q.1 q.2 * k q.1 q.2 := mul_nonneg hw.2 (Finset.sum_nonneg fun _ _ => mul_self_nonneg _)
        nlinarith [mul_nonneg hw.1.le this])
    refine saysSteady_of hw' h rfl rfl ?_
    rw [DefModule.stretch]; exact b3
  | .oriented m, hw, c, m', h => by
    have hw' := hw
    rw [DefModule.PositiveWeights] at hw
    obtain ⟨k, rfl, rfl⟩ := fill_oriented h
    have b3 := kernel_steady (isRep_f0 .torch m.gd ({ m with ctrl := k } : Oriented d _).vectors m.σ) hw
      (a := (({ m with ctrl := k } : Oriented d _)).cost) (by
        rw [Oriented.cost_eq, smul_mulVec, dotProduct_smul]
        have := comb_gram (σ := m.σ) (comb_dir m.gd m.dir k) (comb_dir m.gd m.dir k)
        rw [← this]; exact le_rfl)
    refine saysSteady_of hw' h rfl rfl ?_
    rw [DefModule.stretch]; exact b3
  | .constrained m, hw, c, m', h => by
    have hw' := hw
    rw [DefModule.PositiveWeights] at hw
    obtain ⟨k, rfl, rfl⟩ := fill_constrained h
    have b3 := kernel_steady (isRep_f0 .torch (m.fsupp m.gd) (fun i c => k * m.fvec m.gd i c) m.σ) hw
      (a := (({ m with ctrl := k } : Constrained d _ _)).cost) (by
        rw [comb_gram (comb_point _ _) (comb_point _ _)]
        have e : (fun q : _ × Fin d => k * m.fvec m.gd q.1 q.2) = k • fun q => m.fvec m.gd q.1 q.2 := rfl
        rw [e, mulVec_smul, smul_dotProduct, dotProduct_smul, ← Constrained.energy_eq]
        unfold Constrained.cost
        refine le_of_eq ?_
        show _ = 0.5 * m.coeff * m.energy * k * k
        rw [smul_eq_mul, smul_eq_mul]
        ring)
    refine saysSteady_of hw' h rfl rfl ?_
    rw [DefModule.stretch]; exact b3
  | .globalTranslation m, hw, c, m', h => by
    obtain ⟨k, rfl, rfl⟩ := fill_global h
    refine saysSteady_of hw h rfl rfl fun x y => ?_
    rw [DefModule.stretch]
    show ∑ c, (k c - k c) ^ 2 ≤ _
    simp
  | .linear m, hw, c, m', h => by
    have hc : 0 < m.coeff := by rw [DefModule.PositiveWeights] at hw; exact hw
    obtain ⟨k, rfl, rfl⟩ := fill_linear h
    refine saysSteady_of hw h rfl rfl fun x y => ?_
    rw [DefModule.stretch]
    have e : ∀ b, fieldVal ({ m with ctrl := k } : Linear d).field x b - fieldVal ({ m with ctrl := k } : Linear d).field y b
        = k * ∑ c, m.A b c * (x c - y c) := fun b => by
      show fieldVal (.affine _ _ _) x b - fieldVal (.affine _ _ _) y b = _
      rw [fieldVal_affine, fieldVal_affine, Finset.mul_sum]
      dsimp only
      rw [add_sub_add_right_eq_sub, ← Finset.sum_sub_distrib]
      refine Finset.sum_congr rfl fun c _ => ?_
      rw [Matrix.smul_apply, smul_eq_mul]; ring
    simp only [e, mul_pow]
    rw [← Finset.mul_sum]
    have h1 : ∑ b, (∑ c, m.A b c * (x c - y c)) ^ 2 ≤ (∑ b, ∑ c, m.A b c ^ 2) * ∑ c, (x c - y c) ^ 2 := by
      rw [Finset.sum_mul]
      exact Finset.sum_le_sum fun b _ => Finset.sum_mul_sq_le_sq_mul_sq _ _ _
    refine (mul_le_mul_of_nonneg_left h1 (sq_nonneg k)).trans (le_of_eq ?_)
    show _ = 2 * (_ / m.coeff) * (0.5 * m.coeff * k ^ 2) * _
    field_simp
    ring
  | .implicit1 m, hw, c, m', h => by
    have hw' := hw
    rw [DefModule.PositiveWeights] at hw
    obtain ⟨k, a, rfl, ha, rfl⟩ := fill_implicit1 h
    obtain ⟨hd, rfl⟩ := Implicit1.fill_ok ha
    have b3 := kernel_steady (isRep_fp m.r m.gd (fun i => Matrix.of fun b c => ∑ t, (m.sks⁻¹ *ᵥ m.aqh k) (i, t) * etaOf d c b t) m.σ) hw.1
      (a := 0.5 * m.coeff * (m.aqh k ⬝ᵥ m.sks⁻¹ *ᵥ m.aqh k)) (by
        rw [comb_gram (m.comb _) (m.comb _)]
        have := inv_gram hw.2 m.sks_eq hd (m.aqh k)
        nlinarith [mul_le_mul_of_nonneg_left this hw.1.le])
    refine saysSteady_of hw' h rfl rfl ?_
    rw [DefModule.stretch]; exact b3
  | .divFree m, hw, c, m', h => by
    have hw' := hw
    rw [DefModule.PositiveWeights] at hw
    obtain ⟨k, a, rfl, ha, rfl⟩ := fill_divFree h
    obtain ⟨hd, rfl⟩ := DivFree.fill_ok ha
    have b3 := kernel_steady (m.isRep (m.SKS⁻¹ *ᵥ zeroThen k)) hw.1
      (a := 0.5 * m.coeff * (zeroThen k ⬝ᵥ m.SKS⁻¹ *ᵥ zeroThen k)) (by
        rw [comb_gram (m.comb _) (m.comb _)]
        have := inv_gram hw.2 m.SKS_eq hd (zeroThen k)
        nlinarith [mul_le_mul_of_nonneg_left this hw.1.le])
    refine saysSteady_of hw' h rfl rfl ?_
    rw [DefModule.stretch]; exact b3
  | .arap m, hw, c, m', h => by
    have hw' := hw
    rw [DefModule.PositiveWeights] at hw
    obtain ⟨k, a, rfl, ha, rfl⟩ := fill_arap h
    obtain ⟨hd, rfl⟩ := Arap.fill_ok ha
    have b3 := kernel_steady (m.isRep (m.SKS⁻¹ *ᵥ zeroThen k)) hw.1
      (a := 0.5 * m.coeff * (zeroThen k ⬝ᵥ m.SKS⁻¹ *ᵥ zeroThen k)) (by
        rw [comb_gram (m.comb _) (m.comb _)]
        have := inv_gram hw.2 m.SKS_eq hd (zeroThen k)
        nlinarith [mul_le_mul_of_nonneg_left this hw.1.le])
    refine saysSteady_of hw' h rfl rfl ?_
    rw [DefModule.stretch]; exact b3
  | .silent s, hw, c, m', h => by
    have : (DefModule.silent s).fillControls c = .ok (.silent s) := by cases c <;> rw [DefModule.fillControls]
    have h' := h
    rw [this] at h'
    obtain rfl := Except.ok.inj h'
    refine saysSteady_of hw h (f := .null) rfl (by rw [DefModule.cost]) fun x y => ?_
    rw [(isRep_null 1).val, (isRep_null 1).val, rep_nil, rep_nil, DefModule.stretch]
    simp
  | .compound ms, hw, c, m', h => by
    have hw' := hw
    rw [DefModule.PositiveWeights] at hw
    have h' := h
    obtain ⟨cs, ms', rfl, hl, h1, rfl⟩ := fill_compound h
    obtain ⟨fs, a, e1, e2, e3, e4, e5, e6⟩ := steadyAll_fill ms hw.2 hl h1
    have hf : fs ≠ [] := by
      intro e; rw [e, fillAll_length hl h1] at e2
      exact hw.1 (List.length_eq_zero_iff.mp e2.symm)
    refine saysSteady_of hw' h' (f := .sum fs) (a := a) ?_ ?_ ?_
    · rw [DefModule.field, e1]
      cases fs with
      | nil => exact absurd rfl hf
      | cons f fs => rfl
    · rw [DefModule.cost, e3]
    · rw [DefModule.stretch]; exact e6
theorem steadyAll_fill : (ms : List (DefModule d)) → DefModule.AllPositiveWeights ms → {cs : List (Ctrl d)} → {ms' : List (DefModule d)} →
    cs.length = ms.length → DefModule.fillAll ms cs = .ok ms' → SaysSteadyAll ms ms'
  | [], _, cs, ms', hl, h => by
    rw [fillAll_nil] at h
    obtain rfl := Except.ok.inj h
    refine ⟨[], 0, rfl, rfl, by rw [DefModule.costs], avail_sum_nil 0, le_rfl, fun x y => ?_⟩
    rw [fieldVal_sum_nil, fieldVal_sum_nil]; simp
  | m :: ms, hw, [], ms', hl, h => by simp at hl
  | m :: ms, hw, c :: cs, ms', hl, h => by
    rw [DefModule.AllPositiveWeights] at hw
    rw [DefModule.fillAll] at h
    cases h1 : m.fillControls c with
    | error e => rw [h1] at h; cases h
    | ok m1 =>
      rw [h1] at h
      dsimp only at h
      cases h2 : DefModule.fillAll ms cs with
      | error e => rw [h2] at h; cases h
      | ok ms1 =>
        rw [h2] at h
        obtain rfl := Except.ok.inj h
        obtain ⟨f, a, p1, p2, p3, p5, p7⟩ := steady_fill m hw.1 h1
        obtain ⟨fs, b, q1, q2, q3, q4, q6, q8⟩ := steadyAll_fill ms hw.2 (Nat.succ.inj hl) h2
        refine ⟨f :: fs, a + b, ?_, by rw [List.length_cons, q2, List.length_cons], ?_, avail_sum_cons.mpr ⟨p3, q4⟩, add_nonneg p5 q6, ?_⟩
        · rw [DefModule.fields, p1, q1]
        · rw [DefModule.costs, p2, q3]
        · rw [DefModule.stretches]
          exact steady_add p3 q4 (stretch_nonneg m hw.1) (stretches_nonneg ms hw.2) p5 q6 p7 q8
end

mutual
theorem stretch_withGd (x : Row) : (m : DefModule d) → (o : Nat) → (m.withGd x o).stretch = m.stretch
  | .translations _, _ => by simp only [DefModule.withGd, DefModule.stretch]
  | .implicit0 _, _ => by simp only [DefModule.withGd, DefModule.stretch]
  | .oriented _, _ => by simp only [DefModule.withGd, DefModule.stretch]
  | .constrained _, _ => by simp only [DefModule.withGd, DefModule.stretch]
  | .globalTranslation _, _ => by simp only [DefModule.withGd, DefModule.stretch]
  | .linear _, _ => by simp only [DefModule.withGd, DefModule.stretch]
  | .implicit1 _, _ => by simp only [DefModule.withGd, DefModule.stretch]
  | .divFree _, _ => by simp only [DefModule.withGd, DefModule.stretch]
  | .arap _, _ => by simp only [DefModule.withGd, DefModule.stretch]
  | .silent _, _ => by simp only [DefModule.withGd, DefModule.stretch]
  | .compound ms, o => by rw [DefModule.withGd, DefModule.stretch, DefModule.stretch, stretch_withGdAll x ms o]
theorem stretch_withGdAll (x : Row) : (ms : List (DefModule d)) → (o : Nat) → DefModule.stretches (DefModule.withGdAll x o ms) = DefModule.stretches ms
  | [], _ => by rw [DefModule.withGdAll]
  | m :: ms, o => by rw [DefModule.withGdAll, DefModule.stretches, DefModule.stretches, stretch_withGd x m o, stretch_withGdAll x ms]
end

/-- The cost of the controls bounds the differences of the velocities of the points. -/
theorem CtrlCostAt.steady {m : DefModule d} (hw : m.PositiveWeights) {c : Ctrl d} {x k : Row} {a : ℝ} (h : CtrlCostAt m c x a)
    (hk : ctrlRhs m c x = .ok k) {i n j n' : Nat} {x₀ : Fin n → Vec d} {y₀ : Fin n' → Vec d} (hx : m.manifold.At i x₀) (hy : m.manifold.At j y₀)
    (p : Fin n) (p' : Fin n') :
    ∑ b, (block (d := d) (n := n) (m.manifold.off i) k p b - block (d := d) (n := n') (m.manifold.off j) k p' b) ^ 2
      ≤ 2 * m.stretch * a * ∑ b, (block (d := d) (n := n) (m.manifold.off i) x p b - block (d := d) (n := n') (m.manifold.off j) x p' b) ^ 2 := by
  obtain ⟨m', h1, h2⟩ := h
  obtain ⟨f, a', h3, e, h0, -, hr⟩ := steady_fill _ (positive_withGd x m 0 hw) h1
  rw [h2] at e
  obtain rfl := Except.ok.inj e
  obtain ⟨m'', a', f', v, q1, -, q3, q4, rfl⟩ := ctrlRhs_parts hk
  rw [h1] at q1
  obtain rfl := Except.ok.inj q1
  rw [h3] at q3
  obtain rfl := Except.ok.inj q3
  have e1 := (hx.withGd x).1.action q4
  rw [(hx.withGd x).2, h0.values] at e1
  have e2 := (hy.withGd x).1.action q4
  rw [(hy.withGd x).2, h0.values] at e2
  rw [← Except.ok.inj e1, ← Except.ok.inj e2, ← stretch_withGd x m 0]
  exact hr _ _

/-- The cost of the geodesic controls bounds the differences of the velocities of the points. -/
theorem rhs_steady {m : DefModule d} (hw : m.PositiveWeights) {x y : Row × Row} {a : ℝ} (ha : GeodesicCostAt m x a)
    (h : rhs m x = .ok y) {i n j n' : Nat} {x₀ : Fin n → Vec d} {y₀ : Fin n' → Vec d} (hx : m.manifold.At i x₀) (hy : m.manifold.At j y₀)
    (p : Fin n) (p' : Fin n') :
    ∑ b, (block (d := d) (n := n) (m.manifold.off i) y.1 p b - block (d := d) (n := n') (m.manifold.off j) y.1 p' b) ^ 2
      ≤ 2 * m.stretch * a * ∑ b, (block (d := d) (n := n) (m.manifold.off i) x.1 p b - block (d := d) (n := n') (m.manifold.off j) x.1 p' b) ^ 2 := by
  obtain ⟨m', hg, hc⟩ := ha
  obtain ⟨m1, f, w, h1, h2, h3, h4⟩ := C70_rhs h
  rw [hg] at h1
  obtain rfl := Except.ok.inj h1
  obtain ⟨c, hf⟩ : ∃ c, ((m.withGd x.1 0).fillControls c) = .ok (m'.withCot (cotRow (m.withGd x.1 0)) 0) := by
    have := geodesic_fill _ _ hg
    have q := fill_withCot (cotRow (m.withGd x.1 0)) (rowsMod m x) 0 m'.controls
    rw [this, rowsMod, DefModule.withCot_withCot, DefModule.withCot_cotRow] at q
    exact ⟨_, q⟩
  obtain ⟨f', a', q1, q2, q3, -, q4⟩ := steady_fill _ (positive_withGd x.1 m 0 hw) hf
  rw [field_withCot, h2] at q1
  rw [cost_withCot, hc] at q2
  obtain rfl := Except.ok.inj q1
  obtain rfl := Except.ok.inj q2
  have e : ∀ {i n : Nat} {x₀ : Fin n → Vec d}, m.manifold.At i x₀ → (rowsMod m x).manifold.off i = m.manifold.off i := fun hx => by
    rw [rowsMod, DefModule.manifold_withCot, DefModule.manifold_withGd, ((hx.withGd _).1.withCot _).2, (hx.withGd _).2]
  have e1 := (At_rowsMod hx x).action h3
  have e2 := (At_rowsMod hy x).action h3
  rw [e hx, q3.values, ← h4] at e1
  rw [e hy, q3.values, ← h4] at e2
  rw [← Except.ok.inj e1, ← Except.ok.inj e2, ← stretch_withGd x.1 m 0]
  exact q4 _ _

/-! ### Distances -/

theorem euclid_sq (x y : Vec d) : Spec.euclid x y ^ 2 = ∑ b, (x b - y b) ^ 2 := by
  unfold Spec.euclid
  rw [EuclideanSpace.dist_eq, Real.sq_sqrt (Finset.sum_nonneg fun b _ => sq_nonneg _)]
  exact Finset.sum_congr rfl fun b _ => by rw [Real.dist_eq, sq_abs]

theorem euclid_nonneg (x y : Vec d) : 0 ≤ Spec.euclid x y := dist_nonneg

theorem euclid_eq_zero {x y : Vec d} : Spec.euclid x y = 0 ↔ x = y := by
  unfold Spec.euclid
  rw [dist_eq_zero]
  exact ⟨fun h => by have := congrArg (WithLp.ofLp) h; exact this, fun h => by rw [h]⟩

/-- One step of Euler's method changes a distance by at most the step times the difference of the velocities. -/
theorem euclid_step (x y k l : Vec d) (h : ℝ) :
    |Spec.euclid (x + h • k) (y + h • l) - Spec.euclid x y| ≤ |h| * Spec.euclid k l := by
  unfold Spec.euclid
  rw [dist_eq_norm, dist_eq_norm, dist_eq_norm, ← Real.norm_eq_abs h, ← norm_smul]
  refine (abs_norm_sub_norm_le _ _).trans (le_of_eq (congrArg _ ?_))
  ext b
  simp
  ring

theorem euclid_le_of_sq {k l x y : Vec d} {B : ℝ} (h : ∑ b, (k b - l b) ^ 2 ≤ B * ∑ b, (x b - y b) ^ 2) : Spec.euclid k l ≤ √B * Spec.euclid x y := by
  rw [← euclid_sq, ← euclid_sq] at h
  rcases le_or_gt 0 B with hB | hB
  · refine abs_le_of_sq_le_sq' ?_ (mul_nonneg (Real.sqrt_nonneg _) (euclid_nonneg _ _)) |>.2
    rw [mul_pow, Real.sq_sqrt hB]; exact h
  · have h0 : Spec.euclid k l ^ 2 ≤ 0 := h.trans (mul_nonpos_of_nonpos_of_nonneg hB.le (sq_nonneg _))
    have : Spec.euclid k l = 0 := pow_eq_zero_iff two_ne_zero |>.1 (le_antisymm h0 (sq_nonneg _))
    rw [this]
    exact mul_nonneg (Real.sqrt_nonneg _) (euclid_nonneg _ _)

end
end Imodal
