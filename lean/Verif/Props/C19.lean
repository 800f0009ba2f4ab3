import Verif.Lemmas.Solvable
/-!
# C19: the deformation cost is a non-negative quadratic form of the controls
-/
set_option autoImplicit false
namespace Imodal
noncomputable section
open Matrix
variable {d : Nat}

/-- `cost()` is available after `fill_controls` and is not negative. -/
theorem C19_nonneg (m mc : DefModule d) (hw : m.NonnegWeights) (c : Ctrl d) (h : m.fillControls c = .ok mc) :
    ∃ x, mc.cost = .ok x ∧ 0 ≤ x := by
  obtain ⟨q⟩ := quad_exists .empty m hw
  letI := q.inst
  obtain ⟨f, -, -, -, -, hc⟩ := q.fill c mc h
  exact ⟨_, hc, by have := q.psd (q.enc c); linarith⟩

/-- Multiplying the controls by `t` multiplies the cost by `t²`. -/
theorem C19_quadratic (m mc mt : DefModule d) (hw : m.NonnegWeights) (c : Ctrl d) (t x : ℝ)
    (h : m.fillControls c = .ok mc) (ht : m.fillControls (c.smul t) = .ok mt) (hx : mc.cost = .ok x) :
    mt.cost = .ok (t ^ 2 * x) := by
  obtain ⟨q⟩ := quad_exists .empty m hw
  letI := q.inst
  obtain ⟨f, -, -, -, -, hc⟩ := q.fill c mc h
  obtain ⟨f', -, -, -, -, hc'⟩ := q.fill (c.smul t) mt ht
  rw [hc] at hx
  rw [hc', ← Except.ok.inj hx, q.enc_smul, mulVec_smul, smul_dotProduct, dotProduct_smul]
  refine congrArg Except.ok ?_
  simp only [smul_eq_mul]; ring

mutual
/-- Multiplied controls are accepted whenever the controls are. -/
theorem C19_fill_smul : (m : DefModule d) → (c : Ctrl d) → (t : ℝ) → {mc : DefModule d} → m.fillControls c = .ok mc →
    ∃ mt, m.fillControls (c.smul t) = .ok mt
  | .translations m, c, t, _, h => by
    obtain ⟨k, rfl, rfl⟩ := fill_translations h
    rw [Ctrl.smul, DefModule.fillControls, dif_pos rfl]; exact ⟨_, rfl⟩
  | .implicit0 m, c, t, _, h => by
    obtain ⟨k, rfl, rfl⟩ := fill_implicit0 h
    rw [Ctrl.smul, DefModule.fillControls, dif_pos rfl]; exact ⟨_, rfl⟩
  | .oriented m, c, t, _, h => by
    obtain ⟨k, rfl, rfl⟩ := fill_oriented h
    rw [Ctrl.smul, DefModule.fillControls, dif_pos rfl]; exact ⟨_, rfl⟩
  | .constrained m, c, t, _, h => by
    obtain ⟨k, rfl, rfl⟩ := fill_constrained h
    rw [Ctrl.smul, DefModule.fillControls]; exact ⟨_, rfl⟩
  | .globalTranslation m, c, t, _, h => by
    obtain ⟨k, rfl, rfl⟩ := fill_global h
    rw [Ctrl.smul, DefModule.fillControls]; exact ⟨_, rfl⟩
  | .linear m, c, t, _, h => by
    obtain ⟨k, rfl, rfl⟩ := fill_linear h
    rw [Ctrl.smul, DefModule.fillControls]; exact ⟨_, rfl⟩
  | .implicit1 m, c, t, _, h => by
    obtain ⟨k, a, rfl, ha, rfl⟩ := fill_implicit1 h
    rw [Ctrl.smul, DefModule.fillControls, dif_pos rfl, Implicit1.fill_of_det (Implicit1.fill_ok ha).1]; exact ⟨_, rfl⟩
  | .divFree m, c, t, _, h => by
    obtain ⟨k, a, rfl, ha, rfl⟩ := fill_divFree h
    rw [Ctrl.smul, DefModule.fillControls, dif_pos rfl, DivFree.fill_of_det (DivFree.fill_ok ha).1]; exact ⟨_, rfl⟩
  | .arap m, c, t, _, h => by
    obtain ⟨k, a, rfl, ha, rfl⟩ := fill_arap h
    rw [Ctrl.smul, DefModule.fillControls, dif_pos rfl, Arap.fill_of_det (Arap.fill_ok ha).1]; exact ⟨_, rfl⟩
  | .silent s, c, t, _, _ => by
    generalize c.smul t = c'
    exact ⟨.silent s, by cases c' <;> rw [DefModule.fillControls]⟩
  | .compound ms, c, t, _, h => by
    obtain ⟨cs, ms', rfl, hl, h1, rfl⟩ := fill_compound h
    obtain ⟨mt, hmt⟩ := C19_fillAll_smul ms cs t h1
    rw [Ctrl.smul, DefModule.fillControls, smulAll_length, if_pos hl, hmt]; exact ⟨_, rfl⟩
theorem C19_fillAll_smul : (ms : List (DefModule d)) → (cs : List (Ctrl d)) → (t : ℝ) → {ms' : List (DefModule d)} →
    DefModule.fillAll ms cs = .ok ms' → ∃ mt, DefModule.fillAll ms (Ctrl.smulAll t cs) = .ok mt
  | [], cs, t, _, _ => ⟨[], fillAll_nil _⟩
  | m :: ms, [], t, _, _ => ⟨[], by rw [Ctrl.smulAll, DefModule.fillAll]; simp⟩
  | m :: ms, c :: cs, t, ms', h => by
    rw [DefModule.fillAll] at h
    cases h1 : m.fillControls c with
    | error e => rw [h1] at h; cases h
    | ok m' =>
      rw [h1] at h
      dsimp only at h
      cases h2 : DefModule.fillAll ms cs with
      | error e => rw [h2] at h; cases h
      | ok ms'' =>
        obtain ⟨a, ha⟩ := C19_fill_smul m c t h1
        obtain ⟨as, has⟩ := C19_fillAll_smul ms cs t h2
        exact ⟨a :: as, by rw [Ctrl.smulAll, DefModule.fillAll, ha]; dsimp only; rw [has]⟩
end

mutual
theorem smul_zero_controls : (c : Ctrl d) → c.IsZero → c.smul 0 = c
  | .vecs h, hz => by
    rw [Ctrl.IsZero] at hz; rw [Ctrl.smul]; congr 1; funext i c; rw [hz i c, mul_zero]
  | .scalars h, hz => by
    rw [Ctrl.IsZero] at hz; rw [Ctrl.smul]; congr 1; funext i; rw [hz i, mul_zero]
  | .scalar h, hz => by
    rw [Ctrl.IsZero] at hz; rw [Ctrl.smul, hz, mul_zero]
  | .vec h, hz => by
    rw [Ctrl.IsZero] at hz; rw [Ctrl.smul]; congr 1; funext i; rw [hz i, mul_zero]
  | .none, _ => by rw [Ctrl.smul]
  | .list hs, hz => by
    rw [Ctrl.IsZero] at hz; rw [Ctrl.smul, smulAll_zero_controls hs hz]
theorem smulAll_zero_controls : (cs : List (Ctrl d)) → Ctrl.AllZero cs → Ctrl.smulAll 0 cs = cs
  | [], _ => by rw [Ctrl.smulAll]
  | c :: cs, hz => by
    rw [Ctrl.AllZero] at hz
    rw [Ctrl.smulAll, smul_zero_controls c hz.1, smulAll_zero_controls cs hz.2]
end

/-- Zero controls cost nothing. -/
theorem C19_zero_controls (m mc : DefModule d) (hw : m.NonnegWeights) (c : Ctrl d) (hc : c.IsZero)
    (h : m.fillControls c = .ok mc) : mc.cost = .ok 0 := by
  obtain ⟨x, hx, -⟩ := C19_nonneg m mc hw c h
  have := C19_quadratic m mc mc hw c 0 x h (by rw [smul_zero_controls c hc]; exact h) hx
  rw [this]; congr 1; ring

theorem point_zero {n : Nat} {σ : ℝ} (hσ : σ ≠ 0) (x : Fin n → Vec d) (hx : Function.Injective x)
    (k : Fin n → Vec d) (h : (fun q : Fin n × Fin d => k q.1 q.2) ⬝ᵥ gramMat σ (pointAtom x) *ᵥ (fun q => k q.1 q.2) = 0) :
    ∀ i c, k i c = 0 := by
  have e : (fun q : Fin n × Fin d => k q.1 q.2) ⬝ᵥ gramMat σ (pointAtom x) *ᵥ (fun q => k q.1 q.2)
      = ∑ c, ∑ i, ∑ j, k i c * k j c * kXY σ (x i) (x j) := by
    rw [dotProduct, Fintype.sum_prod_type, Finset.sum_comm]
    refine Finset.sum_congr rfl fun c _ => Finset.sum_congr rfl fun i _ => ?_
    rw [gramMat_point_mulVec, Finset.mul_sum]
    exact Finset.sum_congr rfl fun j _ => by ring
  rw [e] at h
  have hz := (Finset.sum_eq_zero_iff_of_nonneg fun c _ => gaussian_psd σ x fun i => k i c).mp h
  intro i c
  exact congrFun (gaussian_pd hσ x hx (fun i => k i c) (hz c (Finset.mem_univ c))) i

theorem quad_zero {ι : Type} [Fintype ι] {S : Matrix ι ι ℝ} (hS : ∀ l, l ≠ 0 → 0 < l ⬝ᵥ S *ᵥ l) {l : ι → ℝ}
    (h : l ⬝ᵥ S *ᵥ l = 0) : l = 0 := by
  by_contra hne
  have := hS l hne
  rw [h] at this
  exact lt_irrefl _ this

theorem half_zero {a b : ℝ} (hb : 0 < b) (h : 1 / 2 * (b * a) = 0) : a = 0 := by
  rcases mul_eq_zero.mp h with h | h
  · norm_num at h
  · exact (mul_eq_zero.mp h).resolve_left hb.ne'

mutual
/-- With positive coefficients, and a positive regularisation or distinct points, only zero
controls cost nothing. -/
theorem C19_definite : (m : DefModule d) → m.Definite → (c : Ctrl d) → {mc : DefModule d} → m.fillControls c = .ok mc →
    mc.cost = .ok 0 → mc.controls.IsZero
  | .translations m, hD, c, mc, h, h0 => by
    rw [DefModule.Definite] at hD
    obtain ⟨k, rfl, rfl⟩ := fill_translations h
    rw [DefModule.cost, Translations.cost_eq] at h0
    rw [DefModule.controls, Ctrl.IsZero]
    exact point_zero hD.1 m.gd hD.2 k ((mul_eq_zero.mp (Except.ok.inj h0)).resolve_left (by norm_num))
  | .implicit0 m, hD, c, mc, h, h0 => by
    rw [DefModule.Definite] at hD
    obtain ⟨k, rfl, rfl⟩ := fill_implicit0 h
    rw [DefModule.cost, Implicit0.cost_eq, smul_mulVec, dotProduct_smul] at h0
    rw [DefModule.controls, Ctrl.IsZero]
    have := quad_zero (smul_one_pos (gramMat_psd _ _) hD.2) (half_zero hD.1 (Except.ok.inj h0))
    exact fun i c => congrFun this (i, c)
  | .oriented m, hD, c, mc, h, h0 => by
    rw [DefModule.Definite] at hD
    obtain ⟨k, rfl, rfl⟩ := fill_oriented h
    rw [DefModule.cost, Oriented.cost_eq, smul_mulVec, dotProduct_smul] at h0
    rw [DefModule.controls, Ctrl.IsZero]
    exact congrFun (quad_zero (dir_pos hD.2.1 _ _ hD.2.2.1 hD.2.2.2) (half_zero hD.1 (Except.ok.inj h0)))
  | .constrained m, hD, c, mc, h, h0 => by
    rw [DefModule.Definite] at hD
    obtain ⟨k, rfl, rfl⟩ := fill_constrained h
    rw [DefModule.cost] at h0
    have h1 : 0.5 * m.coeff * m.energy * k * k = 0 := Except.ok.inj h0
    rw [DefModule.controls, Ctrl.IsZero]
    have he : m.energy ≠ 0 := by
      intro e
      rw [m.energy_eq] at e
      exact hD.2.2.2 (funext fun i => funext fun c => point_zero hD.2.1 _ hD.2.2.1 _ e i c)
    show k = 0
    have hne : (0.5 : ℝ) * m.coeff * m.energy ≠ 0 := mul_ne_zero (mul_ne_zero (by norm_num) hD.1.ne') he
    rw [mul_assoc] at h1
    exact mul_self_eq_zero.mp ((mul_eq_zero.mp h1).resolve_left hne)
  | .globalTranslation m, hD, c, mc, h, h0 => by
    rw [DefModule.Definite] at hD
    obtain ⟨k, rfl, rfl⟩ := fill_global h
    rw [DefModule.cost] at h0
    have h1 : 0.5 * m.coeff * ∑ c, k c * k c = 0 := Except.ok.inj h0
    rw [DefModule.controls, Ctrl.IsZero]
    have h2 := (mul_eq_zero.mp h1).resolve_left (mul_ne_zero (by norm_num) hD.ne')
    have h3 := (Finset.sum_eq_zero_iff_of_nonneg fun c _ => mul_self_nonneg (k c)).mp h2
    exact fun c => mul_self_eq_zero.mp (h3 c (Finset.mem_univ c))
  | .linear m, hD, c, mc, h, h0 => by
    rw [DefModule.Definite] at hD
    obtain ⟨k, rfl, rfl⟩ := fill_linear h
    rw [DefModule.cost] at h0
    have h1 : 0.5 * m.coeff * k ^ 2 = 0 := Except.ok.inj h0
    rw [DefModule.controls, Ctrl.IsZero]
    exact pow_eq_zero_iff (two_ne_zero) |>.mp ((mul_eq_zero.mp h1).resolve_left (mul_ne_zero (by norm_num) hD.ne'))
  | .implicit1 m, hD, c, mc, h, h0 => by
    rw [DefModule.Definite] at hD
    obtain ⟨k, a, rfl, ha, rfl⟩ := fill_implicit1 h
    obtain ⟨f, -, -, -, -, hc⟩ := m.has .empty k
    rw [(Implicit1.fill_ok ha).2] at h0 ⊢
    rw [hc] at h0
    unfold Implicit1.Q at h0
    rw [smul_mulVec, dotProduct_smul, schur_quad] at h0
    rw [DefModule.controls, Ctrl.IsZero]
    have h2 := quad_zero (inv_pos' m.sks_symm (m.sks_pos hD.2.1)) (half_zero hD.1 (Except.ok.inj h0))
    rw [← m.aqh_eq] at h2
    exact congrFun (hD.2.2 k h2)
  | .divFree m, hD, c, mc, h, h0 => by
    rw [DefModule.Definite] at hD
    obtain ⟨k, a, rfl, ha, rfl⟩ := fill_divFree h
    obtain ⟨f, -, -, -, -, hc⟩ := m.has .empty k
    rw [(DivFree.fill_ok ha).2] at h0 ⊢
    rw [hc] at h0
    unfold DivFree.Q at h0
    rw [smul_mulVec, dotProduct_smul, schur_quad] at h0
    rw [DefModule.controls, Ctrl.IsZero]
    have h2 := quad_zero (inv_pos' m.SKS_symm (m.SKS_pos hD.2)) (half_zero hD.1 (Except.ok.inj h0))
    rw [embed_mulVec] at h2
    exact fun i c => congrFun h2 (Sum.inr (i, c))
  | .arap m, hD, c, mc, h, h0 => by
    rw [DefModule.Definite] at hD
    obtain ⟨k, a, rfl, ha, rfl⟩ := fill_arap h
    obtain ⟨f, -, -, -, -, hc⟩ := m.has .empty k
    rw [(Arap.fill_ok ha).2] at h0 ⊢
    rw [hc] at h0
    unfold Arap.Q at h0
    rw [smul_mulVec, dotProduct_smul, schur_quad] at h0
    rw [DefModule.controls, Ctrl.IsZero]
    have h2 := quad_zero (inv_pos' m.SKS_symm (m.SKS_pos hD.2)) (half_zero hD.1 (Except.ok.inj h0))
    rw [embed_mulVec] at h2
    exact fun i c => congrFun h2 (Sum.inr (i, c))
  | .silent s, _, c, mc, h, _ => by
    have : (DefModule.silent s).fillControls c = .ok (.silent s) := by cases c <;> rw [DefModule.fillControls]
    rw [this] at h
    rw [← Except.ok.inj h, DefModule.controls, Ctrl.IsZero]; trivial
  | .compound ms, hD, c, mc, h, h0 => by
    rw [DefModule.Definite] at hD
    obtain ⟨cs, ms', rfl, hl, h1, rfl⟩ := fill_compound h
    rw [DefModule.cost] at h0
    rw [DefModule.controls, Ctrl.IsZero]
    exact (C19_allDefinite ms hD cs hl h1).2 h0
/-- The same for a list of modules; all costs are non-negative, so each one is zero. -/
theorem C19_allDefinite : (ms : List (DefModule d)) → DefModule.AllDefinite ms → (cs : List (Ctrl d)) →
    cs.length = ms.length → {ms' : List (DefModule d)} → DefModule.fillAll ms cs = .ok ms' →
    (∃ x, DefModule.costs ms' = .ok x ∧ 0 ≤ x) ∧
      (DefModule.costs ms' = .ok 0 → Ctrl.AllZero (DefModule.controlsAll ms'))
  | [], _, cs, _, ms', h => by
    rw [fillAll_nil] at h
    rw [← Except.ok.inj h, DefModule.costs, DefModule.controlsAll, Ctrl.AllZero]
    exact ⟨⟨0, rfl, le_refl _⟩, fun _ => trivial⟩
  | m :: ms, hD, [], hl, _, _ => by cases hl
  | m :: ms, hD, c :: cs, hl, ms', h => by
    rw [DefModule.AllDefinite] at hD
    rw [DefModule.fillAll] at h
    cases h1 : m.fillControls c with
    | error e => rw [h1] at h; cases h
    | ok m' =>
      rw [h1] at h
      dsimp only at h
      cases h2 : DefModule.fillAll ms cs with
      | error e => rw [h2] at h; cases h
      | ok ms'' =>
        rw [h2] at h
        rw [← Except.ok.inj h]
        obtain ⟨⟨y, hy, y0⟩, iz⟩ := C19_allDefinite ms hD.2 cs (Nat.succ.inj hl) h2
        obtain ⟨x, hx, x0⟩ := C19_definite_nonneg m hD.1 c h1
        rw [DefModule.costs, hx]
        dsimp only
        rw [hy]
        refine ⟨⟨x + y, rfl, add_nonneg x0 y0⟩, fun e => ?_⟩
        have e' : x + y = 0 := Except.ok.inj e
        have ex : x = 0 := by linarith
        have ey : y = 0 := by linarith
        rw [DefModule.controlsAll, Ctrl.AllZero]
        exact ⟨C19_definite m hD.1 c h1 (by rw [hx, ex]), iz (by rw [hy, ey])⟩
theorem C19_definite_nonneg : (m : DefModule d) → m.Definite → (c : Ctrl d) → {mc : DefModule d} → m.fillControls c = .ok mc →
    ∃ x, mc.cost = .ok x ∧ 0 ≤ x
  | .translations m, hD, c, mc, h => C19_nonneg _ mc (by simp [DefModule.NonnegWeights]) c h
  | .implicit0 m, hD, c, mc, h => by
    rw [DefModule.Definite] at hD
    exact C19_nonneg _ mc (by rw [DefModule.NonnegWeights]; exact ⟨hD.1.le, hD.2.le⟩) c h
  | .oriented m, hD, c, mc, h => by
    rw [DefModule.Definite] at hD
    exact C19_nonneg _ mc (by rw [DefModule.NonnegWeights]; exact hD.1.le) c h
  | .constrained m, hD, c, mc, h => by
    rw [DefModule.Definite] at hD
    exact C19_nonneg _ mc (by rw [DefModule.NonnegWeights]; exact hD.1.le) c h
  | .globalTranslation m, hD, c, mc, h => by
    rw [DefModule.Definite] at hD
    exact C19_nonneg _ mc (by rw [DefModule.NonnegWeights]; exact hD.le) c h
  | .linear m, hD, c, mc, h => by
    rw [DefModule.Definite] at hD
    exact C19_nonneg _ mc (by rw [DefModule.NonnegWeights]; exact hD.le) c h
  | .implicit1 m, hD, c, mc, h => by
    rw [DefModule.Definite] at hD
    exact C19_nonneg _ mc (by rw [DefModule.NonnegWeights]; exact ⟨hD.1.le, hD.2.1.le⟩) c h
  | .divFree m, hD, c, mc, h => by
    rw [DefModule.Definite] at hD
    exact C19_nonneg _ mc (by rw [DefModule.NonnegWeights]; exact ⟨hD.1.le, hD.2.le⟩) c h
  | .arap m, hD, c, mc, h => by
    rw [DefModule.Definite] at hD
    exact C19_nonneg _ mc (by rw [DefModule.NonnegWeights]; exact ⟨hD.1.le, hD.2.le⟩) c h
  | .silent s, _, c, mc, h => C19_nonneg _ mc (by simp [DefModule.NonnegWeights]) c h
  | .compound ms, hD, c, mc, h => by
    rw [DefModule.Definite] at hD
    obtain ⟨cs, ms', rfl, hl, h1, rfl⟩ := fill_compound h
    rw [DefModule.cost]
    exact (C19_allDefinite ms hD cs hl h1).1
end

/-- Without the condition on implicit modules of order 1 the last claim fails: with a growth
tensor of zeros every control costs nothing, whatever the regularisation. -/
theorem C19_implicit1_disagreement {n p : Nat} (m : Implicit1 d n p) (hC : m.C = 0) (hν : 0 < m.ν) (h : Fin p → ℝ) :
    ∃ m', m.fill h = .ok m' ∧ m'.ctrl = h ∧ m'.cost = .ok 0 := by
  refine ⟨_, Implicit1.fill_of_det (det_ne_zero_of_pos (m.sks_pos hν)) h, rfl, ?_⟩
  have : m.aqh h = 0 := by funext q; unfold Implicit1.aqh; rw [hC]; simp
  unfold Implicit1.done Implicit1.cost
  simp only [this]
  simp

/-! Non-trivial cases. -/
example : ∃ mc, (DefModule.compound [.globalTranslation (⟨2, 0⟩ : GlobalTranslation 2), .linear ⟨1, 0, 0, 1, 0⟩]).fillControls
    (.list [.vec ![1, 2], .scalar 3]) = .ok mc ∧ mc.cost = .ok (19 / 2) ∧
    (DefModule.compound [.globalTranslation (⟨2, 0⟩ : GlobalTranslation 2), .linear ⟨1, 0, 0, 1, 0⟩]).NonnegWeights ∧
    (DefModule.compound [.globalTranslation (⟨2, 0⟩ : GlobalTranslation 2), .linear ⟨1, 0, 0, 1, 0⟩]).Definite := by
  refine ⟨.compound [.globalTranslation ⟨2, ![1, 2]⟩, .linear ⟨1, 0, 0, 1, 3⟩], ?_, ?_, ?_, ?_⟩
  · simp [DefModule.fillControls, DefModule.fillAll]
  · simp [DefModule.cost, DefModule.costs, GlobalTranslation.cost, Linear.cost, Fin.sum_univ_two]; norm_num
  · simp [DefModule.NonnegWeights, DefModule.AllNonnegWeights]
  · simp [DefModule.Definite, DefModule.AllDefinite]
example : (DefModule.translations (⟨.keops, ![0, 1], 0, 1, 0⟩ : Translations 2 2)).Definite := by
  rw [DefModule.Definite]
  exact ⟨by norm_num, by intro i j h; fin_cases i <;> fin_cases j <;> simp_all⟩

end
end Imodal
