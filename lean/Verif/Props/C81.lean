import Verif.Lemmas.Noether
import Verif.Props.C18
import Verif.Props.C27
import Verif.Props.C29
import Verif.Props.C30
import Verif.Props.C80
/-!
# C81: conserved quantities
-/
set_option autoImplicit false
namespace Imodal
noncomputable section
open Filter Topology Set Matrix
variable {d : Nat}

/-- Derivatives along solutions vanish on the interval: the function is constant. -/
theorem const_of_deriv {f : ℝ → ℝ} {T : ℝ} (h : ∀ t ∈ Icc 0 T, HasDerivWithinAt f 0 (Icc 0 T) t) : ∀ t ∈ Icc 0 T, f t = f 0 := fun t ht => by
  have h0 : (0 : ℝ) ∈ Icc 0 T := ⟨le_rfl, ht.1.trans ht.2⟩
  have := (convex_Icc (0 : ℝ) T).norm_image_sub_le_of_norm_hasDerivWithin_le (C := 0) h (fun x _ => by rw [norm_zero]) h0 ht
  rw [zero_mul, norm_le_zero_iff, sub_eq_zero] at this
  exact this

/-- **C81, energy.** The Hamiltonian is constant along solutions of Hamilton's equations. -/
theorem C81_energy {m : DefModule d} (hs : m.Smooth 1) {T : ℝ} {q p : ℝ → Row} (hc : HamiltonCurve (numCoords m) (ham m) T q p)
    (hok : ∀ t ∈ Icc 0 T, ∃ m', Hamiltonian.geodesicControls (rowsMod m (q t, p t)) = .ok m') :
    ∀ t ∈ Icc 0 T, ham m (q t) (p t) = ham m (q 0) (p 0) := by
  refine const_of_deriv (f := fun t => ham m (q t) (p t)) fun t ht => ?_
  have hd := (hamV_contDiffAt hs (hok t ht)).2.differentiableAt one_ne_zero
  have h1 := hd.hasFDerivAt.comp_hasDerivWithinAt t (hc.solves t ht)
  have e : (hamV m ∘ fun u => entries (numCoords m) (q u, p u)) = fun u => ham m (q u) (p u) := funext fun u => rowFn_entries (ham_reads m) (q u, p u)
  rw [e] at h1
  have e2 : hamField m (entries (numCoords m) (q t, p t)) = entries (numCoords m) (partialP (ham m) (q t) (p t), fun j => -partialQ (ham m) (q t) (p t) j) := by
    rw [hamField_eq]
    have := partials_congr (ham_reads m) (q := (finRows (entries (numCoords m) (q t, p t))).1) (q' := q t)
      (p := (finRows (entries (numCoords m) (q t, p t))).2) (p' := p t) (fun j hj => extRow_lt _ hj) fun j hj => extRow_lt _ hj
    refine Prod.ext (funext fun j => this.2 j j.2) (funext fun j => ?_)
    exact congrArg Neg.neg (this.1 j j.2)
  rw [e2, show fderiv ℝ (hamV m) = fderiv ℝ (rowFn (numCoords m) (ham m)) from rfl, fderiv_entries (ham_reads m) hd] at h1
  have e3 : ∑ j : Fin (numCoords m), (partialP (ham m) (q t) (p t) j * partialQ (ham m) (q t) (p t) j
      + -partialQ (ham m) (q t) (p t) j * partialP (ham m) (q t) (p t) j) = 0 := Finset.sum_eq_zero fun j _ => by ring
  rwa [e3] at h1

/-- Rotations keep the Hamiltonian. -/
theorem ham_spin {m : DefModule d} {g : Rigid d} (h : m.Movable g) (q p : Row) : ham m (gdMotion g m.manifold q) (cotMotion g m.manifold p) = ham m q p := by
  have h1 := hamFn_move (prep_geodesic g) h q p
  rw [hamFn_same geodesic_resetFree (same_move _ m)] at h1
  unfold ham
  rw [h1]

theorem finMap_apply {N : Nat} {L : Row →ₗ[ℝ] Row} (hL : ∀ x y : Row, (∀ j < N, x j = y j) → L x = L y) (x : Row) (j : Fin N) :
    finMap N L (fun j => x j) j = L x j := by
  show L (extRow _) j = _
  rw [hL _ x fun k hk => extRow_lt _ hk]

theorem gdSpin_congr (J : Mat d) (M : Mfd d) {x y : Row} (h : ∀ j < M.size, x j = y j) : gdSpin J M x = gdSpin J M y := by
  unfold gdSpin
  rw [← mfd_withGd_cut M x, ← mfd_withGd_cut M y, cut_congr h]

/-- Angular momentum on finitely many entries. -/
def angV {J : Mat d} (hJ : Jᵀ = -J) (m : DefModule d) (v : Fins (numCoords m)) : ℝ :=
  ∑ j : Fin (numCoords m), (finMap (numCoords m) (gdSpinL hJ m.manifold)).toContinuousLinearMap v.1 j * v.2 j

theorem angV_entries {J : Mat d} (hJ : Jᵀ = -J) (m : DefModule d) (x : Row × Row) : angV hJ m (entries (numCoords m) x) = (rowsMod m x).manifold.angular J := by
  rw [angular_rows]
  refine Finset.sum_congr rfl fun j _ => ?_
  congr 1
  exact finMap_apply (L := gdSpinL hJ m.manifold) (fun _ _ h => gdSpin_congr J _ (by rwa [← numCoords_eq])) x.1 j

theorem angV_contDiff {J : Mat d} (hJ : Jᵀ = -J) (m : DefModule d) : ContDiff ℝ 1 (angV hJ m) := by
  unfold angV
  refine ContDiff.sum fun j _ => ContDiff.mul ?_ ?_
  · exact contDiff_pi.1 ((ContinuousLinearMap.contDiff _).comp contDiff_fst) j
  · exact contDiff_pi.1 contDiff_snd j

/-- **C81, angular momentum.** If the modules have no preferred direction, the angular momentum is constant along solutions. -/
theorem C81_angular {m : DefModule d} (hmov : ∀ g : Rigid d, g.τ = 0 → m.Movable g) (hs : m.Smooth 1) {T : ℝ} {q p : ℝ → Row}
    (hc : HamiltonCurve (numCoords m) (ham m) T q p) (hok : ∀ t ∈ Icc 0 T, ∃ m', Hamiltonian.geodesicControls (rowsMod m (q t, p t)) = .ok m')
    {J : Mat d} (hJ : Jᵀ = -J) :
    ∀ t ∈ Icc 0 T, (rowsMod m (q t, p t)).manifold.angular J = (rowsMod m (q 0, p 0)).manifold.angular J := by
  refine const_of_deriv (f := fun t => (rowsMod m (q t, p t)).manifold.angular J) fun t ht => ?_
  have hd := (hamV_contDiffAt hs (hok t ht)).2.differentiableAt one_ne_zero
  have hN := numCoords_eq m
  -- the derivative of the Hamiltonian along the rotation
  have hrot := grad_const (ham_reads m) hd (γ := fun s => gdMotion (Rigid.spin hJ s) m.manifold (q t)) (δ := fun s => cotMotion (Rigid.spin hJ s) m.manifold (p t))
    (t₀ := 0) (a := gdSpin J m.manifold (q t)) (b := cotSpin J m.manifold (p t)) (c := ham m (q t) (p t))
    (fun j hj => by
      rw [hN] at hj
      exact (congrFun (gdTurn_one hJ m.manifold (q t)).1 j).trans (cut_of_lt hj))
    (fun j hj => by
      rw [hN] at hj
      exact (congrFun (gdTurn_one hJ m.manifold (p t)).2 j).trans (cut_of_lt hj))
    (fun j _ => gdSpin_deriv hJ _ _ _) (fun j _ => cotSpin_deriv hJ _ _ _) (fun s => ham_spin (hmov _ rfl) _ _)
  -- the derivative of the angular momentum along the solution
  set G := (finMap (numCoords m) (gdSpinL hJ m.manifold)).toContinuousLinearMap with hG
  have hGa : ∀ (x : Row) (j : Fin (numCoords m)), G (fun j => x j) j = gdSpin J m.manifold x j := fun x j =>
    finMap_apply (L := gdSpinL hJ m.manifold) (fun _ _ h => gdSpin_congr J _ (by rwa [← numCoords_eq])) x j
  have hq : HasDerivWithinAt (fun u => fun j : Fin (numCoords m) => q u j) (fun j : Fin (numCoords m) => partialP (ham m) (q t) (p t) j) (Icc 0 T) t :=
    hasDerivWithinAt_pi.2 fun j => hc.gd t ht j j.2
  have hGq := G.hasFDerivAt.comp_hasDerivWithinAt t hq
  have h : HasDerivWithinAt (fun u => ∑ j : Fin (numCoords m), G (fun j => q u j) j * p u j)
      (∑ j : Fin (numCoords m), (G (fun j => partialP (ham m) (q t) (p t) j) j * p t j + G (fun j => q t j) j * -partialQ (ham m) (q t) (p t) j)) (Icc 0 T) t :=
    HasDerivWithinAt.fun_sum fun j _ => (hasDerivWithinAt_pi.1 hGq j).mul (hc.cot t ht j j.2)
  simp only [hGa] at h
  have e1 : (fun u => ∑ j : Fin (numCoords m), gdSpin J m.manifold (q u) j * p u j) = fun u => (rowsMod m (q u, p u)).manifold.angular J :=
    funext fun u => (angular_rows J m (q u, p u)).symm
  rw [e1] at h
  convert h using 1
  have hsk := spin_skew hJ m.manifold (partialP (ham m) (q t) (p t)) (p t)
  rw [← hN] at hsk
  rw [Finset.sum_add_distrib, hsk, ← Finset.sum_neg_distrib, ← Finset.sum_add_distrib, ← neg_eq_zero, ← Finset.sum_neg_distrib] at *
  rw [← hrot]
  refine Finset.sum_congr rfl fun j _ => ?_
  ring

/-! ## What shooting keeps approximately -/

mutual
theorem smoothParts_of_le {n n' : WithTop ℕ∞} (hn : n' ≤ n) {J : Prop} : (m : DefModule d) → m.SmoothParts n J → m.SmoothParts n' J
  | .translations _, h => h
  | .implicit0 _, h => h
  | .oriented _, h => h
  | .constrained m, h => by rw [DefModule.SmoothParts] at h ⊢; exact ⟨h.1.of_le hn, h.2.of_le hn⟩
  | .globalTranslation _, h => h
  | .linear _, h => h
  | .implicit1 _, h => h
  | .divFree _, h => h
  | .arap _, h => h
  | .silent _, h => h
  | .compound ms, h => by rw [DefModule.SmoothParts] at h ⊢; exact ⟨h.1, allSmoothParts_of_le hn ms h.2⟩
theorem allSmoothParts_of_le {n n' : WithTop ℕ∞} (hn : n' ≤ n) {J : Prop} : (ms : List (DefModule d)) →
    DefModule.AllSmoothParts n J ms → DefModule.AllSmoothParts n' J ms
  | [], h => h
  | m :: ms, h => by rw [DefModule.AllSmoothParts] at h ⊢; exact ⟨smoothParts_of_le hn m h.1, allSmoothParts_of_le hn ms h.2⟩
end

theorem smooth_of_le {n n' : WithTop ℕ∞} (hn : n' ≤ n) {m : DefModule d} (h : m.Smooth n) : m.Smooth n' := smoothParts_of_le hn m h

/-- A function that is continuously differentiable near a compact set grows at most linearly away from it. -/
theorem lip_near {E : Type} [NormedAddCommGroup E] [NormedSpace ℝ E] {φ : E → ℝ} {K : Set E} (hK : IsCompact K) (hφ : ∀ a ∈ K, ContDiffAt ℝ 1 φ a) :
    ∃ δ > 0, ∃ L ≥ 0, ∀ a ∈ K, ∀ y, ‖y - a‖ ≤ δ → |φ y - φ a| ≤ L * ‖y - a‖ := by
  refine hK.induction_on (p := fun S => ∃ δ > 0, ∃ L ≥ 0, ∀ a ∈ S, ∀ y, ‖y - a‖ ≤ δ → |φ y - φ a| ≤ L * ‖y - a‖) ?_ ?_ ?_ ?_
  · exact ⟨1, one_pos, 0, le_rfl, fun _ h => h.elim⟩
  · rintro S S' h ⟨δ, hδ, L, hL, ht⟩
    exact ⟨δ, hδ, L, hL, fun a ha => ht a (h ha)⟩
  · rintro S S' ⟨δ, hδ, L, hL, ht⟩ ⟨δ', hδ', L', hL', ht'⟩
    refine ⟨min δ δ', lt_min hδ hδ', max L L', hL.trans (le_max_left _ _), fun a ha y hy => ?_⟩
    rcases ha with ha | ha
    · exact (ht a ha y (hy.trans (min_le_left _ _))).trans (mul_le_mul_of_nonneg_right (le_max_left _ _) (norm_nonneg _))
    · exact (ht' a ha y (hy.trans (min_le_right _ _))).trans (mul_le_mul_of_nonneg_right (le_max_right _ _) (norm_nonneg _))
  · intro x hx
    obtain ⟨L, t, ht, hl⟩ := (hφ x hx).exists_lipschitzOnWith
    obtain ⟨ε, hε, hb⟩ := Metric.mem_nhds_iff.1 ht
    refine ⟨Metric.ball x (ε / 2), mem_nhdsWithin_of_mem_nhds (Metric.ball_mem_nhds _ (by positivity)), ε / 4, by positivity, L, L.2, fun a ha y hy => ?_⟩
    have ha' : dist a x < ε / 2 := ha
    have hy' : dist y x < ε := by
      calc dist y x ≤ dist y a + dist a x := dist_triangle _ _ _
        _ < ε := by rw [dist_eq_norm]; linarith
    have := hl.dist_le_mul y (hb hy') a (hb (by rw [Metric.mem_ball]; linarith))
    rwa [Real.dist_eq, dist_eq_norm] at this

/-- A quantity that is constant along the solution changes by at most a constant over the number of steps. -/
theorem drift {ms : List (DefModule d)} (hs : (DefModule.compound ms).Smooth 2) (hp : PlainMembers ms) (hn : 0 < numCoords (.compound ms))
    {T : ℝ} (hT : 0 < T) {q p : ℝ → Row} (hc : HamiltonCurve (numCoords (.compound ms)) (ham (.compound ms)) T q p)
    (h0 : ∀ j < numCoords (.compound ms), q 0 j = gdRow (.compound ms) j ∧ p 0 j = cotRow (.compound ms) j)
    (hok : ∀ t ∈ Icc 0 T, ∃ m', Hamiltonian.geodesicControls (rowsMod (.compound ms) (q t, p t)) = .ok m')
    {φ : Fins (numCoords (.compound ms)) → ℝ} (hφ : ∀ t ∈ Icc 0 T, ContDiffAt ℝ 1 φ (entries _ (q t, p t)))
    (hconst : ∀ t ∈ Icc 0 T, φ (entries _ (q t, p t)) = φ (entries _ (q 0, p 0))) (s : Solver) :
    ∃ C n₀, ∀ it ≥ n₀, it ≠ 0 → ∃ r, shootMoments s it T (.compound ms) = .ok r ∧ r.states.length = it + 1 ∧
      ∀ k ≤ it, ∃ S, r.states[k]? = some S ∧
        |φ (entries _ (rowOf S.unrollGd.flatten, rowOf S.unrollCot.flatten)) - φ (entries _ (q 0, p 0))| ≤ C / it := by
  obtain ⟨C, n₀, h⟩ := C80_converges hs hp hn hT hc h0 hok s
  have hcont : ContinuousOn (fun t => entries (numCoords (.compound ms)) (q t, p t)) (Icc 0 T) := fun t ht => (hc.solves t ht).continuousWithinAt
  obtain ⟨δ, hδ, L, hL, hlip⟩ := lip_near (φ := φ) (isCompact_Icc.image_of_continuousOn hcont) (by rintro _ ⟨t, ht, rfl⟩; exact hφ t ht)
  obtain ⟨n₁, hn₁⟩ := exists_nat_ge (C / δ)
  refine ⟨L * C, max n₀ n₁, fun it hit hne => ?_⟩
  obtain ⟨r, h1, h2, h3⟩ := h it (le_of_max_le_left hit) hne
  have hpos : (0 : ℝ) < it := by exact_mod_cast Nat.pos_of_ne_zero hne
  refine ⟨r, h1, h2, fun k hk => ?_⟩
  obtain ⟨S, hS, hw⟩ := h3 k hk
  refine ⟨S, hS, ?_⟩
  have ht : T * k / it ∈ Icc 0 T := by
    refine ⟨by positivity, ?_⟩
    rw [div_le_iff₀ hpos]
    exact mul_le_mul_of_nonneg_left (by exact_mod_cast hk) hT.le
  have hC : 0 ≤ C / it := (abs_nonneg _).trans (hw 0 hn).1
  have hnorm : ‖entries (numCoords (.compound ms)) (rowOf S.unrollGd.flatten, rowOf S.unrollCot.flatten) - entries (numCoords (.compound ms)) (q (T * k / it), p (T * k / it))‖ ≤ C / it := by
    rw [Prod.norm_def, max_le_iff, pi_norm_le_iff_of_nonneg hC, pi_norm_le_iff_of_nonneg hC]
    exact ⟨fun j => (hw j j.2).1, fun j => (hw j j.2).2⟩
  have hCδ : C / it ≤ δ := by
    rw [div_le_iff₀ hpos]
    rw [div_le_iff₀ hδ] at hn₁
    have : (n₁ : ℝ) ≤ it := by exact_mod_cast le_of_max_le_right hit
    nlinarith
  have := hlip _ ⟨_, ht, rfl⟩ _ (hnorm.trans hCδ)
  rw [hconst _ ht] at this
  refine this.trans ?_
  rw [mul_div_assoc L C]
  exact mul_le_mul_of_nonneg_left hnorm hL

theorem rowsMod_state (m : DefModule d) (x : Row × Row) :
    rowsMod m (rowOf (rowsMod m x).manifold.unrollGd.flatten, rowOf (rowsMod m x).manifold.unrollCot.flatten) = rowsMod m x :=
  rowsMod_congr m (fun j hj => by
      have := congrFun (gdRow_rowsMod m x) j
      rw [cut_of_lt hj] at this; exact this)
    (fun j hj => by
      have := congrFun (cotRow_rowsMod m x) j
      rw [cut_of_lt hj] at this; exact this)

theorem ham_state (m : DefModule d) (x : Row × Row) :
    ham m (rowOf (rowsMod m x).manifold.unrollGd.flatten) (rowOf (rowsMod m x).manifold.unrollCot.flatten) = ham m x.1 x.2 := by
  unfold ham
  rw [hamFn_eq, hamFn_eq, rowsMod_state]

theorem ham_cost {m : DefModule d} (hw : m.NonnegWeights) {x : Row × Row} {a : ℝ} (h : GeodesicCostAt m x a) : ham m x.1 x.2 = a := by
  obtain ⟨m', h1, h2⟩ := h
  obtain ⟨H, f, e1, e2, -⟩ := C18_hamiltonian_is_cost _ _ _ (nonneg_rowsMod hw x) h1
  unfold ham
  rw [hamFn_eq, show rowsMod m (x.1, x.2) = rowsMod m x from rfl, h1]
  dsimp only
  unfold Hamiltonian.value
  rw [geodesic_manifold h1, e1]
  rw [h2] at e2
  exact (Except.ok.inj e2).symm

section
variable {ms : List (DefModule d)} {T : ℝ} {q p : ℝ → Row}

/-- **C81, energy of a shooting.** With the number of steps the Hamiltonian at the recorded states approaches its initial value. -/
theorem C81_energy_drift (hs : (DefModule.compound ms).Smooth 2) (hp : PlainMembers ms) (hn : 0 < numCoords (.compound ms))
    (hT : 0 < T) (hc : HamiltonCurve (numCoords (.compound ms)) (ham (.compound ms)) T q p)
    (h0 : ∀ j < numCoords (.compound ms), q 0 j = gdRow (.compound ms) j ∧ p 0 j = cotRow (.compound ms) j)
    (hok : ∀ t ∈ Icc 0 T, ∃ m', Hamiltonian.geodesicControls (rowsMod (.compound ms) (q t, p t)) = .ok m') (s : Solver) :
    ∃ C n₀, ∀ it ≥ n₀, it ≠ 0 → ∃ r, shootMoments s it T (.compound ms) = .ok r ∧ r.states.length = it + 1 ∧ ∀ S ∈ r.states,
      |ham (.compound ms) (rowOf S.unrollGd.flatten) (rowOf S.unrollCot.flatten)
        - ham (.compound ms) (gdRow (.compound ms)) (cotRow (.compound ms))| ≤ C / it := by
  set m := DefModule.compound ms with hm
  have e : ∀ x : Row × Row, hamV m (entries _ x) = ham m x.1 x.2 := rowFn_entries (ham_reads m)
  have hs1 : m.Smooth 1 := smooth_of_le (by norm_num) hs
  obtain ⟨C, n₀, h⟩ := drift hs hp hn hT hc h0 hok (φ := hamV m) (fun t ht => (hamV_contDiffAt hs1 (hok t ht)).2)
    (fun t ht => by rw [e, e]; exact C81_energy hs1 hc hok t ht) s
  refine ⟨C, n₀, fun it hit hne => ?_⟩
  obtain ⟨r, h1, h2, h3⟩ := h it hit hne
  refine ⟨r, h1, h2, fun S hS => ?_⟩
  obtain ⟨k, hk, rfl⟩ := List.mem_iff_getElem.1 hS
  obtain ⟨S', hS', h4⟩ := h3 k (by omega)
  rw [List.getElem?_eq_getElem hk] at hS'
  cases hS'
  rw [e, e] at h4
  rw [← ham_reads m (q := q 0) (p := p 0) (fun j hj => (h0 j hj).1) (fun j hj => (h0 j hj).2)]
  exact h4

/-- **C81, angular momentum of a shooting.** The same for the angular momentum, if the modules have no preferred direction. -/
theorem C81_angular_drift (hmov : ∀ g : Rigid d, g.τ = 0 → (DefModule.compound ms).Movable g)
    (hs : (DefModule.compound ms).Smooth 2) (hp : PlainMembers ms) (hn : 0 < numCoords (.compound ms))
    (hT : 0 < T) (hc : HamiltonCurve (numCoords (.compound ms)) (ham (.compound ms)) T q p)
    (h0 : ∀ j < numCoords (.compound ms), q 0 j = gdRow (.compound ms) j ∧ p 0 j = cotRow (.compound ms) j)
    (hok : ∀ t ∈ Icc 0 T, ∃ m', Hamiltonian.geodesicControls (rowsMod (.compound ms) (q t, p t)) = .ok m')
    {J : Mat d} (hJ : Jᵀ = -J) (s : Solver) :
    ∃ C n₀, ∀ it ≥ n₀, it ≠ 0 → ∃ r, shootMoments s it T (.compound ms) = .ok r ∧ r.states.length = it + 1 ∧ ∀ S ∈ r.states,
      |S.angular J - (DefModule.compound ms).manifold.angular J| ≤ C / it := by
  have e := angV_entries hJ (.compound ms)
  obtain ⟨C, n₀, h⟩ := drift hs hp hn hT hc h0 hok (φ := angV hJ (.compound ms)) (fun t ht => (angV_contDiff hJ _).contDiffAt)
    (fun t ht => by rw [e, e]; exact C81_angular hmov (smooth_of_le (by norm_num) hs) hc hok hJ t ht) s
  refine ⟨C, n₀, fun it hit hne => ?_⟩
  obtain ⟨r, h1, h2, h3⟩ := h it hit hne
  refine ⟨r, h1, h2, fun S hS => ?_⟩
  obtain ⟨k, hk, rfl⟩ := List.mem_iff_getElem.1 hS
  obtain ⟨S', hS', h4⟩ := h3 k (by omega)
  rw [List.getElem?_eq_getElem hk] at hS'
  cases hS'
  rw [e, e, rowsMod_congr _ (x := (q 0, p 0)) (y := (gdRow (.compound ms), cotRow (.compound ms))) (fun j hj => (h0 j hj).1) (fun j hj => (h0 j hj).2),
    rowsMod_self] at h4
  obtain ⟨xs, -, h6, -⟩ := shoot_ok hp hn h1
  have hS' : ∀ S ∈ r.states, ∃ x, (rowsMod (.compound ms) x).manifold = S := fun S hS => by
    rw [h6] at hS
    obtain ⟨x, -, hx⟩ := List.mem_map.1 hS
    exact ⟨x, hx⟩
  obtain ⟨x, hx⟩ := hS' _ hS
  rw [← hx] at h4 ⊢
  rwa [show rowsMod (.compound ms) (rowOf (rowsMod (.compound ms) x).manifold.unrollGd.flatten, rowOf (rowsMod (.compound ms) x).manifold.unrollCot.flatten)
    = rowsMod (.compound ms) x from rowsMod_state _ _] at h4

/-- **C81, costs of a shooting.** With `euler` and `midpoint` the deformation costs recorded for the steps approach each other: the
geodesics run at constant speed. -/
theorem C81_costs (hw : (DefModule.compound ms).NonnegWeights)
    (hs : (DefModule.compound ms).Smooth 2) (hp : PlainMembers ms) (hn : 0 < numCoords (.compound ms))
    (hT : 0 < T) (hc : HamiltonCurve (numCoords (.compound ms)) (ham (.compound ms)) T q p)
    (h0 : ∀ j < numCoords (.compound ms), q 0 j = gdRow (.compound ms) j ∧ p 0 j = cotRow (.compound ms) j)
    (hok : ∀ t ∈ Icc 0 T, ∃ m', Hamiltonian.geodesicControls (rowsMod (.compound ms) (q t, p t)) = .ok m')
    {s : Solver} (hr : s ≠ .rk4) :
    ∃ C n₀, ∀ it ≥ n₀, it ≠ 0 → ∃ r, shootMoments s it T (.compound ms) = .ok r ∧ r.costs.length = it ∧
      ∀ a ∈ r.costs, ∀ b ∈ r.costs, |a - b| ≤ C / it := by
  obtain ⟨C, n₀, h⟩ := C81_energy_drift hs hp hn hT hc h0 hok s
  refine ⟨2 * C, n₀, fun it hit hne => ?_⟩
  obtain ⟨r, h1, h2, h3⟩ := h it hit hne
  have hl := (C27_moments ms h1).1
  refine ⟨r, h1, hl, ?_⟩
  obtain ⟨xs, h4, h5⟩ := C27_where ms h1
  have key : ∀ a ∈ r.costs, |a - ham (.compound ms) (gdRow (.compound ms)) (cotRow (.compound ms))| ≤ C / it := fun a ha => by
    obtain ⟨j, hj, rfl⟩ := List.mem_iff_getElem.1 ha
    obtain ⟨x, a, e1, e2, e3, -⟩ := h5 j (by omega)
    rw [List.getElem?_eq_getElem hj, Option.some.injEq] at e1
    rw [e1]
    have hS : (rowsMod (.compound ms) x).manifold ∈ r.states := by
      rw [h4]
      exact List.mem_map.2 ⟨x, List.mem_of_getElem? (e3 (.inl hr)), rfl⟩
    have := h3 _ hS
    rwa [show ham (.compound ms) (rowOf (rowsMod (.compound ms) x).manifold.unrollGd.flatten) (rowOf (rowsMod (.compound ms) x).manifold.unrollCot.flatten)
      = a from (ham_state _ x).trans (ham_cost hw e2)] at this
  intro a ha b hb
  have h6 := key a ha
  have h7 := key b hb
  rw [abs_le] at h6 h7 ⊢
  rw [mul_div_assoc]
  exact ⟨by linarith [h6.1, h7.2], by linarith [h6.2, h7.1]⟩

end

/-- Points attracted by points in the plane, beside shapes that are carried along, satisfy all hypotheses for some time. -/
example {k l : Nat} (D : Implicit0 2 l) (hν : 0 < D.ν) (hc : 0 < D.coeff) (x p : Fin (k + 1) → Vec 2) {J : Mat 2} (hJ : Jᵀ = -J) (s : Solver) :
    ∃ T > 0, ∃ C n₀, ∀ it ≥ n₀, it ≠ 0 → ∃ r, shootMoments s it T (.compound [.implicit0 D, .silent (.landmarks x p)]) = .ok r ∧
      r.states.length = it + 1 ∧ ∀ S ∈ r.states,
        |S.angular J - (DefModule.compound [.implicit0 D, .silent (.landmarks x p)]).manifold.angular J| ≤ C / it := by
  have hr : (DefModule.compound [.implicit0 D, .silent (.landmarks x p)]).Regular := by
    simp [DefModule.Regular, DefModule.AllRegular, Mfd.NoEmptyCompound, Mfd.NoDirections, hν, hc]
  obtain ⟨T, q, p', hT, h1, h2, h3⟩ := C80_exists (hr.smooth 2) (by
    obtain ⟨m', h⟩ := regular_evalAt hr (gdRow _, cotRow _)
    exact evalAt_geodesic h)
  refine ⟨T, hT, C81_angular_drift ?_ (hr.smooth 2) ?_ ?_ hT h1 h2 h3 hJ s⟩
  · simp [DefModule.Movable, DefModule.AllMovable]
  · simp [PlainMembers, DefModule.manifolds, DefModule.manifold, Implicit0.manifold, Mfd.Plain, Mfd.hasShapeGd]
  · simp [numCoords, DefModule.manifolds, DefModule.manifold, Implicit0.manifold, Mfd.unrollGd, Mfd.unrollGdAll, length_flatVecs]

end
end Imodal
