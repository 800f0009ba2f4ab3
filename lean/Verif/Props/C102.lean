import Verif.Lemmas.OrderRun
import Verif.Props.C81
/-!
# C102: shooting is as accurate as its method
-/
set_option autoImplicit false
namespace Imodal
noncomputable section
open Filter Topology Set Matrix
variable {d : Nat}

/-- **C102.** Let `(q, p)` follow Hamilton's equations of the Hamiltonian with geodesic controls, from the
initial descriptors and momenta, and let geodesic controls exist along it. Then shooting with enough steps
returns, and each of its states differs from `(q, p)` at the corresponding time by at most a constant over
the number of steps, its square for the midpoint method and its fourth power for `'rk4'`. -/
theorem C102_order {ms : List (DefModule d)} (s : Solver) (hs : (DefModule.compound ms).Smooth (s.order + 1 : Nat)) (hp : PlainMembers ms)
    (hn : 0 < numCoords (.compound ms)) {T : ℝ} (hT : 0 < T) {q p : ℝ → Row}
    (hc : HamiltonCurve (numCoords (.compound ms)) (ham (.compound ms)) T q p)
    (h0 : ∀ j < numCoords (.compound ms), q 0 j = gdRow (.compound ms) j ∧ p 0 j = cotRow (.compound ms) j)
    (hok : ∀ t ∈ Icc 0 T, ∃ m', Hamiltonian.geodesicControls (rowsMod (.compound ms) (q t, p t)) = .ok m') :
    ∃ C n₀, ∀ it ≥ n₀, it ≠ 0 → ∃ r, shootMoments s it T (.compound ms) = .ok r ∧ r.states.length = it + 1 ∧
      ∀ k ≤ it, ∃ S, r.states[k]? = some S ∧
        S.Within (numCoords (.compound ms)) (C / it ^ s.order) (q (T * k / it)) (p (T * k / it)) := by
  set m := DefModule.compound ms with hm
  have hok' : ∀ t ∈ Icc 0 T, ∃ m', Hamiltonian.geodesicControls (rowsMod m (finRows (entries (numCoords m) (q t, p t)))) = .ok m' := fun t ht => by
    rw [rowsMod_entries]; exact hok t ht
  obtain ⟨C, n₀, h⟩ := orbit_order (X := rhsV m) hT hc.solves s
    (fun t ht => (hamField_contDiffAt (k := s.order) hs (by push_cast; exact le_rfl) (hok' t ht)).1)
    (fun t ht => (hamField_contDiffAt (k := s.order) hs (by push_cast; exact le_rfl) (hok' t ht)).2)
  refine ⟨C, n₀, fun it hit hne => ?_⟩
  obtain ⟨l, hl, hall⟩ := h it hit hne
  have e0 : entries (numCoords m) (q 0, p 0) = entries (numCoords m) (gdRow m, cotRow m) :=
    Prod.ext (funext fun j => (h0 j j.2).1) (funext fun j => (h0 j j.2).2)
  rw [e0, ← orbit_entries] at hl
  have := shoot_cases hp hn s it T
  cases ho : orbit s (rhs m) T it (gdRow m, cotRow m) with
  | error e => rw [ho] at hl; cases hl
  | ok xs =>
    rw [ho] at hl this
    cases hl
    obtain ⟨g, -, -, h3⟩ := this
    refine ⟨_, h3, by simp [(orbit_steps ho).1], fun k hk => ?_⟩
    obtain ⟨y, hy, hyn⟩ := hall k hk
    rw [List.getElem?_map] at hy
    cases hx : xs[k]? with
    | none => rw [hx] at hy; cases hy
    | some x =>
      rw [hx] at hy
      cases hy
      refine ⟨(rowsMod m x).manifold, by rw [List.getElem?_map, hx]; rfl, fun j hj => ?_⟩
      have e1 : rowOf (rowsMod m x).manifold.unrollGd.flatten j = x.1 j := by
        have := congrFun (gdRow_rowsMod m x) j
        rw [cut_of_lt hj] at this; exact this
      have e2 : rowOf (rowsMod m x).manifold.unrollCot.flatten j = x.2 j := by
        have := congrFun (cotRow_rowsMod m x) j
        rw [cut_of_lt hj] at this; exact this
      rw [e1, e2]
      exact entries_le hyn j hj

/-- A quantity that is constant along the solution changes as little as the order of the method says. -/
theorem drift_order {ms : List (DefModule d)} (s : Solver) (hs : (DefModule.compound ms).Smooth (s.order + 1 : Nat)) (hp : PlainMembers ms) (hn : 0 < numCoords (.compound ms))
    {T : ℝ} (hT : 0 < T) {q p : ℝ → Row} (hc : HamiltonCurve (numCoords (.compound ms)) (ham (.compound ms)) T q p)
    (h0 : ∀ j < numCoords (.compound ms), q 0 j = gdRow (.compound ms) j ∧ p 0 j = cotRow (.compound ms) j)
    (hok : ∀ t ∈ Icc 0 T, ∃ m', Hamiltonian.geodesicControls (rowsMod (.compound ms) (q t, p t)) = .ok m')
    {φ : Fins (numCoords (.compound ms)) → ℝ} (hφ : ∀ t ∈ Icc 0 T, ContDiffAt ℝ 1 φ (entries _ (q t, p t)))
    (hconst : ∀ t ∈ Icc 0 T, φ (entries _ (q t, p t)) = φ (entries _ (q 0, p 0))) :
    ∃ C n₀, ∀ it ≥ n₀, it ≠ 0 → ∃ r, shootMoments s it T (.compound ms) = .ok r ∧ r.states.length = it + 1 ∧
      ∀ k ≤ it, ∃ S, r.states[k]? = some S ∧
        |φ (entries _ (rowOf S.unrollGd.flatten, rowOf S.unrollCot.flatten)) - φ (entries _ (q 0, p 0))| ≤ C / it ^ s.order := by
  obtain ⟨C, n₀, h⟩ := C102_order s hs hp hn hT hc h0 hok
  have hcont : ContinuousOn (fun t => entries (numCoords (.compound ms)) (q t, p t)) (Icc 0 T) := fun t ht => (hc.solves t ht).continuousWithinAt
  obtain ⟨δ, hδ, L, hL, hlip⟩ := lip_near (φ := φ) (isCompact_Icc.image_of_continuousOn hcont) (by rintro _ ⟨t, ht, rfl⟩; exact hφ t ht)
  obtain ⟨n₁, hn₁⟩ := exists_nat_ge (C / δ)
  refine ⟨L * C, max n₀ n₁, fun it hit hne => ?_⟩
  obtain ⟨r, h1, h2, h3⟩ := h it (le_of_max_le_left hit) hne
  have hpos : (0 : ℝ) < it := by exact_mod_cast Nat.pos_of_ne_zero hne
  refine ⟨r, h1, h2, fun k hk => ?_⟩
  obtain ⟨S, hS, hw⟩ := h3 k hk
  refine ⟨S, hS, ?_⟩
  have ht : T * k / it ∈ Icc 0 T := by
    refine ⟨by positivity, ?_⟩
    rw [div_le_iff₀ hpos]
    exact mul_le_mul_of_nonneg_left (by exact_mod_cast hk) hT.le
  have hC : 0 ≤ C / it ^ s.order := (abs_nonneg _).trans (hw 0 hn).1
  have hnorm : ‖entries (numCoords (.compound ms)) (rowOf S.unrollGd.flatten, rowOf S.unrollCot.flatten) - entries (numCoords (.compound ms)) (q (T * k / it), p (T * k / it))‖ ≤ C / it ^ s.order := by
    rw [Prod.norm_def, max_le_iff, pi_norm_le_iff_of_nonneg hC, pi_norm_le_iff_of_nonneg hC]
    exact ⟨fun j => (hw j j.2).1, fun j => (hw j j.2).2⟩
  have hC0 : 0 ≤ C := by
    have := mul_nonneg hC (by positivity : (0 : ℝ) ≤ (it : ℝ) ^ s.order)
    rwa [div_mul_cancel₀ _ (by positivity)] at this
  have hpow : C / (it : ℝ) ^ s.order ≤ C / it := by
    refine div_le_div_of_nonneg_left hC0 hpos ?_
    calc (it : ℝ) = (it : ℝ) ^ 1 := (pow_one _).symm
      _ ≤ (it : ℝ) ^ s.order := pow_le_pow_right₀ (by exact_mod_cast Nat.pos_of_ne_zero hne) (by cases s <;> simp [Solver.order])
  have hCδ : C / it ^ s.order ≤ δ := by
    refine hpow.trans ?_
    rw [div_le_iff₀ hpos]
    rw [div_le_iff₀ hδ] at hn₁
    have : (n₁ : ℝ) ≤ it := by exact_mod_cast le_of_max_le_right hit
    nlinarith
  have := hlip _ ⟨_, ht, rfl⟩ _ (hnorm.trans hCδ)
  rw [hconst _ ht] at this
  refine this.trans ?_
  rw [mul_div_assoc L C]
  exact mul_le_mul_of_nonneg_left hnorm hL

theorem one_le_order (s : Solver) : (1 : WithTop ℕ∞) ≤ ((s.order + 1 : Nat) : WithTop ℕ∞) := by cases s <;> simp [Solver.order]

section
variable {ms : List (DefModule d)} {T : ℝ} {q p : ℝ → Row}

/-- **C102, energy of a shooting.** The Hamiltonian at the recorded states differs from its initial value by at most a constant over the power of the
number of steps that belongs to the method. -/
theorem C102_energy (s : Solver) (hs : (DefModule.compound ms).Smooth (s.order + 1 : Nat)) (hp : PlainMembers ms) (hn : 0 < numCoords (.compound ms))
    (hT : 0 < T) (hc : HamiltonCurve (numCoords (.compound ms)) (ham (.compound ms)) T q p)
    (h0 : ∀ j < numCoords (.compound ms), q 0 j = gdRow (.compound ms) j ∧ p 0 j = cotRow (.compound ms) j)
    (hok : ∀ t ∈ Icc 0 T, ∃ m', Hamiltonian.geodesicControls (rowsMod (.compound ms) (q t, p t)) = .ok m') :
    ∃ C n₀, ∀ it ≥ n₀, it ≠ 0 → ∃ r, shootMoments s it T (.compound ms) = .ok r ∧ r.states.length = it + 1 ∧ ∀ S ∈ r.states,
      |ham (.compound ms) (rowOf S.unrollGd.flatten) (rowOf S.unrollCot.flatten)
        - ham (.compound ms) (gdRow (.compound ms)) (cotRow (.compound ms))| ≤ C / it ^ s.order := by
  set m := DefModule.compound ms with hm
  have e : ∀ x : Row × Row, hamV m (entries _ x) = ham m x.1 x.2 := rowFn_entries (ham_reads m)
  have hs1 : m.Smooth 1 := smooth_of_le (one_le_order s) hs
  obtain ⟨C, n₀, h⟩ := drift_order s hs hp hn hT hc h0 hok (φ := hamV m) (fun t ht => (hamV_contDiffAt hs1 (hok t ht)).2)
    (fun t ht => by rw [e, e]; exact C81_energy hs1 hc hok t ht)
  refine ⟨C, n₀, fun it hit hne => ?_⟩
  obtain ⟨r, h1, h2, h3⟩ := h it hit hne
  refine ⟨r, h1, h2, fun S hS => ?_⟩
  obtain ⟨k, hk, rfl⟩ := List.mem_iff_getElem.1 hS
  obtain ⟨S', hS', h4⟩ := h3 k (by omega)
  rw [List.getElem?_eq_getElem hk] at hS'
  cases hS'
  rw [e, e] at h4
  rw [← ham_reads m (q := q 0) (p := p 0) (fun j hj => (h0 j hj).1) (fun j hj => (h0 j hj).2)]
  exact h4

/-- **C102, angular momentum of a shooting.** The same for the angular momentum, if the modules have no preferred direction. -/
theorem C102_angular (hmov : ∀ g : Rigid d, g.τ = 0 → (DefModule.compound ms).Movable g)
    (s : Solver) (hs : (DefModule.compound ms).Smooth (s.order + 1 : Nat)) (hp : PlainMembers ms) (hn : 0 < numCoords (.compound ms))
    (hT : 0 < T) (hc : HamiltonCurve (numCoords (.compound ms)) (ham (.compound ms)) T q p)
    (h0 : ∀ j < numCoords (.compound ms), q 0 j = gdRow (.compound ms) j ∧ p 0 j = cotRow (.compound ms) j)
    (hok : ∀ t ∈ Icc 0 T, ∃ m', Hamiltonian.geodesicControls (rowsMod (.compound ms) (q t, p t)) = .ok m')
    {J : Mat d} (hJ : Jᵀ = -J) :
    ∃ C n₀, ∀ it ≥ n₀, it ≠ 0 → ∃ r, shootMoments s it T (.compound ms) = .ok r ∧ r.states.length = it + 1 ∧ ∀ S ∈ r.states,
      |S.angular J - (DefModule.compound ms).manifold.angular J| ≤ C / it ^ s.order := by
  have e := angV_entries hJ (.compound ms)
  obtain ⟨C, n₀, h⟩ := drift_order s hs hp hn hT hc h0 hok (φ := angV hJ (.compound ms)) (fun t ht => (angV_contDiff hJ _).contDiffAt)
    (fun t ht => by rw [e, e]; exact C81_angular hmov (smooth_of_le (one_le_order s) hs) hc hok hJ t ht)
  refine ⟨C, n₀, fun it hit hne => ?_⟩
  obtain ⟨r, h1, h2, h3⟩ := h it hit hne
  refine ⟨r, h1, h2, fun S hS => ?_⟩
  obtain ⟨k, hk, rfl⟩ := List.mem_iff_getElem.1 hS
  obtain ⟨S', hS', h4⟩ := h3 k (by omega)
  rw [List.getElem?_eq_getElem hk] at hS'
  cases hS'
  rw [e, e, rowsMod_congr _ (x := (q 0, p 0)) (y := (gdRow (.compound ms), cotRow (.compound ms))) (fun j hj => (h0 j hj).1) (fun j hj => (h0 j hj).2),
    rowsMod_self] at h4
  obtain ⟨xs, -, h6, -⟩ := shoot_ok hp hn h1
  have hS' : ∀ S ∈ r.states, ∃ x, (rowsMod (.compound ms) x).manifold = S := fun S hS => by
    rw [h6] at hS
    obtain ⟨x, -, hx⟩ := List.mem_map.1 hS
    exact ⟨x, hx⟩
  obtain ⟨x, hx⟩ := hS' _ hS
  rw [← hx] at h4 ⊢
  rwa [show rowsMod (.compound ms) (rowOf (rowsMod (.compound ms) x).manifold.unrollGd.flatten, rowOf (rowsMod (.compound ms) x).manifold.unrollCot.flatten)
    = rowsMod (.compound ms) x from rowsMod_state _ _] at h4

end

/-- Points attracted by points in the plane, beside shapes that are carried along, satisfy all hypotheses for some time. -/
example {k l : Nat} (D : Implicit0 2 l) (hν : 0 < D.ν) (hc : 0 < D.coeff) (x p : Fin (k + 1) → Vec 2) :
    ∃ T > 0, ∃ q p', HamiltonCurve (numCoords (.compound [.implicit0 D, .silent (.landmarks x p)]))
        (ham (.compound [.implicit0 D, .silent (.landmarks x p)])) T q p' ∧
      ∃ C n₀, ∀ it ≥ n₀, it ≠ 0 → ∃ r, shootMoments .rk4 it T (.compound [.implicit0 D, .silent (.landmarks x p)]) = .ok r ∧
        r.states.length = it + 1 ∧ ∀ i ≤ it, ∃ S, r.states[i]? = some S ∧
          S.Within (numCoords (.compound [.implicit0 D, .silent (.landmarks x p)])) (C / it ^ 4) (q (T * i / it)) (p' (T * i / it)) := by
  have hr : (DefModule.compound [.implicit0 D, .silent (.landmarks x p)]).Regular := by
    simp [DefModule.Regular, DefModule.AllRegular, Mfd.NoEmptyCompound, Mfd.NoDirections, hν, hc]
  obtain ⟨T, q, p', hT, h1, h2, h3⟩ := C80_exists (hr.smooth 2) (by
    obtain ⟨m', h⟩ := regular_evalAt hr (gdRow _, cotRow _)
    exact evalAt_geodesic h)
  refine ⟨T, hT, q, p', h1, C102_order .rk4 (hr.smooth _) ?_ ?_ hT h1 h2 h3⟩
  · simp [PlainMembers, DefModule.manifolds, DefModule.manifold, Implicit0.manifold, Mfd.Plain, Mfd.hasShapeGd]
  · simp [numCoords, DefModule.manifolds, DefModule.manifold, Implicit0.manifold, Mfd.unrollGd, Mfd.unrollGdAll, length_flatVecs]

end
end Imodal
