import Verif.Lemmas.HamFlow
import Verif.Props.C26
import Mathlib.Analysis.ODE.ExistUnique
/-!
# C80: shooting converges to the solution of Hamilton's equations
-/
set_option autoImplicit false
namespace Imodal
noncomputable section
open Filter Topology Set
variable {d : Nat}

/-- The state differs from the rows `q`, `p` by at most `ε` in each of the first `N` entries. -/
def Mfd.Within (N : Nat) (ε : ℝ) (S : Mfd d) (q p : Row) : Prop :=
  ∀ j < N, |rowOf S.unrollGd.flatten j - q j| ≤ ε ∧ |rowOf S.unrollCot.flatten j - p j| ≤ ε

theorem entries_le {N : Nat} {x y : Row × Row} {ε : ℝ} (h : ‖entries N x - entries N y‖ ≤ ε) : ∀ j < N, |x.1 j - y.1 j| ≤ ε ∧ |x.2 j - y.2 j| ≤ ε :=
  fun j hj => ⟨((norm_le_pi_norm ((entries N x - entries N y).1) ⟨j, hj⟩).trans (norm_fst_le _)).trans h,
    ((norm_le_pi_norm ((entries N x - entries N y).2) ⟨j, hj⟩).trans (norm_snd_le _)).trans h⟩

/-- **C80, ODE solvers.** Let `(q, p)` follow Hamilton's equations of the Hamiltonian with geodesic controls, from the
initial descriptors and momenta, and let geodesic controls exist along it. Then shooting with enough steps
returns, and each of its states differs from `(q, p)` at the corresponding time by at most a constant over the
number of steps. -/
theorem C80_converges {ms : List (DefModule d)} (hs : (DefModule.compound ms).Smooth 2) (hp : PlainMembers ms) (hn : 0 < numCoords (.compound ms))
    {T : ℝ} (hT : 0 < T) {q p : ℝ → Row} (hc : HamiltonCurve (numCoords (.compound ms)) (ham (.compound ms)) T q p)
    (h0 : ∀ j < numCoords (.compound ms), q 0 j = gdRow (.compound ms) j ∧ p 0 j = cotRow (.compound ms) j)
    (hok : ∀ t ∈ Icc 0 T, ∃ m', Hamiltonian.geodesicControls (rowsMod (.compound ms) (q t, p t)) = .ok m') (s : Solver) :
    ∃ C n₀, ∀ it ≥ n₀, it ≠ 0 → ∃ r, shootMoments s it T (.compound ms) = .ok r ∧ r.states.length = it + 1 ∧
      ∀ k ≤ it, ∃ S, r.states[k]? = some S ∧ S.Within (numCoords (.compound ms)) (C / it) (q (T * k / it)) (p (T * k / it)) := by
  set m := DefModule.compound ms with hm
  have hok' : ∀ t ∈ Icc 0 T, ∃ m', Hamiltonian.geodesicControls (rowsMod m (finRows (entries (numCoords m) (q t, p t)))) = .ok m' := fun t ht => by
    rw [rowsMod_entries]; exact hok t ht
  obtain ⟨C, n₀, h⟩ := orbit_converges (X := rhsV m) hT hc.solves
    (fun t ht => (hamField_contDiffAt (k := 1) hs (by norm_num) (hok' t ht)).1)
    (fun t ht => (hamField_contDiffAt (k := 1) hs (by norm_num) (hok' t ht)).2) s
  refine ⟨C, n₀, fun it hit hne => ?_⟩
  obtain ⟨l, hl, hall⟩ := h it hit hne
  have e0 : entries (numCoords m) (q 0, p 0) = entries (numCoords m) (gdRow m, cotRow m) :=
    Prod.ext (funext fun j => (h0 j j.2).1) (funext fun j => (h0 j j.2).2)
  rw [e0, ← orbit_entries] at hl
  have := shoot_cases hp hn s it T
  cases ho : orbit s (rhs m) T it (gdRow m, cotRow m) with
  | error e => rw [ho] at hl; cases hl
  | ok xs =>
    rw [ho] at hl this
    cases hl
    obtain ⟨g, -, -, h3⟩ := this
    refine ⟨_, h3, by simp [(orbit_steps ho).1], fun k hk => ?_⟩
    obtain ⟨y, hy, hyn⟩ := hall k hk
    rw [List.getElem?_map] at hy
    cases hx : xs[k]? with
    | none => rw [hx] at hy; cases hy
    | some x =>
      rw [hx] at hy
      cases hy
      refine ⟨(rowsMod m x).manifold, by rw [List.getElem?_map, hx]; rfl, fun j hj => ?_⟩
      have e1 : rowOf (rowsMod m x).manifold.unrollGd.flatten j = x.1 j := by
        have := congrFun (gdRow_rowsMod m x) j
        rw [cut_of_lt hj] at this; exact this
      have e2 : rowOf (rowsMod m x).manifold.unrollCot.flatten j = x.2 j := by
        have := congrFun (cotRow_rowsMod m x) j
        rw [cut_of_lt hj] at this; exact this
      rw [e1, e2]
      exact entries_le hyn j hj

/-- **C80, Euler.** The same for `torch_euler`, which integrates up to time one. -/
theorem C80_euler {ms : List (DefModule d)} (hs : (DefModule.compound ms).Smooth 2) (hp : PlainMembers ms) (hn : 0 < numCoords (.compound ms))
    {q p : ℝ → Row} (hc : HamiltonCurve (numCoords (.compound ms)) (ham (.compound ms)) 1 q p)
    (h0 : ∀ j < numCoords (.compound ms), q 0 j = gdRow (.compound ms) j ∧ p 0 j = cotRow (.compound ms) j)
    (hok : ∀ t ∈ Icc (0 : ℝ) 1, ∃ m', Hamiltonian.geodesicControls (rowsMod (.compound ms) (q t, p t)) = .ok m') :
    ∃ C n₀, ∀ it ≥ n₀, it ≠ 0 → ∃ r, shootEuler it none (.compound ms) = .ok r ∧ r.states.length = it + 1 ∧
      ∀ k ≤ it, ∃ S, r.states[k]? = some S ∧ S.Within (numCoords (.compound ms)) (C / it) (q (k / it)) (p (k / it)) := by
  obtain ⟨C, n₀, h⟩ := C80_converges hs hp hn one_pos hc h0 hok .euler
  refine ⟨C, n₀, fun it hit hne => ?_⟩
  obtain ⟨r', hr', hlen, hall⟩ := h it hit hne
  have ha := C26_agrees ms hp hn it hne
  rw [hr'] at ha
  cases hr : shootEuler it none (.compound ms) with
  | error e => rw [hr] at ha; exact ha.elim
  | ok r =>
    rw [hr] at ha
    obtain ⟨-, e, -⟩ := ha
    rw [e] at hlen hall
    refine ⟨r, rfl, hlen, fun k hk => ?_⟩
    have := hall k hk
    rwa [one_mul] at this

/-- Solutions are curves that follow Hamilton's equations. -/
theorem hamiltonCurve_of_solves {m : DefModule d} {T : ℝ} {x : ℝ → Fins (numCoords m)} (h : Solves (hamField m) x T) :
    HamiltonCurve (numCoords m) (ham m) T (fun t => (finRows (x t)).1) (fun t => (finRows (x t)).2) := by
  have e : ∀ (u : ℝ) (j : Nat) (hj : j < numCoords m), (finRows (x u)).1 j = (x u).1 ⟨j, hj⟩ ∧ (finRows (x u)).2 j = (x u).2 ⟨j, hj⟩ := fun u j hj =>
    ⟨extRow_lt _ hj, extRow_lt _ hj⟩
  refine ⟨fun t ht j hj => ?_, fun t ht j hj => ?_⟩
  · have := hasDerivWithinAt_pi.1 ((h t ht).fst) ⟨j, hj⟩
    rw [hamField_eq] at this
    exact this.congr (fun u _ => (e u j hj).1) (e t j hj).1
  · have := hasDerivWithinAt_pi.1 ((h t ht).snd) ⟨j, hj⟩
    rw [hamField_eq] at this
    exact this.congr (fun u _ => (e u j hj).2) (e t j hj).2

/-- **C80, existence.** Where geodesic controls exist, Hamilton's equations have a solution from there for some time, and geodesic
controls exist along it. -/
theorem C80_exists {m : DefModule d} (hs : m.Smooth 2) (hok : ∃ m', Hamiltonian.geodesicControls (rowsMod m (gdRow m, cotRow m)) = .ok m') :
    ∃ T q p, 0 < T ∧ HamiltonCurve (numCoords m) (ham m) T q p ∧ (∀ j < numCoords m, q 0 j = gdRow m j ∧ p 0 j = cotRow m j) ∧
      ∀ t ∈ Icc 0 T, ∃ m', Hamiltonian.geodesicControls (rowsMod m (q t, p t)) = .ok m' := by
  set v := entries (numCoords m) (gdRow m, cotRow m) with hv
  have hok' : ∃ m', Hamiltonian.geodesicControls (rowsMod m (finRows v)) = .ok m' := by rwa [hv, rowsMod_entries]
  obtain ⟨hev, -⟩ := hamV_contDiffAt hs hok
  rw [← hv] at hev
  obtain ⟨α, h0, ε, hε, hα⟩ := (hamField_contDiffAt (k := 1) hs (by norm_num) hok').1.exists_forall_mem_closedBall_exists_eq_forall_mem_Ioo_hasDerivAt₀ 0
  have hc : ContinuousAt α 0 := (hα 0 ⟨by linarith, by linarith⟩).continuousAt
  have h1 : ∀ᶠ t in 𝓝 (0 : ℝ), ∃ m', evalAt m (finRows (α t)) = .ok m' := by
    have : Tendsto α (𝓝 0) (𝓝 v) := by rw [← h0]; exact hc
    exact this.eventually hev
  obtain ⟨η, hη, hball⟩ := Metric.eventually_nhds_iff.1 h1
  refine ⟨min ε η / 2, _, _, by positivity, hamiltonCurve_of_solves (x := α) fun t ht => ?_, fun j hj => ?_, fun t ht => ?_⟩
  · have := lt_min_iff.1 (lt_of_le_of_lt ht.2 (half_lt_self (lt_min hε hη)))
    exact (hα t ⟨by linarith [ht.1], by linarith [this.1]⟩).hasDerivWithinAt
  · rw [h0]
    exact ⟨extRow_lt _ hj, extRow_lt _ hj⟩
  · have := lt_min_iff.1 (lt_of_le_of_lt ht.2 (half_lt_self (lt_min hε hη)))
    obtain ⟨m', h⟩ := hball (show dist t 0 < η by rw [Real.dist_eq, sub_zero, abs_of_nonneg ht.1]; exact this.2)
    exact evalAt_geodesic h

/-- **C80, short times.** Where geodesic controls exist, shooting for a short enough time converges as the number of steps grows. -/
theorem C80_short {ms : List (DefModule d)} (hs : (DefModule.compound ms).Smooth 2) (hp : PlainMembers ms) (hn : 0 < numCoords (.compound ms))
    (hok : ∃ m', Hamiltonian.geodesicControls (rowsMod (.compound ms) (gdRow (.compound ms), cotRow (.compound ms))) = .ok m') :
    ∃ T q p, 0 < T ∧ HamiltonCurve (numCoords (.compound ms)) (ham (.compound ms)) T q p ∧ ∀ s : Solver,
      ∃ C n₀, ∀ it ≥ n₀, it ≠ 0 → ∃ r, shootMoments s it T (.compound ms) = .ok r ∧ r.states.length = it + 1 ∧
        ∀ k ≤ it, ∃ S, r.states[k]? = some S ∧ S.Within (numCoords (.compound ms)) (C / it) (q (T * k / it)) (p (T * k / it)) := by
  obtain ⟨T, q, p, hT, hc, h0, h1⟩ := C80_exists hs hok
  exact ⟨T, q, p, hT, hc, fun s => C80_converges hs hp hn hT hc h0 h1 s⟩

/-- Points attracted by points, beside shapes that are carried along: shooting converges for short times, from any momenta. -/
example {k l : Nat} (D : Implicit0 2 l) (hν : 0 < D.ν) (hc : 0 < D.coeff) (x p : Fin (k + 1) → Vec 2) :
    ∃ T q p', 0 < T ∧ HamiltonCurve (numCoords (.compound [.implicit0 D, .silent (.landmarks x p)]))
        (ham (.compound [.implicit0 D, .silent (.landmarks x p)])) T q p' ∧ ∀ s : Solver,
      ∃ C n₀, ∀ it ≥ n₀, it ≠ 0 → ∃ r, shootMoments s it T (.compound [.implicit0 D, .silent (.landmarks x p)]) = .ok r ∧ r.states.length = it + 1 ∧
        ∀ k' ≤ it, ∃ S, r.states[k']? = some S ∧ S.Within (numCoords (.compound [.implicit0 D, .silent (.landmarks x p)])) (C / it) (q (T * k' / it)) (p' (T * k' / it)) := by
  have hr : (DefModule.compound [.implicit0 D, .silent (.landmarks x p)]).Regular := by
    simp [DefModule.Regular, DefModule.AllRegular, Mfd.NoEmptyCompound, Mfd.NoDirections, hν, hc]
  refine C80_short (hr.smooth 2) ?_ ?_ ?_
  · simp [PlainMembers, DefModule.manifolds, DefModule.manifold, Implicit0.manifold, Mfd.Plain, Mfd.hasShapeGd]
  · simp [numCoords, DefModule.manifolds, DefModule.manifold, Implicit0.manifold, Mfd.unrollGd, Mfd.unrollGdAll, length_flatVecs]
  · obtain ⟨m', h⟩ := regular_evalAt hr (gdRow _, cotRow _)
    exact evalAt_geodesic h

end
end Imodal
