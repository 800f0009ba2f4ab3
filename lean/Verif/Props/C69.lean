import Verif.Lemmas.Flow
import Verif.Lemmas.GivenTotal
import Verif.Props.C28
/-!
# C69: shooting regularised modules never fails
-/
set_option autoImplicit false
namespace Imodal
noncomputable section
variable {d : Nat}

/-- Every method of the ODE solver, every number of steps and every final time but zero: shooting
returns, wherever the points are and whatever the momenta. -/
theorem C69_solver (ms : List (DefModule d)) (h : (DefModule.compound ms).Regular) (hp : PlainMembers ms)
    (hn : 0 < numCoords (.compound ms)) (s : Solver) (it : Nat) {t1 : ℝ} (ht : t1 ≠ 0) :
    ∃ r, shootMoments s it t1 (.compound ms) = .ok r ∧ r.states.length = it + 1 := by
  have hc := shoot_cases hp hn s it t1
  obtain ⟨xs, hxs⟩ := orbit_total s (rhs_total h) ht it (gdRow (.compound ms), cotRow (.compound ms))
  rw [hxs] at hc
  obtain ⟨g, -, -, h3⟩ := hc
  exact ⟨_, h3, by dsimp only; rw [List.length_map]; exact (orbit_steps hxs).1⟩

/-- `torch_euler` also returns for nested compounds, and without coordinates. -/
theorem C69_euler (m : DefModule d) (h : m.Regular) {it : Nat} (hit : it ≠ 0) :
    ∃ r, shootEuler it none m = .ok r ∧ r.states.length = it + 1 := by
  obtain ⟨r, hr⟩ := regular_shootEuler h hit
  exact ⟨r, hr, (C26_steps hr).2.1⟩

/-- Without the time interval being positive in length, the solver refuses the time grid. -/
theorem C69_zero_time (ms : List (DefModule d)) (hp : PlainMembers ms)
    (hn : 0 < numCoords (.compound ms)) (s : Solver) {it : Nat} (hit : it ≠ 0) :
    shootMoments s it 0 (.compound ms) = .error .assertion := by
  have hc := shoot_cases hp hn s it 0
  rw [orbit_eq, if_pos ⟨hit, rfl⟩] at hc
  exact hc

/-! ## Given controls

Modules that solve no system to set their controls need no regularisation, and points may coincide. -/

/-- With controls of the right shape, one list per step or per evaluation, shooting returns. -/
theorem C69_controls (ms : List (DefModule d)) (h : (DefModule.compound ms).Settable) (hp : PlainMembers ms)
    (hn : 0 < numCoords (.compound ms)) (s : Solver) (it : Nat) {t1 : ℝ} (ht : t1 ≠ 0) (controls : List (Ctrl d))
    (hl : controls.length = it ∨ it < controls.length ∧ s.stages * it ≤ controls.length)
    (hc : ∀ c ∈ controls, (DefModule.compound ms).Fits c) : ∃ r, shootControls s it t1 controls (.compound ms) = .ok r :=
  C28_in_range ms hp hn s it ht controls hl fun c hm x => settable_ctrlRhs h (hc c hm) x

theorem euler_controls_returns (m : DefModule d) (step : ℝ) (cs : List (Ctrl d))
    (h : ∀ c ∈ cs, ∀ m', Same m' m → ∃ m1 v, m'.fillControls c = .ok m1 ∧ Hamiltonian.value m1 = .ok v)
    (k : Nat) : ∀ i m', i + k ≤ cs.length → Same m' m → ∃ r, eulerLoop step (some cs) i k m' = .ok r := by
  induction k with
  | zero => intro i m' _ _; exact ⟨_, rfl⟩
  | succ k ih =>
    intro i m' hi hm'
    have hlt : i < cs.length := by omega
    obtain ⟨m1, v, h1, h2⟩ := h cs[i] (List.getElem_mem hlt) m' hm'
    have h1' : setControls (some cs) i m' = .ok m1 := by unfold setControls; dsimp only; rw [List.getElem?_eq_getElem hlt]; exact h1
    rw [eulerLoop, eulerStep, h1']
    dsimp only
    rw [h2]
    dsimp only
    rw [withRows_eq]
    dsimp only
    obtain ⟨r, hr⟩ := ih (i + 1) (rowsMod m1 (gdRow m' + step • (gradH (setControls (some cs) i) m').2,
      cotRow m' + -step • (gradH (setControls (some cs) i) m').1)) (by omega)
      ((same_rowsMod _ _).trans ((same_of_reset (setControls_reset h1')).trans hm'))
    exact ⟨_, by rw [show (m1.withGd _ 0).withCot _ 0 = rowsMod m1 (gdRow m' + step • (gradH (setControls (some cs) i) m').2,
      cotRow m' + -step • (gradH (setControls (some cs) i) m').1) from rfl, hr]⟩

/-- `torch_euler` too, for every module with at least one list of controls per step. -/
theorem C69_euler_controls (m : DefModule d) (h : m.Settable) {it : Nat} (hit : it ≠ 0) (controls : List (Ctrl d)) (hl : it ≤ controls.length)
    (hc : ∀ c ∈ controls, m.Fits c) : ∃ r, shootEuler it (some controls) m = .ok r ∧ r.states.length = it + 1 := by
  have key : ∃ r, shootEuler it (some controls) m = .ok r := by
    rw [shootEuler, if_neg hit]
    refine euler_controls_returns m (1 / it) controls (fun c hm m' hs => ?_) it 0 m (by omega) (Same.refl m)
    have hS : m'.Settable := by
      rw [← rowsMod_self m', ← settable_reset, hs, settable_reset]
      exact settable_withCot _ _ _ (settable_withGd _ _ _ h)
    have hF : m'.Fits c := by
      rw [← rowsMod_self m', ← fits_reset, hs, fits_reset]
      exact fits_withCot _ _ _ _ (fits_withGd _ _ _ _ (hc c hm))
    obtain ⟨m1, h1⟩ := settable_fill m' hS c hF
    obtain ⟨Q⟩ := quad_exists m1.manifold m' (settable_nonneg _ hS)
    exact ⟨m1, _, h1, @hamiltonianOn_has _ _ _ Q.inst _ _ _ _ (Q.fill c m1 h1)⟩
  obtain ⟨r, hr⟩ := key
  exact ⟨r, hr, (C26_steps hr).2.1⟩

/-- The controls a registration model learns have the right shape. -/
theorem fits_like : ∀ {m : DefModule d} {a : ℝ} {c : Ctrl d}, m.controls.like a = .ok c → m.Fits c
  | .translations _, a, c, h => by rw [DefModule.controls, Ctrl.like] at h; cases h; rw [DefModule.Fits]; exact ⟨_, rfl⟩
  | .implicit0 _, a, c, h => by rw [DefModule.controls, Ctrl.like] at h; cases h; rw [DefModule.Fits]; exact ⟨_, rfl⟩
  | .oriented _, a, c, h => by rw [DefModule.controls, Ctrl.like] at h; cases h; rw [DefModule.Fits]; exact ⟨_, rfl⟩
  | .constrained _, a, c, h => by rw [DefModule.controls, Ctrl.like] at h; cases h; rw [DefModule.Fits]; exact ⟨_, rfl⟩
  | .globalTranslation _, a, c, h => by rw [DefModule.controls, Ctrl.like] at h; cases h; rw [DefModule.Fits]; exact ⟨_, rfl⟩
  | .linear _, a, c, h => by rw [DefModule.controls, Ctrl.like] at h; cases h; rw [DefModule.Fits]; exact ⟨_, rfl⟩
  | .implicit1 _, a, c, h => by rw [DefModule.controls, Ctrl.like] at h; cases h; rw [DefModule.Fits]; exact ⟨_, rfl⟩
  | .divFree _, a, c, h => by rw [DefModule.controls, Ctrl.like] at h; cases h; rw [DefModule.Fits]; exact ⟨_, rfl⟩
  | .arap _, a, c, h => by rw [DefModule.controls, Ctrl.like] at h; cases h; rw [DefModule.Fits]; exact ⟨_, rfl⟩
  | .silent _, a, c, h => by rw [DefModule.Fits]; trivial
  | .compound _, a, c, h => by rw [DefModule.controls, Ctrl.like] at h; cases h

/-! Two coincident points displaced by translations and turned by a linear deformation, without momenta. -/
example (p : Vec 2) (σ : ℝ) (A : Mat 2) (s : Solver) (u v : Vec 2) (a : ℝ) : ∃ r, shootControls s 3 1
    (List.replicate 3 (.list [.vecs ![u, v], .scalar a])) (.compound [.translations ⟨.torch, ![p, p], 0, σ, 0⟩, .linear ⟨A, p, 0, 1, 0⟩]) = .ok r := by
  refine C69_controls _ ?_ ?_ ?_ s 3 one_ne_zero _ (Or.inl rfl) ?_
  · simp [DefModule.Settable, DefModule.AllSettable]
  · simp [PlainMembers, DefModule.manifolds, DefModule.manifold, Translations.manifold, Linear.manifold, Mfd.Plain, Mfd.hasShapeGd]
  · simp [numCoords_eq, DefModule.manifold, DefModule.manifolds, Translations.manifold, Linear.manifold, Mfd.size, Mfd.sizeAll]
  · intro c hc
    rw [List.eq_of_mem_replicate hc, DefModule.Fits]
    exact ⟨_, rfl, by simp [DefModule.FitsAll, DefModule.Fits]⟩

/-! Also where both points coincide. -/
example (p : Vec 2) : ∃ r, shootMoments .rk4 10 1 (.compound (pairModule p p)) = .ok r ∧ r.states.length = 11 :=
  C69_solver _ (pairModule_regular p p) (pairModule_plain p p) (by rw [pairModule_numCoords]; norm_num) .rk4 10 one_ne_zero

end
end Imodal
