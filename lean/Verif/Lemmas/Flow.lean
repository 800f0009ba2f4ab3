import Verif.Props.C26
import Verif.Lemmas.Regular
/-!
# What shooting computes, as the trajectory of a vector field
-/
set_option autoImplicit false
namespace Imodal
noncomputable section
variable {d : Nat}

/-! ## Trajectories of a right-hand side without state -/
section
variable {V V' : Type} [AddCommGroup V] [Module ℝ V] [AddCommGroup V'] [Module ℝ V']

/-- The values an ODE solver visits. -/
def orbit (s : Solver) (X : V → Py V) (t1 : ℝ) (it : Nat) (y : V) : Py (List V) := (odeint s (pureRhs X) t1 it y ()).1

/-- One step. -/
def stepOf (s : Solver) (X : V → Py V) (t t' : ℝ) (y : V) : Py V := (Solver.step (pureRhs X) t t' y s ()).1

theorem stepOf_euler (X : V → Py V) (t t' : ℝ) (y : V) :
    stepOf .euler X t t' y = (X y).map fun k => y + (t' - t) • k := by
  rw [stepOf, Solver.step, Prog.bind_run, pureRhs, Prog.lift_run]
  cases X y <;> rfl

theorem stepOf_midpoint (X : V → Py V) (t t' : ℝ) (y : V) :
    stepOf .midpoint X t t' y = (X y).bind fun k => (X (y + (0.5 * (t' - t)) • k)).map fun k' => y + (t' - t) • k' := by
  rw [stepOf, Solver.step, Prog.bind_run, pureRhs, Prog.lift_run]
  cases X y with
  | error e => rfl
  | ok k =>
    dsimp only [Except.bind]
    rw [Prog.bind_run, pureRhs, Prog.lift_run]
    cases X (y + (0.5 * (t' - t)) • k) <;> rfl

theorem stepOf_rk4 (X : V → Py V) (t t' : ℝ) (y : V) :
    stepOf .rk4 X t t' y = (X y).bind fun k₁ => (X (y + ((t' - t) * (1 / 3)) • k₁)).bind fun k₂ =>
      (X (y + (t' - t) • (k₂ - (1 / 3 : ℝ) • k₁))).bind fun k₃ => (X (y + (t' - t) • (k₁ - k₂ + k₃))).map fun k₄ =>
        y + ((t' - t) * 0.125) • (k₁ + (3 : ℝ) • (k₂ + k₃) + k₄) := by
  rw [stepOf, Solver.step, Prog.bind_run, pureRhs, Prog.lift_run]
  cases X y with
  | error e => rfl
  | ok k₁ =>
    dsimp only [Except.bind]
    rw [Prog.bind_run, pureRhs, Prog.lift_run]
    cases X (y + ((t' - t) * (1 / 3)) • k₁) with
    | error e => rfl
    | ok k₂ =>
      dsimp only [Except.bind]
      rw [Prog.bind_run, pureRhs, Prog.lift_run]
      cases X (y + (t' - t) • (k₂ - (1 / 3 : ℝ) • k₁)) with
      | error e => rfl
      | ok k₃ =>
        dsimp only [Except.bind]
        rw [Prog.bind_run, pureRhs, Prog.lift_run]
        cases X (y + (t' - t) • (k₁ - k₂ + k₃)) <;> rfl

/-- The values at the remaining grid points. -/
def orbitFrom (s : Solver) (X : V → Py V) (t1 : ℝ) (it : Nat) : Nat → Nat → V → Py (List V)
  | _, 0, y => .ok [y]
  | i, k + 1, y =>
    match stepOf s X (gridTime t1 it i) (gridTime t1 it (i + 1)) y with
    | .error e => .error e
    | .ok y' =>
      match orbitFrom s X t1 it (i + 1) k y' with
      | .error e => .error e
      | .ok l => .ok (y :: l)

theorem odeLoop_pure (s : Solver) (X : V → Py V) (t1 : ℝ) (it k : Nat) :
    ∀ i y, (odeLoop s (pureRhs X) t1 it i k y ()).1 = orbitFrom s X t1 it i k y := by
  induction k with
  | zero => intro i y; rfl
  | succ k ih =>
    intro i y
    rw [odeLoop, orbitFrom, Prog.bind_run]
    unfold stepOf
    cases h : Solver.step (pureRhs X) (gridTime t1 it i) (gridTime t1 it (i + 1)) y s () with
    | mk r w =>
      cases r with
      | error e => rfl
      | ok y' =>
        dsimp only
        rw [Prog.bind_run, ← ih]
        cases h' : odeLoop s (pureRhs X) t1 it (i + 1) k y' w with
        | mk r' w' => cases r' <;> rfl

open Classical in
theorem orbit_eq (s : Solver) (X : V → Py V) (t1 : ℝ) (it : Nat) (y : V) :
    orbit s X t1 it y = if it ≠ 0 ∧ t1 = 0 then .error .assertion else orbitFrom s X t1 it 0 it y := by
  unfold orbit odeint
  split
  · rfl
  · rw [odeLoop_pure]

/-- A right-hand side that never raises is integrated without exception. -/
theorem stepOf_total (s : Solver) {X : V → Py V} (h : ∀ y, ∃ k, X y = .ok k) (t t' : ℝ) (y : V) : ∃ y', stepOf s X t t' y = .ok y' := by
  cases s with
  | euler =>
    obtain ⟨k, hk⟩ := h y
    rw [stepOf_euler, hk]; exact ⟨_, rfl⟩
  | midpoint =>
    obtain ⟨k, hk⟩ := h y
    obtain ⟨k', hk'⟩ := h (y + (0.5 * (t' - t)) • k)
    rw [stepOf_midpoint, hk]
    dsimp only [Except.bind]
    rw [hk']; exact ⟨_, rfl⟩
  | rk4 =>
    obtain ⟨k₁, h₁⟩ := h y
    obtain ⟨k₂, h₂⟩ := h (y + ((t' - t) * (1 / 3)) • k₁)
    obtain ⟨k₃, h₃⟩ := h (y + (t' - t) • (k₂ - (1 / 3 : ℝ) • k₁))
    obtain ⟨k₄, h₄⟩ := h (y + (t' - t) • (k₁ - k₂ + k₃))
    rw [stepOf_rk4, h₁]
    dsimp only [Except.bind]
    rw [h₂]
    dsimp only
    rw [h₃]
    dsimp only
    rw [h₄]; exact ⟨_, rfl⟩

theorem orbitFrom_total (s : Solver) {X : V → Py V} (h : ∀ y, ∃ k, X y = .ok k) (t1 : ℝ) (it k : Nat) :
    ∀ i y, ∃ l, orbitFrom s X t1 it i k y = .ok l := by
  induction k with
  | zero => intro i y; exact ⟨_, rfl⟩
  | succ k ih =>
    intro i y
    obtain ⟨y', hy⟩ := stepOf_total s h (gridTime t1 it i) (gridTime t1 it (i + 1)) y
    obtain ⟨l, hl⟩ := ih (i + 1) y'
    rw [orbitFrom, hy]
    dsimp only
    rw [hl]
    exact ⟨_, rfl⟩

theorem orbit_total (s : Solver) {X : V → Py V} (h : ∀ y, ∃ k, X y = .ok k) {t1 : ℝ} (ht : t1 ≠ 0) (it : Nat) (y : V) :
    ∃ l, orbit s X t1 it y = .ok l := by
  rw [orbit_eq, if_neg fun h => ht h.2]
  exact orbitFrom_total s h t1 it it 0 y

/-- The consecutive values are one step apart. -/
theorem orbitFrom_steps {s : Solver} {X : V → Py V} {t1 : ℝ} {it k : Nat} :
    ∀ {i : Nat} {y : V} {l : List V}, orbitFrom s X t1 it i k y = .ok l →
      l.length = k + 1 ∧ l[0]? = some y ∧
      ∀ j < k, ∃ a b, l[j]? = some a ∧ l[j + 1]? = some b ∧
        stepOf s X (gridTime t1 it (i + j)) (gridTime t1 it (i + j + 1)) a = .ok b := by
  induction k with
  | zero =>
    intro i y l h
    cases h
    exact ⟨rfl, rfl, fun j hj => absurd hj (by omega)⟩
  | succ k ih =>
    intro i y l h
    rw [orbitFrom] at h
    cases h1 : stepOf s X (gridTime t1 it i) (gridTime t1 it (i + 1)) y with
    | error e => rw [h1] at h; cases h
    | ok y' =>
      rw [h1] at h
      dsimp only at h
      cases h2 : orbitFrom s X t1 it (i + 1) k y' with
      | error e => rw [h2] at h; cases h
      | ok r =>
        rw [h2] at h
        cases h
        obtain ⟨a, b, c⟩ := ih h2
        refine ⟨by simp [a], rfl, fun j hj => ?_⟩
        cases j with
        | zero => exact ⟨y, y', rfl, by simpa using b, h1⟩
        | succ j =>
          obtain ⟨u, v, e1, e2, e3⟩ := c j (by omega)
          refine ⟨u, v, by simpa using e1, by simpa using e2, ?_⟩
          rw [show i + (j + 1) = i + 1 + j by omega]; exact e3

theorem orbit_steps {s : Solver} {X : V → Py V} {t1 : ℝ} {it : Nat} {y : V} {l : List V} (h : orbit s X t1 it y = .ok l) :
    l.length = it + 1 ∧ l[0]? = some y ∧
      ∀ j < it, ∃ a b, l[j]? = some a ∧ l[j + 1]? = some b ∧ stepOf s X (gridTime t1 it j) (gridTime t1 it (j + 1)) a = .ok b := by
  rw [orbit_eq] at h
  split at h
  · cases h
  · have := orbitFrom_steps h
    simpa using this

/-! ## Invariants -/

/-- The right-hand side maps the states `A` into the directions `W`, and moving along `W` does not
leave `A`. -/
structure Tangent (X : V → Py V) (A : Set V) (W : Submodule ℝ V) : Prop where
  add : ∀ y ∈ A, ∀ w ∈ W, y + w ∈ A
  dir : ∀ y ∈ A, ∀ k, X y = .ok k → k ∈ W

theorem Tangent.step {X : V → Py V} {A : Set V} {W : Submodule ℝ V} (h : Tangent X A W) {s : Solver} {t t' : ℝ} {y y' : V} (hy : y ∈ A)
    (hs : stepOf s X t t' y = .ok y') : ∃ w ∈ W, y' = y + w := by
  cases s with
  | euler =>
    rw [stepOf_euler] at hs
    cases h1 : X y with
    | error e => rw [h1] at hs; cases hs
    | ok k => rw [h1] at hs; cases hs; exact ⟨_, W.smul_mem _ (h.dir y hy k h1), rfl⟩
  | midpoint =>
    rw [stepOf_midpoint] at hs
    cases h1 : X y with
    | error e => rw [h1] at hs; cases hs
    | ok k =>
      rw [h1] at hs
      dsimp only [Except.bind] at hs
      have m1 := h.dir y hy k h1
      have hy2 := h.add y hy _ (W.smul_mem (0.5 * (t' - t)) m1)
      cases h2 : X (y + (0.5 * (t' - t)) • k) with
      | error e => rw [h2] at hs; cases hs
      | ok k' => rw [h2] at hs; cases hs; exact ⟨_, W.smul_mem _ (h.dir _ hy2 k' h2), rfl⟩
  | rk4 =>
    rw [stepOf_rk4] at hs
    cases h1 : X y with
    | error e => rw [h1] at hs; cases hs
    | ok k₁ =>
      rw [h1] at hs
      dsimp only [Except.bind] at hs
      have m1 := h.dir y hy k₁ h1
      have hy2 := h.add y hy _ (W.smul_mem ((t' - t) * (1 / 3)) m1)
      cases h2 : X (y + ((t' - t) * (1 / 3)) • k₁) with
      | error e => rw [h2] at hs; cases hs
      | ok k₂ =>
        rw [h2] at hs
        dsimp only at hs
        have m2 := h.dir _ hy2 k₂ h2
        have hy3 := h.add y hy _ (W.smul_mem (t' - t) (W.sub_mem m2 (W.smul_mem (1 / 3 : ℝ) m1)))
        cases h3 : X (y + (t' - t) • (k₂ - (1 / 3 : ℝ) • k₁)) with
        | error e => rw [h3] at hs; cases hs
        | ok k₃ =>
          rw [h3] at hs
          dsimp only at hs
          have m3 := h.dir _ hy3 k₃ h3
          have hy4 := h.add y hy _ (W.smul_mem (t' - t) (W.add_mem (W.sub_mem m1 m2) m3))
          cases h4 : X (y + (t' - t) • (k₁ - k₂ + k₃)) with
          | error e => rw [h4] at hs; cases hs
          | ok k₄ =>
            rw [h4] at hs
            cases hs
            exact ⟨_, W.smul_mem _ (W.add_mem (W.add_mem m1 (W.smul_mem _ (W.add_mem m2 m3))) (h.dir _ hy4 k₄ h4)), rfl⟩

/-- Every value on the trajectory differs from the first by a direction of `W`. -/
theorem Tangent.orbitFrom {X : V → Py V} {A : Set V} {W : Submodule ℝ V} (h : Tangent X A W) {s : Solver} {t1 : ℝ} {it k : Nat} :
    ∀ {i : Nat} {y : V} {l : List V}, y ∈ A → orbitFrom s X t1 it i k y = .ok l → ∀ x ∈ l, ∃ w ∈ W, x = y + w := by
  induction k with
  | zero =>
    intro i y l _ hl x hx
    cases hl
    rw [List.mem_singleton] at hx
    exact ⟨0, W.zero_mem, by rw [hx, add_zero]⟩
  | succ k ih =>
    intro i y l hy hl x hx
    rw [Imodal.orbitFrom] at hl
    cases h1 : stepOf s X (gridTime t1 it i) (gridTime t1 it (i + 1)) y with
    | error e => rw [h1] at hl; cases hl
    | ok y' =>
      rw [h1] at hl
      dsimp only at hl
      cases h2 : Imodal.orbitFrom s X t1 it (i + 1) k y' with
      | error e => rw [h2] at hl; cases hl
      | ok r =>
        rw [h2] at hl
        cases hl
        rcases List.mem_cons.1 hx with rfl | hx
        · exact ⟨0, W.zero_mem, (add_zero _).symm⟩
        · obtain ⟨w, hw, e⟩ := h.step hy h1
          obtain ⟨w', hw', e'⟩ := ih (e ▸ h.add y hy w hw) h2 x hx
          exact ⟨w + w', W.add_mem hw hw', by rw [e', e, add_assoc]⟩

theorem Tangent.orbit {X : V → Py V} {A : Set V} {W : Submodule ℝ V} (h : Tangent X A W) {s : Solver} {t1 : ℝ} {it : Nat}
    {y : V} {l : List V} (hy : y ∈ A) (hl : orbit s X t1 it y = .ok l) : ∀ x ∈ l, ∃ w ∈ W, x = y + w := by
  rw [orbit_eq] at hl
  split at hl
  · cases hl
  · exact h.orbitFrom hy hl

/-- Projecting the values of a right-hand side that factors through a linear map. -/
theorem Tangent.step_map {X : V → Py V} {A : Set V} {W : Submodule ℝ V} (h : Tangent X A W) {X' : V' → Py V'} (π : V →ₗ[ℝ] V')
    (hX : ∀ y ∈ A, (X y).map π = X' (π y)) (s : Solver) (t t' : ℝ) {y : V} (hy : y ∈ A) :
    (stepOf s X t t' y).map π = stepOf s X' t t' (π y) := by
  cases s with
  | euler =>
    rw [stepOf_euler, stepOf_euler, ← hX y hy]
    cases X y with
    | error e => rfl
    | ok k => simp [Except.map]
  | midpoint =>
    rw [stepOf_midpoint, stepOf_midpoint, ← hX y hy]
    cases h1 : X y with
    | error e => rfl
    | ok k =>
      have m1 := h.dir y hy k h1
      have := hX _ (h.add y hy _ (W.smul_mem (0.5 * (t' - t)) m1))
      simp only [Except.bind, Except.map, map_add, map_smul] at this ⊢
      rw [← this]
      cases X (y + (0.5 * (t' - t)) • k) with
      | error e => rfl
      | ok k => simp
  | rk4 =>
    rw [stepOf_rk4, stepOf_rk4, ← hX y hy]
    cases h1 : X y with
    | error e => rfl
    | ok k₁ =>
      have m1 := h.dir y hy k₁ h1
      have hy2 := h.add y hy _ (W.smul_mem ((t' - t) * (1 / 3)) m1)
      have e2 := hX _ hy2
      simp only [Except.bind, Except.map, map_add, map_smul] at e2 ⊢
      rw [← e2]
      cases h2 : X (y + ((t' - t) * (1 / 3)) • k₁) with
      | error e => rfl
      | ok k₂ =>
        have m2 := h.dir _ hy2 k₂ h2
        have hy3 := h.add y hy _ (W.smul_mem (t' - t) (W.sub_mem m2 (W.smul_mem (1 / 3 : ℝ) m1)))
        have e3 := hX _ hy3
        simp only [Except.map, map_add, map_sub, map_smul] at e3 ⊢
        rw [← e3]
        cases h3 : X (y + (t' - t) • (k₂ - (1 / 3 : ℝ) • k₁)) with
        | error e => rfl
        | ok k₃ =>
          have m3 := h.dir _ hy3 k₃ h3
          have e4 := hX _ (h.add y hy _ (W.smul_mem (t' - t) (W.add_mem (W.sub_mem m1 m2) m3)))
          simp only [Except.map, map_add, map_sub, map_smul] at e4 ⊢
          rw [← e4]
          cases X (y + (t' - t) • (k₁ - k₂ + k₃)) with
          | error e => rfl
          | ok k₄ => simp

theorem Tangent.orbitFrom_map {X : V → Py V} {A : Set V} {W : Submodule ℝ V} (h : Tangent X A W) {X' : V' → Py V'} (π : V →ₗ[ℝ] V')
    (hX : ∀ y ∈ A, (X y).map π = X' (π y)) (s : Solver) (t1 : ℝ) (it k : Nat) :
    ∀ {i : Nat} {y : V}, y ∈ A → (Imodal.orbitFrom s X t1 it i k y).map (List.map π) = Imodal.orbitFrom s X' t1 it i k (π y) := by
  induction k with
  | zero => intro i y _; rfl
  | succ k ih =>
    intro i y hy
    rw [Imodal.orbitFrom, Imodal.orbitFrom, ← h.step_map π hX s _ _ hy]
    cases h1 : stepOf s X (gridTime t1 it i) (gridTime t1 it (i + 1)) y with
    | error e => rfl
    | ok y' =>
      obtain ⟨w, hw, e⟩ := h.step hy h1
      have := ih (i := i + 1) (e ▸ h.add y hy w hw : y' ∈ A)
      dsimp only [Except.map] at this ⊢
      rw [← this]
      cases Imodal.orbitFrom s X t1 it (i + 1) k y' <;> rfl

theorem Tangent.orbit_map {X : V → Py V} {A : Set V} {W : Submodule ℝ V} (h : Tangent X A W) {X' : V' → Py V'} (π : V →ₗ[ℝ] V')
    (hX : ∀ y ∈ A, (X y).map π = X' (π y)) (s : Solver) (t1 : ℝ) (it : Nat) {y : V} (hy : y ∈ A) :
    (Imodal.orbit s X t1 it y).map (List.map π) = Imodal.orbit s X' t1 it (π y) := by
  rw [orbit_eq, orbit_eq]
  split
  · rfl
  · exact h.orbitFrom_map π hX s t1 it it hy
end

/-! ## Shooting -/

/-- Shooting follows the trajectory of the Hamiltonian system. -/
theorem shoot_cases {ms : List (DefModule d)} (hp : PlainMembers ms) (hn : 0 < numCoords (.compound ms)) (s : Solver) (it : Nat) (t1 : ℝ) :
    match orbit s (rhs (.compound ms)) t1 it (gdRow (.compound ms), cotRow (.compound ms)) with
    | .error e => shootMoments s it t1 (.compound ms) = .error e
    | .ok xs => ∃ g, odeint s (forwardMoments t1 it) t1 it (gdRow (.compound ms), cotRow (.compound ms)) (GradObj.init (.compound ms)) = (.ok xs, g)
        ∧ Inv ms g ∧ shootMoments s it t1 (.compound ms)
          = .ok ⟨rowsMod g.module (xs.getLastD (gdRow (.compound ms), cotRow (.compound ms))), g.costs,
              xs.map (fun x => (rowsMod (.compound ms) x).manifold), g.ctrls⟩ := by
  obtain ⟨h1, h2⟩ := sim_odeint (sim_forward ms t1 it) t1 it s (gdRow (.compound ms), cotRow (.compound ms)) _ () (inv_init hp)
  unfold orbit
  rw [← h1, shootMoments, initRows_ok hn]
  dsimp only
  cases h : odeint s (forwardMoments t1 it) t1 it (gdRow (.compound ms), cotRow (.compound ms)) (GradObj.init (.compound ms)) with
  | mk r g =>
    rw [h] at h2
    cases r with
    | error e => rfl
    | ok xs =>
      dsimp only
      refine ⟨g, rfl, h2, ?_⟩
      obtain ⟨ms', e2, hp', hs'⟩ := h2
      dsimp only at e2
      generalize hy : xs.getLastD (gdRow (.compound ms), cotRow (.compound ms)) = yl
      have hread := readBoth_eq hp' yl
      unfold readBoth at hread
      rw [readGd_eq hp'] at hread
      dsimp only at hread
      rw [e2, readGd_eq hp']
      dsimp only
      rw [hread]
      dsimp only
      have hmem : (rowsMod (DefModule.compound ms') yl).members = DefModule.withCotAll yl.2 0 (DefModule.withGdAll yl.1 0 ms') := by
        rw [rowsMod_compound, DefModule.members]
      have hpl : PlainMembers (rowsMod (DefModule.compound ms') yl).members := by
        rw [hmem]; exact plainMembers_withCot _ _ (plainMembers_withGd _ _ hp')
      have hsame : Same (.compound (rowsMod (DefModule.compound ms') yl).members) (.compound ms) := by
        rw [hmem, ← rowsMod_compound]; exact (same_rowsMod _ _).trans hs'
      rw [show ((DefModule.compound ms').withGd yl.1 0).withCot yl.2 0 = rowsMod (.compound ms') yl from rfl,
        collectList_ok (fun y => readState_eq hpl hsame y)]

/-- The states and the last module of a shooting that returned. -/
theorem shoot_ok {ms : List (DefModule d)} (hp : PlainMembers ms) (hn : 0 < numCoords (.compound ms)) {s : Solver} {it : Nat} {t1 : ℝ}
    {r : Shot d} (h : shootMoments s it t1 (.compound ms) = .ok r) :
    ∃ xs, orbit s (rhs (.compound ms)) t1 it (gdRow (.compound ms), cotRow (.compound ms)) = .ok xs
      ∧ r.states = xs.map (fun x => (rowsMod (.compound ms) x).manifold)
      ∧ r.module.reset = (rowsMod (.compound ms) (xs.getLastD (gdRow (.compound ms), cotRow (.compound ms)))).reset
      ∧ ∃ g, odeint s (forwardMoments t1 it) t1 it (gdRow (.compound ms), cotRow (.compound ms)) (GradObj.init (.compound ms)) = (.ok xs, g)
        ∧ r.costs = g.costs ∧ r.ctrls = g.ctrls := by
  have := shoot_cases hp hn s it t1
  cases ho : orbit s (rhs (.compound ms)) t1 it (gdRow (.compound ms), cotRow (.compound ms)) with
  | error e => rw [ho] at this; rw [this] at h; cases h
  | ok xs =>
    rw [ho] at this
    obtain ⟨g, h1, ⟨ms', e, -, hs⟩, h3⟩ := this
    rw [h3] at h
    cases h
    exact ⟨xs, rfl, rfl, by dsimp only; rw [e]; exact hs _, g, h1, rfl, rfl⟩

/-- Shooting that returns was given modules the state vector can be built from and read into. -/
theorem shoot_plain {ms : List (DefModule d)} {s : Solver} {it : Nat} {t1 : ℝ} {r : Shot d}
    (h : shootMoments s it t1 (.compound ms) = .ok r) : PlainMembers ms ∧ 0 < numCoords (.compound ms) := by
  have hn : 0 < numCoords (.compound ms) := by
    by_contra h0
    rw [shootMoments, C07_no_coordinates _ (by omega)] at h
    cases h
  refine ⟨?_, hn⟩
  by_contra hp
  have hr : ∀ x, readGd (.compound ms) x = .error .attribute := fun x => by
    rw [readGd, DefModule.members, sliceAll_not_plain x _ 0 (by simpa [PlainMembers] using hp)]
  have hf : ∀ t x, forwardMoments t1 it t x (GradObj.init (.compound ms)) = (.error .attribute, GradObj.init (.compound ms)) := fun t x => by
    unfold forwardMoments
    simp only [Prog.bind_run, Prog.get_run, Prog.lift_run, GradObj.init, hr]
  rw [shootMoments, initRows_ok hn] at h
  dsimp only at h
  cases it with
  | zero =>
    have : odeint s (forwardMoments t1 0) t1 0 (gdRow (.compound ms), cotRow (.compound ms)) (GradObj.init (.compound ms))
        = (.ok [(gdRow (.compound ms), cotRow (.compound ms))], GradObj.init (.compound ms)) := by
      unfold odeint
      rw [if_neg (fun h => h.1 rfl)]
      rfl
    rw [this] at h
    dsimp only at h
    rw [GradObj.init, hr] at h
    cases h
  | succ k =>
    unfold odeint at h
    split at h
    · next heq =>
      cases h
    · next xs g heq =>
      split at heq
      · cases heq
      · rw [odeLoop, Prog.bind_run] at heq
        cases s <;> · rw [Solver.step, Prog.bind_run, hf] at heq; cases heq

theorem rhs_total {m : DefModule d} (h : m.Regular) (x : Row × Row) : ∃ k, rhs m x = .ok k := by
  obtain ⟨m', hm⟩ := regular_evalAt h x
  rw [rhs, hm]
  exact ⟨_, rfl⟩

end
end Imodal
