import Verif.Lemmas.Shoot
import Verif.Lemmas.Regular
/-!
# C26: explicit Euler shooting

`hamFn prepare m q p` is the value of the Hamiltonian of `m` after its descriptors and momenta
are replaced by the entries `q`, `p` and its controls are set by `prepare`.
-/
set_option autoImplicit false
namespace Imodal
noncomputable section
variable {d : Nat}

theorem cut_of_le {n : Nat} {x : Row} {j : Nat} (h : n ≤ j) : cut n x j = 0 := by simp [cut, h]
theorem cut_of_lt {n : Nat} {x : Row} {j : Nat} (h : j < n) : cut n x j = x j := by simp [cut, h]
theorem cut_eq_self {n : Nat} {x : Row} (h : ∀ j, n ≤ j → x j = 0) : cut n x = x := by
  funext j
  by_cases hj : j < n
  · exact cut_of_lt hj
  · rw [cut_of_le (by omega), h j (by omega)]

theorem gdRow_of_le (m : DefModule d) {j : Nat} (h : numCoords m ≤ j) : gdRow m j = 0 := by
  have h' : m.manifold.unrollGd.flatten.length ≤ j := h
  simp only [gdRow, rowOf, List.getD, List.getElem?_eq_none h', Option.getD_none]
theorem cotRow_of_le (m : DefModule d) {j : Nat} (h : numCoords m ≤ j) : cotRow m j = 0 := by
  have h' : m.manifold.unrollCot.flatten.length ≤ j := by rw [Mfd.length_unrollCot, ← numCoords_eq]; exact h
  simp only [cotRow, rowOf, List.getD, List.getElem?_eq_none h', Option.getD_none]

/-- `∂H/∂p_j` at the current state, the controls set by `prepare`. -/
def dHdp (prepare : DefModule d → Py (DefModule d)) (m : DefModule d) (j : Nat) : ℝ :=
  deriv (fun s => valD (hamFn prepare m (gdRow m) (Function.update (cotRow m) j s))) (cotRow m j)
/-- `∂H/∂q_j` at the current state, the controls set by `prepare`. -/
def dHdq (prepare : DefModule d → Py (DefModule d)) (m : DefModule d) (j : Nat) : ℝ :=
  deriv (fun s => valD (hamFn prepare m (Function.update (gdRow m) j s) (cotRow m))) (gdRow m j)

theorem eulerStep_ok {step : ℝ} {controls : Option (List (Ctrl d))} {i : Nat} {m m' : DefModule d}
    (h : eulerStep step controls i m = .ok m') :
    ∃ m1 v, setControls controls i m = .ok m1 ∧ Hamiltonian.value m1 = .ok v ∧
      m' = rowsMod m1 (gdRow m + step • (gradH (setControls controls i) m).2,
        cotRow m + -step • (gradH (setControls controls i) m).1) := by
  unfold eulerStep at h
  cases h1 : setControls controls i m with
  | error e => rw [h1] at h; cases h
  | ok m1 =>
    rw [h1] at h
    dsimp only at h
    cases h2 : Hamiltonian.value m1 with
    | error e => rw [h2] at h; cases h
    | ok v =>
      rw [h2] at h
      dsimp only at h
      rw [withRows_eq] at h
      exact ⟨m1, v, rfl, h2, (Except.ok.inj h).symm⟩

mutual
theorem controls_withGd (x : Row) : (m : DefModule d) → (off : Nat) → (m.withGd x off).controls = m.controls
  | .translations m, _ => by rw [DefModule.withGd, DefModule.controls, DefModule.controls]
  | .implicit0 m, _ => by rw [DefModule.withGd, DefModule.controls, DefModule.controls]
  | .oriented m, _ => by rw [DefModule.withGd, DefModule.controls, DefModule.controls]
  | .constrained m, _ => by rw [DefModule.withGd, DefModule.controls, DefModule.controls]
  | .globalTranslation m, _ => by rw [DefModule.withGd]
  | .linear m, _ => by rw [DefModule.withGd, DefModule.controls, DefModule.controls]
  | .implicit1 m, _ => by rw [DefModule.withGd, DefModule.controls, DefModule.controls]
  | .divFree m, _ => by rw [DefModule.withGd, DefModule.controls, DefModule.controls]
  | .arap m, _ => by rw [DefModule.withGd, DefModule.controls, DefModule.controls]
  | .silent m, _ => by rw [DefModule.withGd, DefModule.controls, DefModule.controls]
  | .compound ms, off => by rw [DefModule.withGd, DefModule.controls, DefModule.controls, controlsAll_withGd x ms off]
theorem controlsAll_withGd (x : Row) : (ms : List (DefModule d)) → (off : Nat) →
    DefModule.controlsAll (DefModule.withGdAll x off ms) = DefModule.controlsAll ms
  | [], _ => by rw [DefModule.withGdAll]
  | m :: ms, off => by
    rw [DefModule.withGdAll, DefModule.controlsAll, DefModule.controlsAll, controls_withGd x m, controlsAll_withGd x ms]
end

mutual
theorem controls_withCot (x : Row) : (m : DefModule d) → (off : Nat) → (m.withCot x off).controls = m.controls
  | .translations m, _ => by rw [DefModule.withCot, DefModule.controls, DefModule.controls]
  | .implicit0 m, _ => by rw [DefModule.withCot, DefModule.controls, DefModule.controls]
  | .oriented m, _ => by rw [DefModule.withCot, DefModule.controls, DefModule.controls]
  | .constrained m, _ => by rw [DefModule.withCot, DefModule.controls, DefModule.controls]
  | .globalTranslation m, _ => by rw [DefModule.withCot]
  | .linear m, _ => by rw [DefModule.withCot, DefModule.controls, DefModule.controls]
  | .implicit1 m, _ => by rw [DefModule.withCot, DefModule.controls, DefModule.controls]
  | .divFree m, _ => by rw [DefModule.withCot, DefModule.controls, DefModule.controls]
  | .arap m, _ => by rw [DefModule.withCot, DefModule.controls, DefModule.controls]
  | .silent m, _ => by rw [DefModule.withCot, DefModule.controls, DefModule.controls]
  | .compound ms, off => by rw [DefModule.withCot, DefModule.controls, DefModule.controls, controlsAll_withCot x ms off]
theorem controlsAll_withCot (x : Row) : (ms : List (DefModule d)) → (off : Nat) →
    DefModule.controlsAll (DefModule.withCotAll x off ms) = DefModule.controlsAll ms
  | [], _ => by rw [DefModule.withCotAll]
  | m :: ms, off => by
    rw [DefModule.withCotAll, DefModule.controlsAll, DefModule.controlsAll, controls_withCot x m, controlsAll_withCot x ms]
end

theorem controls_rowsMod (m : DefModule d) (x : Row × Row) : (rowsMod m x).controls = m.controls := by
  unfold rowsMod
  rw [controls_withCot, controls_withGd]

/-- What one Euler step of size `step` from `m` to `m'` is: the modules stay the same but for
descriptors, momenta and controls, the new controls are set from the old state, and every
coordinate moves along the derivatives at the old state. -/
def IsEulerStep (step : ℝ) (controls : Option (List (Ctrl d))) (i : Nat) (m m' : DefModule d) : Prop :=
  numCoords m' = numCoords m ∧
  (∃ m1, setControls controls i m = .ok m1 ∧ m'.controls = m1.controls) ∧
  (∀ j < numCoords m, gdRow m' j = gdRow m j + step * dHdp (setControls controls i) m j) ∧
  (∀ j < numCoords m, cotRow m' j = cotRow m j - step * dHdq (setControls controls i) m j)

theorem eulerStep_is {step : ℝ} {controls : Option (List (Ctrl d))} {i : Nat} {m m' : DefModule d}
    (h : eulerStep step controls i m = .ok m') : IsEulerStep step controls i m m' := by
  obtain ⟨m1, v, h1, -, rfl⟩ := eulerStep_ok h
  have hn : numCoords m1 = numCoords m := numCoords_of_reset (setControls_reset h1)
  refine ⟨by rw [numCoords_rowsMod, hn], ⟨m1, h1, by rw [controls_rowsMod]⟩, fun j hj => ?_, fun j hj => ?_⟩
  · rw [gdRow_rowsMod, hn, cut_of_lt hj]
    simp only [gradH, Pi.add_apply, Pi.smul_apply, smul_eq_mul, cut_of_lt hj]
    rfl
  · rw [cotRow_rowsMod, hn, cut_of_lt hj]
    simp only [gradH, Pi.add_apply, Pi.smul_apply, smul_eq_mul, cut_of_lt hj, neg_mul, ← sub_eq_add_neg]
    rfl

theorem eulerLoop_path {step : ℝ} {controls : Option (List (Ctrl d))} {k : Nat} :
    ∀ {i : Nat} {m : DefModule d} {r : Shot d}, eulerLoop step controls i k m = .ok r →
      r.states.length = k + 1 ∧ r.ctrls.length = k ∧ ∃ M : Nat → DefModule d, M 0 = m ∧ M k = r.module ∧
        (∀ j ≤ k, r.states[j]? = some (M j).manifold) ∧
        ∀ j < k, IsEulerStep step controls (i + j) (M j) (M (j + 1)) ∧ r.ctrls[j]? = some (M (j + 1)).controls := by
  induction k with
  | zero =>
    intro i m r h
    rw [eulerLoop] at h
    rw [← Except.ok.inj h]
    refine ⟨rfl, rfl, fun _ => m, rfl, rfl, fun j hj => ?_, fun j hj => absurd hj (by omega)⟩
    obtain rfl : j = 0 := by omega
    rfl
  | succ k ih =>
    intro i m r h
    rw [eulerLoop] at h
    cases h1 : eulerStep step controls i m with
    | error e => rw [h1] at h; cases h
    | ok m' =>
      rw [h1] at h
      dsimp only at h
      cases h2 : eulerLoop step controls (i + 1) k m' with
      | error e => rw [h2] at h; cases h
      | ok r' =>
        rw [h2] at h
        rw [← Except.ok.inj h]
        obtain ⟨l1, l2, M, e0, e1, e2, e3⟩ := ih h2
        refine ⟨by simp [l1], by simp [l2], fun j => match j with | 0 => m | j + 1 => M j, rfl, e1, ?_, ?_⟩
        · intro j hj
          cases j with
          | zero => rfl
          | succ j => simpa using e2 j (by omega)
        · intro j hj
          cases j with
          | zero => exact ⟨by simpa [e0] using eulerStep_is h1, by simp [e0]⟩
          | succ j =>
            obtain ⟨a, b⟩ := e3 j (by omega)
            exact ⟨by rw [show i + (j + 1) = i + 1 + j by omega]; exact a, by simpa using b⟩

/-- **C26.** Whenever `torch_euler` shooting returns, with geodesic or with given controls, it made
exactly `it` Euler steps of size `1/it`, recorded the `it + 1` states it went through and the `it`
controls it used, and left the last state. -/
theorem C26_steps {it : Nat} {controls : Option (List (Ctrl d))} {m : DefModule d} {r : Shot d}
    (h : shootEuler it controls m = .ok r) :
    it ≠ 0 ∧ r.states.length = it + 1 ∧ r.ctrls.length = it ∧ ∃ M : Nat → DefModule d, M 0 = m ∧ M it = r.module ∧
      (∀ i ≤ it, r.states[i]? = some (M i).manifold) ∧
      ∀ i < it, IsEulerStep (1 / it) controls i (M i) (M (i + 1)) ∧ r.ctrls[i]? = some (M (i + 1)).controls := by
  unfold shootEuler at h
  split at h
  · cases h
  · next hit =>
    obtain ⟨a, b, M, e0, e1, e2, e3⟩ := eulerLoop_path h
    exact ⟨hit, a, b, M, e0, e1, e2, fun j hj => by simpa using e3 j hj⟩

/-! ## Agreement with the ODE solver -/

theorem gradH_of_le {prepare : DefModule d → Py (DefModule d)} {m : DefModule d} {j : Nat} (h : numCoords m ≤ j) :
    (gradH prepare m).1 j = 0 ∧ (gradH prepare m).2 j = 0 := by
  unfold gradH
  exact ⟨cut_of_le h, cut_of_le h⟩

theorem euler_loop_agree (ms : List (DefModule d)) (it : Nat) (hit : it ≠ 0) (k : Nat) :
    ∀ (i : Nat) (m : DefModule d) (g : GradObj d), Inv ms g → rowsMod g.module (gdRow m, cotRow m) = m →
      match eulerLoop (1 / it) none i k m with
      | .error e => (odeLoop .euler (forwardMoments 1 it) 1 it i k (gdRow m, cotRow m) g).1 = .error e
      | .ok r => ∃ ys g', odeLoop .euler (forwardMoments 1 it) 1 it i k (gdRow m, cotRow m) g = (.ok ys, g') ∧
          Inv ms g' ∧ g'.ctrls = g.ctrls ++ r.ctrls ∧ (∀ y₀, rowsMod g'.module (ys.getLastD y₀) = r.module) ∧
          r.states = ys.map fun y => (rowsMod (.compound ms) y).manifold := by
  induction k with
  | zero =>
    intro i m g hI hm
    rw [eulerLoop]
    dsimp only
    refine ⟨[(gdRow m, cotRow m)], g, rfl, hI, by simp, fun _ => hm, ?_⟩
    obtain ⟨ms', e, -, hs⟩ := hI
    have := manifold_of_reset (hs (gdRow m, cotRow m))
    rw [← e, hm] at this
    simp [this]
  | succ k ih =>
    intro i m g hI hm
    have hstep : gridTime 1 it (i + 1) - gridTime 1 it i = 1 / it := by
      unfold gridTime
      have : (it : ℝ) ≠ 0 := Nat.cast_ne_zero.mpr hit
      field_simp
      push_cast
      ring
    have hs : Same m (.compound ms) := by
      obtain ⟨ms', e, -, hs⟩ := hI
      rw [← hm, e]; exact (same_rowsMod _ _).trans hs
    have hre : rowsMod m (gdRow m, cotRow m) = m := rowsMod_self m
    rw [eulerLoop, odeLoop]
    have hrun := forward_run hI 1 it (gridTime 1 it i) (gdRow m, cotRow m)
    rw [← evalAt_same hs, ← hamVec_same hs] at hrun
    have hev : evalAt m (gdRow m, cotRow m) = match setControls none i m with
        | .error e => .error e
        | .ok m1 => match Hamiltonian.value m1 with
          | .error e => .error e
          | .ok _ => .ok m1 := by
      unfold evalAt setControls; rw [hre]
      cases Hamiltonian.geodesicControls m <;> rfl
    unfold eulerStep
    cases h1 : setControls none i m with
    | error e =>
      rw [hev, h1] at hrun
      dsimp only at hrun ⊢
      simp only [Prog.bind_run, Solver.step, hrun]
    | ok m1 =>
      rw [hev, h1] at hrun
      dsimp only at hrun ⊢
      cases h2 : Hamiltonian.value m1 with
      | error e =>
        rw [h2] at hrun
        dsimp only at hrun ⊢
        simp only [Prog.bind_run, Solver.step, hrun]
      | ok v =>
        rw [h2] at hrun
        dsimp only at hrun ⊢
        have hr1 : m1.reset = m.reset := setControls_reset h1
        have hn : numCoords m1 = numCoords m := numCoords_of_reset hr1
        rw [withRows_eq]
        generalize hy : (gdRow m + (1 / (it : ℝ)) • (gradH (setControls none i) m).2,
          cotRow m + -(1 / (it : ℝ)) • (gradH (setControls none i) m).1) = y'
        have hy1 : gdRow m + (1 / (it : ℝ)) • (gradH (setControls none i) m).2 = y'.1 := by rw [← hy]
        have hy2 : cotRow m + -(1 / (it : ℝ)) • (gradH (setControls none i) m).1 = y'.2 := by rw [← hy]
        rw [hy1, hy2, show (m1.withGd y'.1 0).withCot y'.2 0 = rowsMod m1 y' from rfl]
        have hstep' : (gdRow m, cotRow m) + (gridTime 1 it (i + 1) - gridTime 1 it i) • hamVec m (gdRow m, cotRow m) = y' := by
          rw [hstep, ← hy]
          unfold hamVec
          rw [hre, Prod.smul_mk, Prod.mk_add_mk, smul_neg, ← neg_smul]
          rfl
        have hrows : (gdRow (rowsMod m1 y'), cotRow (rowsMod m1 y')) = y' := by
          rw [gdRow_rowsMod, cotRow_rowsMod, hn]
          refine Prod.ext (cut_eq_self fun j hj => ?_) (cut_eq_self fun j hj => ?_)
          · rw [← hy1, Pi.add_apply, Pi.smul_apply, gdRow_of_le m hj, (gradH_of_le hj).2, smul_zero, add_zero]
          · rw [← hy2, Pi.add_apply, Pi.smul_apply, cotRow_of_le m hj, (gradH_of_le hj).1, smul_zero, add_zero]
        have hI' : Inv ms (g.after 1 it (gridTime 1 it i) m1) :=
          inv_after hI (x := (gdRow m, cotRow m)) (by rw [← evalAt_same hs, hev, h1]; dsimp only; rw [h2]) ..
        have hrec := ih (i + 1) (rowsMod m1 y') _ hI'
          (by rw [hrows]; rfl)
        rw [hrows] at hrec
        have hst : Solver.step (forwardMoments 1 it) (gridTime 1 it i) (gridTime 1 it (i + 1)) (gdRow m, cotRow m) .euler g
            = (.ok y', g.after 1 it (gridTime 1 it i) m1) := by
          simp only [Solver.step, Prog.bind_run, hrun, Prog.pure_run, hstep']
        dsimp only
        cases h3 : eulerLoop (1 / it) none (i + 1) k (rowsMod m1 y') with
        | error e =>
          rw [h3] at hrec
          dsimp only at hrec ⊢
          rw [Prog.bind_run, hst]
          dsimp only
          rw [Prog.bind_run]
          cases h4 : odeLoop Solver.euler (forwardMoments 1 it) 1 it (i + 1) k y' (g.after 1 it (gridTime 1 it i) m1) with
          | mk a b => rw [h4] at hrec; dsimp only at hrec; subst hrec; exact rfl
        | ok r =>
          rw [h3] at hrec
          dsimp only at hrec ⊢
          obtain ⟨ys, g', e1, e2, e3, e4, e5⟩ := hrec
          refine ⟨(gdRow m, cotRow m) :: ys, g', ?_, e2, ?_, ?_, ?_⟩
          · rw [Prog.bind_run, hst]
            dsimp only
            rw [Prog.bind_run, e1]
            rfl
          · rw [e3, controls_rowsMod]
            simp [GradObj.after]
          · intro y₀
            rw [List.getLastD_cons]; exact e4 _
          · rw [e5, List.map_cons, ← manifold_of_reset (hs _), hre]

theorem collectList_ok {α β : Type} {f : α → Py β} {h : α → β} (hf : ∀ a, f a = .ok (h a)) (l : List α) :
    collectList f l = .ok (l.map h) := by
  induction l with
  | nil => rfl
  | cons a l ih => rw [collectList, hf, ih]; rfl

theorem Mfd.lengths_withGd (x : Row) (m : Mfd d) : (m.withGd x 0).unrollGd.map List.length = m.unrollGd.map List.length := by
  rw [← Mfd.lengths_unrollCot, Mfd.unrollCot_withGd, Mfd.lengths_unrollCot]

theorem slices_same {m m' : DefModule d} (h : Same m m') (x : Row) :
    slicesAt x m.manifold.unrollGd 0 = slicesAt x m'.manifold.unrollGd 0 := by
  have := congrArg (fun m : Mfd d => m.unrollGd.map List.length) (manifold_of_reset (h (0, 0)))
  simp only [manifold_rowsMod, Mfd.unrollGd_withCot, Mfd.lengths_withGd] at this
  unfold slicesAt
  rw [this]

theorem readState_eq {ms ms' : List (DefModule d)} (hp : PlainMembers ms') (hs : Same (.compound ms') (.compound ms)) (x : Row × Row) :
    readState (DefModule.manifolds ms') (DefModule.compound ms).manifold x.1 (some x.2) = .ok (rowsMod (.compound ms) x).manifold := by
  have hsl : ∀ y : Row, sliceAll y (DefModule.manifolds ms') 0 = .ok (slicesAt y (DefModule.compound ms).manifold.unrollGd 0) := fun y => by
    rw [sliceAll_plain y _ 0 hp, ← slices_same hs, DefModule.manifold, Mfd.unrollGd]
  have h1 := Mfd.rollFillGd_slices x.1 (DefModule.compound ms).manifold 0 []
  rw [List.append_nil] at h1
  have h2 := Mfd.rollFillCot_slices x.2 ((DefModule.compound ms).manifold.withGd x.1 0) 0 []
  rw [List.append_nil] at h2
  have h3 : slicesAt x.2 ((DefModule.compound ms).manifold.withGd x.1 0).unrollGd 0
      = slicesAt x.2 (DefModule.compound ms).manifold.unrollGd 0 := by
    unfold slicesAt
    rw [Mfd.lengths_withGd]
  rw [h3] at h2
  rw [readState, hsl, manifold_rowsMod]
  dsimp only
  rw [h1]
  dsimp only
  rw [hsl]
  dsimp only
  rw [h2]

/-- Shooting with the method `euler` of the ODE solver on `[0, 1]` raises exactly when
`torch_euler` does, with the same exception, and otherwise leaves the same module and records the
same states and controls; for modules the solver path accepts at all (see C07). -/
theorem C26_agrees (ms : List (DefModule d)) (hp : PlainMembers ms) (hn : 0 < numCoords (.compound ms)) (it : Nat) (hit : it ≠ 0) :
    match shootEuler it none (.compound ms), shootMoments .euler it 1 (.compound ms) with
    | .ok r, .ok r' => r'.module = r.module ∧ r'.states = r.states ∧ r'.ctrls = r.ctrls
    | .error e, .error e' => e = e'
    | _, _ => False := by
  have key := euler_loop_agree ms it hit it 0 (.compound ms) _ (inv_init hp) (rowsMod_self _)
  have hode : odeint .euler (forwardMoments 1 it) 1 it (gdRow (.compound ms), cotRow (.compound ms)) (GradObj.init (.compound ms))
      = odeLoop .euler (forwardMoments 1 it) 1 it 0 it (gdRow (.compound ms), cotRow (.compound ms)) (GradObj.init (.compound ms)) := by
    unfold odeint
    rw [if_neg (fun h => one_ne_zero h.2)]
  rw [shootEuler, if_neg hit, shootMoments, initRows_ok hn]
  dsimp only
  rw [hode]
  cases h1 : eulerLoop (1 / it) none 0 it (.compound ms) with
  | error e =>
    rw [h1] at key
    dsimp only at key
    cases h2 : odeLoop Solver.euler (forwardMoments 1 it) 1 it 0 it (gdRow (.compound ms), cotRow (.compound ms)) (GradObj.init (.compound ms)) with
    | mk a g => rw [h2] at key; dsimp only at key; subst key; rfl
  | ok r =>
    rw [h1] at key
    dsimp only at key
    obtain ⟨ys, g', e1, ⟨ms', e2, hp', hs'⟩, e3, e4, e5⟩ := key
    rw [e1]
    dsimp only
    generalize hy : ys.getLastD (gdRow (.compound ms), cotRow (.compound ms)) = yl
    have hread := readBoth_eq hp' yl
    unfold readBoth at hread
    rw [readGd_eq hp'] at hread
    dsimp only at hread
    rw [e2, readGd_eq hp']
    dsimp only
    rw [hread]
    dsimp only
    have hlast : rowsMod (.compound ms') yl = r.module := by rw [← hy, ← e2]; exact e4 _
    have hmem : (rowsMod (DefModule.compound ms') yl).members = DefModule.withCotAll yl.2 0 (DefModule.withGdAll yl.1 0 ms') := by
      rw [rowsMod_compound, DefModule.members]
    have hpl : PlainMembers (rowsMod (DefModule.compound ms') yl).members := by
      rw [hmem]; exact plainMembers_withCot _ _ (plainMembers_withGd _ _ hp')
    have hsame : Same (.compound (rowsMod (DefModule.compound ms') yl).members) (.compound ms) := by
      rw [hmem, ← rowsMod_compound]; exact (same_rowsMod _ _).trans hs'
    rw [show ((DefModule.compound ms').withGd yl.1 0).withCot yl.2 0 = rowsMod (.compound ms') yl from rfl,
      collectList_ok (fun y => readState_eq hpl hsame y)]
    exact ⟨hlast, e5.symm, by rw [e3]; rfl⟩

/-- Without steps `torch_euler` divides by zero. -/
theorem C26_no_steps (controls : Option (List (Ctrl d))) (m : DefModule d) : shootEuler 0 controls m = .error .zeroDivision := rfl

/-! Shooting returns for every regularised module, so the hypothesis of `C26_steps` is met. -/

theorem euler_returns (m : DefModule d) (step : ℝ) (h : ∀ i m', Same m' m → ∃ m1 v, setControls none i m' = .ok m1 ∧ Hamiltonian.value m1 = .ok v)
    (k : Nat) : ∀ i m', Same m' m → ∃ r, eulerLoop step none i k m' = .ok r := by
  induction k with
  | zero => intro i m' _; exact ⟨_, rfl⟩
  | succ k ih =>
    intro i m' hm'
    obtain ⟨m1, v, h1, h2⟩ := h i m' hm'
    rw [eulerLoop, eulerStep, h1]
    dsimp only
    rw [h2]
    dsimp only
    rw [withRows_eq]
    dsimp only
    obtain ⟨r, hr⟩ := ih (i + 1) (rowsMod m1 (gdRow m' + step • (gradH (setControls none i) m').2,
      cotRow m' + -step • (gradH (setControls none i) m').1))
      ((same_rowsMod _ _).trans ((same_of_reset (setControls_reset h1)).trans hm'))
    exact ⟨_, by rw [show (m1.withGd _ 0).withCot _ 0 = rowsMod m1 (gdRow m' + step • (gradH (setControls none i) m').2,
      cotRow m' + -step • (gradH (setControls none i) m').1) from rfl, hr]⟩

theorem regular_of_same {m m' : DefModule d} (h : Same m' m) (hm : m.Regular) : m'.Regular := by
  rw [← rowsMod_self m', ← regular_reset, h, regular_reset]
  exact regular_rowsMod hm _

theorem regular_shootEuler {m : DefModule d} (h : m.Regular) {it : Nat} (hit : it ≠ 0) : ∃ r, shootEuler it none m = .ok r := by
  rw [shootEuler, if_neg hit]
  refine euler_returns m (1 / it) (fun i m' hs => ?_) it 0 m (Same.refl m)
  obtain ⟨m1, h1⟩ := regular_evalAt (regular_of_same hs h) (gdRow m', cotRow m')
  unfold evalAt at h1
  rw [rowsMod_self] at h1
  unfold setControls
  cases h2 : Hamiltonian.geodesicControls m' with
  | error e => rw [h2] at h1; cases h1
  | ok m2 =>
    rw [h2] at h1
    dsimp only at h1
    cases h3 : Hamiltonian.value m2 with
    | error e => rw [h3] at h1; cases h1
    | ok v => exact ⟨m2, v, rfl, h3⟩

/-- A plain module and a silent point in the plane. -/
def pairModule (p q : Vec 2) : List (DefModule 2) :=
  [.implicit0 (⟨.torch, fun _ => p, fun _ => fun c => if c = 0 then 1 else 0, 2, 1, 1, 0⟩ : Implicit0 2 1), .silent (.landmarks (fun _ : Fin 1 => q) 0)]

theorem pairModule_regular (p q : Vec 2) : (DefModule.compound (pairModule p q)).Regular := by
  simp [pairModule, DefModule.Regular, DefModule.AllRegular, Mfd.NoEmptyCompound, Mfd.NoDirections]

theorem pairModule_plain (p q : Vec 2) : PlainMembers (pairModule p q) := by
  intro m hm
  simp only [pairModule, DefModule.manifolds, DefModule.manifold, Implicit0.manifold, List.mem_cons, List.not_mem_nil, or_false] at hm
  rcases hm with rfl | rfl <;> exact Or.inr rfl

theorem pairModule_numCoords (p q : Vec 2) : numCoords (.compound (pairModule p q)) = 4 := by
  simp [numCoords_eq, pairModule, DefModule.manifold, DefModule.manifolds, Implicit0.manifold, Mfd.size, Mfd.sizeAll]

example (p q : Vec 2) : ∃ r, shootEuler 10 none (.compound (pairModule p q)) = .ok r := regular_shootEuler (pairModule_regular p q) (by norm_num)
example (p q : Vec 2) : PlainMembers (pairModule p q) ∧ 0 < numCoords (.compound (pairModule p q)) :=
  ⟨pairModule_plain p q, by rw [pairModule_numCoords]; norm_num⟩

end
end Imodal
