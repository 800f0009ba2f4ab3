import Verif.Lemmas.DilRows
/-!
# Shooting in another unit of length: derivatives and solvers
-/
set_option autoImplicit false
namespace Imodal
noncomputable section
variable {d : Nat} {s : ℝ}

/-! ## Structure -/

mutual
theorem mfd_lenGd_dil : (m : Mfd d) → (m.dilate s).lenGd = m.lenGd
  | .landmarks _ _ => by simp only [Mfd.dilate, Mfd.lenGd]
  | .direction _ _ _ _ _ => by simp only [Mfd.dilate, Mfd.lenGd]
  | .frame _ _ _ _ => by simp only [Mfd.dilate, Mfd.lenGd]
  | .empty => by rw [Mfd.dilate]
  | .compound ms => by rw [Mfd.dilate, Mfd.lenGd, Mfd.lenGd, mfds_lenGd_dil ms]
theorem mfds_lenGd_dil : (ms : List (Mfd d)) → Mfd.lenGdAll (Mfd.dilateAll s ms) = Mfd.lenGdAll ms
  | [] => by rw [Mfd.dilateAll]
  | m :: ms => by rw [Mfd.dilateAll, Mfd.lenGdAll, Mfd.lenGdAll, mfd_lenGd_dil m, mfds_lenGd_dil ms]
end

theorem plain_dil (m : Mfd d) : (m.dilate s).Plain ↔ m.Plain := by
  unfold Mfd.Plain
  rw [mfd_lenGd_dil]
  cases m <;> simp [Mfd.dilate, Mfd.hasShapeGd]

theorem mfdDilateAll_eq (ms : List (Mfd d)) : Mfd.dilateAll s ms = ms.map (Mfd.dilate s) := by
  induction ms with
  | nil => rw [Mfd.dilateAll]; rfl
  | cons m ms ih => rw [Mfd.dilateAll, ih]; rfl

theorem plainMembers_dil (ms : List (DefModule d)) : PlainMembers (DefModule.dilateAll s ms) ↔ PlainMembers ms := by
  unfold PlainMembers
  rw [manifolds_dil, mfdDilateAll_eq]
  simp only [List.mem_map, forall_exists_index, and_imp, forall_apply_eq_imp_iff₂, plain_dil]

mutual
theorem reset_dil : (m : DefModule d) → (m.reset.dilate s).reset = (m.dilate s).reset
  | .translations _ => by simp [DefModule.reset, DefModule.dilate]
  | .implicit0 _ => by simp [DefModule.reset, DefModule.dilate]
  | .oriented _ => by simp [DefModule.reset, DefModule.dilate]
  | .constrained _ => by simp [DefModule.reset, DefModule.dilate]
  | .globalTranslation _ => by simp [DefModule.reset, DefModule.dilate]
  | .linear _ => by simp [DefModule.reset, DefModule.dilate]
  | .implicit1 _ => by simp [DefModule.reset, DefModule.dilate]
  | .divFree _ => by simp [DefModule.reset, DefModule.dilate]
  | .arap _ => by simp [DefModule.reset, DefModule.dilate]
  | .silent man => by simp [DefModule.reset, DefModule.dilate]
  | .compound ms => by rw [DefModule.reset, DefModule.dilate, DefModule.reset, DefModule.dilate, DefModule.reset, resetAll_dil ms]
theorem resetAll_dil : (ms : List (DefModule d)) →
    DefModule.resetAll (DefModule.dilateAll s (DefModule.resetAll ms)) = DefModule.resetAll (DefModule.dilateAll s ms)
  | [] => by simp [DefModule.resetAll, DefModule.dilateAll]
  | m :: ms => by
    rw [DefModule.resetAll, DefModule.dilateAll, DefModule.resetAll, DefModule.dilateAll, DefModule.resetAll, reset_dil m, resetAll_dil ms]
end

theorem rowsDil_back (hs : s ≠ 0) {W : Row} (hW : ∀ j, W j ≠ 0) (y : Row × Row) :
    rowsDil s W (fun j => (W j)⁻¹ * y.1 j, fun j => (s ^ 2 / W j)⁻¹ * y.2 j) = y := by
  rw [rowsDil_apply]
  exact Prod.ext (funext fun j => mul_inv_cancel_left₀ (hW j) _)
    (funext fun j => mul_inv_cancel_left₀ (div_ne_zero (pow_ne_zero 2 hs) (hW j)) _)

theorem Same.dilate (hs : s ≠ 0) {m m' : DefModule d} (h : Same m m') : Same (m.dilate s) (m'.dilate s) := fun y => by
  rw [← rowsDil_back hs (unitRow_ne hs m) y, rowsMod_dil hs, h.unitRow, rowsMod_dil hs, ← reset_dil, h, reset_dil]

theorem SameGd.unitRow {m m' : DefModule d} (h : SameGd m m') : m.unitRow s = m'.unitRow s := h.same.unitRow

theorem SameGd.dilate (hs : s ≠ 0) {m m' : DefModule d} (h : SameGd m m') : SameGd (m.dilate s) (m'.dilate s) := fun y => by
  have e : y = fun j => m.unitRow s j * ((m.unitRow s j)⁻¹ * y j) := funext fun j => (mul_inv_cancel_left₀ (unitRow_ne hs m j) _).symm
  rw [e, dil_withGd _ m (starts_unitRow m), h.unitRow, dil_withGd _ m' (starts_unitRow m'), ← reset_dil, h, reset_dil]

mutual
theorem dilateCtrl_reset : (m : DefModule d) → (c : Ctrl d) → m.reset.dilateCtrl s c = m.dilateCtrl s c
  | .translations _, c => by cases c <;> simp only [DefModule.reset, DefModule.dilateCtrl]
  | .implicit0 _, c => by cases c <;> simp only [DefModule.reset, DefModule.dilateCtrl]
  | .oriented _, c => by cases c <;> simp only [DefModule.reset, DefModule.dilateCtrl]
  | .constrained _, c => by cases c <;> simp only [DefModule.reset, DefModule.dilateCtrl]
  | .globalTranslation _, c => by cases c <;> simp only [DefModule.reset, DefModule.dilateCtrl]
  | .linear _, c => by cases c <;> simp only [DefModule.reset, DefModule.dilateCtrl]
  | .implicit1 _, c => by cases c <;> simp only [DefModule.reset, DefModule.dilateCtrl]
  | .divFree _, c => by cases c <;> simp only [DefModule.reset, DefModule.dilateCtrl]
  | .arap _, c => by cases c <;> simp only [DefModule.reset, DefModule.dilateCtrl]
  | .silent _, c => by cases c <;> simp only [DefModule.reset, DefModule.dilateCtrl]
  | .compound ms, c => by cases c <;> simp only [DefModule.reset, DefModule.dilateCtrl, dilateCtrls_reset ms]
theorem dilateCtrls_reset : (ms : List (DefModule d)) → (cs : List (Ctrl d)) → DefModule.dilateCtrls s (DefModule.resetAll ms) cs = DefModule.dilateCtrls s ms cs
  | [], _ => by simp only [DefModule.resetAll]
  | m :: ms, [] => by simp only [DefModule.resetAll, DefModule.dilateCtrls]
  | m :: ms, c :: cs => by simp only [DefModule.resetAll, DefModule.dilateCtrls, dilateCtrl_reset m, dilateCtrls_reset ms]
end
mutual
theorem dilateCtrl_withGd (x : Row) : (m : DefModule d) → (o : Nat) → (c : Ctrl d) → (m.withGd x o).dilateCtrl s c = m.dilateCtrl s c
  | .translations _, _, c => by cases c <;> simp only [DefModule.withGd, DefModule.dilateCtrl]
  | .implicit0 _, _, c => by cases c <;> simp only [DefModule.withGd, DefModule.dilateCtrl]
  | .oriented _, _, c => by cases c <;> simp only [DefModule.withGd, DefModule.dilateCtrl]
  | .constrained _, _, c => by cases c <;> simp only [DefModule.withGd, DefModule.dilateCtrl]
  | .globalTranslation _, _, c => by cases c <;> simp only [DefModule.withGd, DefModule.dilateCtrl]
  | .linear _, _, c => by cases c <;> simp only [DefModule.withGd, DefModule.dilateCtrl]
  | .implicit1 _, _, c => by cases c <;> simp only [DefModule.withGd, DefModule.dilateCtrl]
  | .divFree _, _, c => by cases c <;> simp only [DefModule.withGd, DefModule.dilateCtrl]
  | .arap _, _, c => by cases c <;> simp only [DefModule.withGd, DefModule.dilateCtrl]
  | .silent _, _, c => by cases c <;> simp only [DefModule.withGd, DefModule.dilateCtrl]
  | .compound ms, _, c => by cases c <;> simp only [DefModule.withGd, DefModule.dilateCtrl, dilateCtrls_withGd x ms]
theorem dilateCtrls_withGd (x : Row) : (ms : List (DefModule d)) → (o : Nat) → (cs : List (Ctrl d)) →
    DefModule.dilateCtrls s (DefModule.withGdAll x o ms) cs = DefModule.dilateCtrls s ms cs
  | [], _, _ => by simp only [DefModule.withGdAll]
  | m :: ms, _, [] => by simp only [DefModule.withGdAll, DefModule.dilateCtrls]
  | m :: ms, _, c :: cs => by simp only [DefModule.withGdAll, DefModule.dilateCtrls, dilateCtrl_withGd x m, dilateCtrls_withGd x ms]
end
mutual
theorem dilateCtrl_withCot (x : Row) : (m : DefModule d) → (o : Nat) → (c : Ctrl d) → (m.withCot x o).dilateCtrl s c = m.dilateCtrl s c
  | .translations _, _, c => by cases c <;> simp only [DefModule.withCot, DefModule.dilateCtrl]
  | .implicit0 _, _, c => by cases c <;> simp only [DefModule.withCot, DefModule.dilateCtrl]
  | .oriented _, _, c => by cases c <;> simp only [DefModule.withCot, DefModule.dilateCtrl]
  | .constrained _, _, c => by cases c <;> simp only [DefModule.withCot, DefModule.dilateCtrl]
  | .globalTranslation _, _, c => by cases c <;> simp only [DefModule.withCot, DefModule.dilateCtrl]
  | .linear _, _, c => by cases c <;> simp only [DefModule.withCot, DefModule.dilateCtrl]
  | .implicit1 _, _, c => by cases c <;> simp only [DefModule.withCot, DefModule.dilateCtrl]
  | .divFree _, _, c => by cases c <;> simp only [DefModule.withCot, DefModule.dilateCtrl]
  | .arap _, _, c => by cases c <;> simp only [DefModule.withCot, DefModule.dilateCtrl]
  | .silent _, _, c => by cases c <;> simp only [DefModule.withCot, DefModule.dilateCtrl]
  | .compound ms, _, c => by cases c <;> simp only [DefModule.withCot, DefModule.dilateCtrl, dilateCtrls_withCot x ms]
theorem dilateCtrls_withCot (x : Row) : (ms : List (DefModule d)) → (o : Nat) → (cs : List (Ctrl d)) →
    DefModule.dilateCtrls s (DefModule.withCotAll x o ms) cs = DefModule.dilateCtrls s ms cs
  | [], _, _ => by simp only [DefModule.withCotAll]
  | m :: ms, _, [] => by simp only [DefModule.withCotAll, DefModule.dilateCtrls]
  | m :: ms, _, c :: cs => by simp only [DefModule.withCotAll, DefModule.dilateCtrls, dilateCtrl_withCot x m, dilateCtrls_withCot x ms]
end

theorem dilateCtrl_of_reset {m m' : DefModule d} (h : m.reset = m'.reset) : m.dilateCtrl s = m'.dilateCtrl s := funext fun c => by
  rw [← dilateCtrl_reset m, h, dilateCtrl_reset]
theorem dilateCtrl_rowsMod (m : DefModule d) (x : Row × Row) : (rowsMod m x).dilateCtrl s = m.dilateCtrl s := funext fun c => by
  unfold rowsMod
  rw [dilateCtrl_withCot, dilateCtrl_withGd]
theorem Same.dilateCtrl {m m' : DefModule d} (h : Same m m') : m.dilateCtrl s = m'.dilateCtrl s := by
  rw [← dilateCtrl_rowsMod m (0, 0), ← dilateCtrl_rowsMod m' (0, 0), dilateCtrl_of_reset (h (0, 0))]

/-! ## Derivatives -/

theorem value_dil (hs : s ≠ 0) (m : DefModule d) : Hamiltonian.value (m.dilate s) = (Hamiltonian.value m).map (s ^ 2 * ·) := by
  unfold Hamiltonian.value hamiltonianOn
  rw [cost_dil hs, manifold_dil]
  rcases field_dil hs m with ⟨e, h1, h2⟩ | ⟨f, f', h1, h2, h3⟩
  · rw [h1, h2]; cases m.cost <;> rfl
  · rw [h1, h2]
    dsimp only
    rw [innerProd_dil hs h3, ← pow_two]
    cases m.manifold.innerProd f with
    | error e => cases m.cost <;> rfl
    | ok x =>
      cases m.cost with
      | error e => rfl
      | ok c => exact congrArg Except.ok (mul_sub _ _ _).symm

theorem geodesicControls_dil (hs : s ≠ 0) (m : DefModule d) :
    Hamiltonian.geodesicControls (m.dilate s) = (Hamiltonian.geodesicControls m).map (DefModule.dilate s) := by
  unfold Hamiltonian.geodesicControls
  rw [manifold_dil]; exact geodesic_dil hs m.manifold m

/-- Ways to set controls that follow the change of unit at the states of a module. -/
def PrepDil (s : ℝ) (m : DefModule d) (P P' : DefModule d → Py (DefModule d)) : Prop :=
  ∀ m', Same m m' → P' (m'.dilate s) = (P m').map (DefModule.dilate s)
theorem prepDil_geodesic (hs : s ≠ 0) (m : DefModule d) : PrepDil s m Hamiltonian.geodesicControls Hamiltonian.geodesicControls :=
  fun m' _ => geodesicControls_dil hs m'
theorem prepDil_setControls (hs : s ≠ 0) (m : DefModule d) (controls : Option (List (Ctrl d))) (i : Nat) :
    PrepDil s m (setControls controls i) (setControls (controls.map (List.map (m.dilateCtrl s))) i) := fun m' h => by
  unfold setControls
  cases controls with
  | none => exact geodesicControls_dil hs m'
  | some cs =>
    dsimp only [Option.map]
    rw [List.getElem?_map]
    cases cs[i]? with
    | none => rfl
    | some c =>
      dsimp only [Option.map]
      rw [h.dilateCtrl]; exact fillControls_dil hs m' c
theorem PrepDil.same {m m' : DefModule d} {P P' : DefModule d → Py (DefModule d)} (hP : PrepDil s m P P') (h : Same m m') : PrepDil s m' P P' :=
  fun m'' h' => hP m'' (h.trans h')

theorem hamFn_dil (hs : s ≠ 0) {P P' : DefModule d → Py (DefModule d)} {m : DefModule d} (hP : PrepDil s m P P') (q p : Row) :
    hamFn P' (m.dilate s) (fun j => m.unitRow s j * q j) (fun j => s ^ 2 / m.unitRow s j * p j) = (hamFn P m q p).map (s ^ 2 * ·) := by
  unfold hamFn
  rw [withRows_eq, withRows_eq]
  dsimp only
  have := rowsMod_dil hs m (q, p)
  unfold rowsMod at this
  rw [rowsDil_apply] at this
  dsimp only at this
  rw [this, hP ((m.withGd q 0).withCot p 0) (same_rowsMod m (q, p)).symm]
  cases P ((m.withGd q 0).withCot p 0) with
  | error e => rfl
  | ok m' => exact value_dil hs m'

theorem update_mul_row (W p : Row) (j : Nat) (t : ℝ) :
    Function.update (fun k => W k * p k) j (W j * t) = fun k => W k * Function.update p j t k := by
  funext k
  by_cases hk : k = j
  · subst hk; simp
  · simp [hk]

theorem deriv_units (F : ℝ → ℝ) (c u x : ℝ) (hu : u ≠ 0) (G : ℝ → ℝ) (h : ∀ t, G (u * t) = c * F t) : deriv G (u * x) = c / u * deriv F x := by
  have e : G = fun t => c * F (u⁻¹ * t) := funext fun t => by rw [← h, mul_inv_cancel_left₀ hu]
  rw [e, deriv_const_mul_field, deriv_comp_mul_left u⁻¹ F, smul_eq_mul, inv_mul_cancel_left₀ hu]
  ring

theorem gradH_dil (hs : s ≠ 0) {P P' : DefModule d → Py (DefModule d)} {m : DefModule d} (hP : PrepDil s m P P') :
    gradH P' (m.dilate s) = (fun j => s ^ 2 / m.unitRow s j * (gradH P m).1 j, fun j => m.unitRow s j * (gradH P m).2 j) := by
  unfold gradH
  dsimp only
  rw [numCoords_dil, gdRow_dil hs, cotRow_dil hs]
  have hW := unitRow_ne hs m
  refine Prod.ext (funext fun j => ?_) (funext fun j => ?_)
  · dsimp only
    unfold cut partialQ
    split
    · exact deriv_units _ (s ^ 2) _ _ (hW j) _ fun t => by
        rw [update_mul_row]
        dsimp only
        rw [hamFn_dil hs hP, valD_map_mul]
    · exact (mul_zero _).symm
  · dsimp only
    unfold cut partialP
    split
    · rw [deriv_units (fun t => valD (hamFn P m (gdRow m) (Function.update (cotRow m) j t))) (s ^ 2) _ _
        (div_ne_zero (pow_ne_zero 2 hs) (hW j)) _ fun t => by
          rw [update_mul_row (fun k => s ^ 2 / m.unitRow s k)]
          dsimp only
          rw [hamFn_dil hs hP, valD_map_mul]]
      rw [div_div_cancel₀ (pow_ne_zero 2 hs)]
    · exact (mul_zero _).symm

/-! ## Shooting from momenta -/

/-- The callback with everything it holds in the new unit. -/
def GradObj.dilate (s : ℝ) (m : DefModule d) (w : GradObj d) : GradObj d :=
  ⟨w.module.dilate s, w.it, w.trueIt, w.costs.map (s ^ 2 * ·), w.ctrls.map (m.dilateCtrl s)⟩

theorem evalAt_dil (hs : s ≠ 0) (m : DefModule d) (x : Row × Row) :
    evalAt (m.dilate s) (rowsDil s (m.unitRow s) x) = (evalAt m x).map (DefModule.dilate s) := by
  unfold evalAt
  rw [rowsMod_dil hs, geodesicControls_dil hs]
  cases Hamiltonian.geodesicControls (rowsMod m x) with
  | error e => rfl
  | ok m' =>
    dsimp only [Except.map]
    rw [value_dil hs]
    cases Hamiltonian.value m' <;> rfl

theorem hamVec_dil (hs : s ≠ 0) (m : DefModule d) (x : Row × Row) :
    hamVec (m.dilate s) (rowsDil s (m.unitRow s) x) = rowsDil s (m.unitRow s) (hamVec m x) := by
  unfold hamVec
  rw [rowsMod_dil hs, gradH_dil hs (prepDil_geodesic hs _), unitRow_rowsMod]
  refine Prod.ext rfl (funext fun j => ?_)
  exact (mul_neg _ _).symm

theorem after_dil (hs : s ≠ 0) (w : GradObj d) {m m' : DefModule d} (h : Same m m') (t1 : ℝ) (it : Nat) (t : ℝ) :
    (w.dilate s m).after t1 it t (m'.dilate s) = (w.after t1 it t m').dilate s m := by
  unfold GradObj.after GradObj.dilate
  dsimp only
  rw [cost_dil hs, valD_map_mul, controls_dil, List.map_append, h.dilateCtrl]
  congr 1
  split <;> simp

theorem forward_dil (hs : s ≠ 0) (ms : List (DefModule d)) (t1 : ℝ) (it : Nat) (t : ℝ) (x : Row × Row) :
    ProgMap (Inv ms) (GradObj.dilate s (.compound ms)) (rowsDil s ((DefModule.compound ms).unitRow s)) (forwardMoments t1 it t x)
      (forwardMoments t1 it t (rowsDil s ((DefModule.compound ms).unitRow s) x)) := by
  intro w hI
  have hI' : Inv (DefModule.dilateAll s ms) (w.dilate s (.compound ms)) := by
    obtain ⟨ms', e, hp, hm⟩ := hI
    refine ⟨DefModule.dilateAll s ms', ?_, (plainMembers_dil ms').2 hp, ?_⟩
    · show w.module.dilate s = _
      rw [e, DefModule.dilate]
    · rw [← DefModule.dilate, ← DefModule.dilate]; exact hm.dilate hs
  rw [forward_run hI, forward_run hI', ← DefModule.dilate, evalAt_dil hs]
  cases h1 : evalAt (.compound ms) x with
  | error e => exact ⟨hI, rfl⟩
  | ok m' =>
    refine ⟨inv_after hI h1 .., ?_⟩
    dsimp only [Except.map]
    rw [hamVec_dil hs, after_dil hs w ((same_rowsMod _ x).symm.trans (same_of_reset (evalAt_reset h1)).symm)]

theorem shootMoments_dil (hs : s ≠ 0) (ms : List (DefModule d)) (S : Solver) (it : Nat) (t1 : ℝ) :
    shootMoments S it t1 ((DefModule.compound ms).dilate s) = (shootMoments S it t1 (.compound ms)).map (Shot.dilate s (.compound ms)) := by
  have hnc : numCoords (DefModule.compound (DefModule.dilateAll s ms)) = numCoords (.compound ms) := by
    rw [← DefModule.dilate]; exact numCoords_dil _
  by_cases hn : 0 < numCoords (.compound ms)
  swap
  · rw [DefModule.dilate, shootMoments, shootMoments, C07_no_coordinates (DefModule.compound ms) (by omega), C07_no_coordinates (.compound (DefModule.dilateAll s ms)) (by rw [hnc]; omega)]; rfl
  by_cases hp : PlainMembers ms
  swap
  · rw [DefModule.dilate, shoot_not_plain hp hn, shoot_not_plain (fun h' => hp ((plainMembers_dil ms).1 h')) (hnc ▸ hn)]; rfl
  have hrun := progMap_odeint (fun y k => map_add _ y k) (forward_dil hs ms t1 it) S t1 it
    (gdRow (.compound ms), cotRow (.compound ms)) (GradObj.init (.compound ms)) (inv_init hp)
  cases hr : odeint S (forwardMoments t1 it) t1 it (gdRow (.compound ms), cotRow (.compound ms)) (GradObj.init (.compound ms)) with
  | mk r w =>
    rw [hr] at hrun
    obtain ⟨hI, hrun⟩ := hrun
    have e0 : rowsDil s ((DefModule.compound ms).unitRow s) (gdRow (.compound ms), cotRow (.compound ms))
        = (gdRow (.compound (DefModule.dilateAll s ms)), cotRow (.compound (DefModule.dilateAll s ms))) := by
      rw [← DefModule.dilate, gdRow_dil hs, cotRow_dil hs]; rfl
    have e1 : (GradObj.init (.compound ms)).dilate s (.compound ms) = GradObj.init (.compound (DefModule.dilateAll s ms)) := by
      rw [← DefModule.dilate]; rfl
    rw [e0, e1] at hrun
    rw [DefModule.dilate, shoot_of_run ((plainMembers_dil ms).2 hp) (hnc ▸ hn) S it t1 hrun, shoot_of_run hp hn S it t1 hr]
    have hu : w.module.unitRow s = (DefModule.compound ms).unitRow s := by
      obtain ⟨ms', e, -, hm⟩ := hI
      rw [e]; exact hm.unitRow
    cases r with
    | error e => rfl
    | ok xs =>
      dsimp only [Except.map]
      refine congrArg Except.ok ?_
      unfold Shot.dilate
      dsimp only
      rw [← e0, getLastD_map, List.map_map, List.map_map]
      congr 1
      · have := rowsMod_dil hs w.module (xs.getLastD (gdRow (.compound ms), cotRow (.compound ms)))
        rwa [hu] at this
      · refine List.map_congr_left fun x _ => ?_
        show (rowsMod (.compound (DefModule.dilateAll s ms)) _).manifold = _
        rw [← DefModule.dilate, rowsMod_dil hs, manifold_dil]; rfl

/-! ## Shooting with controls -/

theorem ctrlEval_dil (hs : s ≠ 0) (m : DefModule d) (c : Ctrl d) (x : Row) :
    ctrlEval (m.dilate s) (m.dilateCtrl s c) (fun j => m.unitRow s j * x j)
      = (ctrlEval m c x).map fun r => (r.1.dilate s, fun j => m.unitRow s j * r.2 j) := by
  unfold ctrlEval
  rw [dil_withGd x m (starts_unitRow m), ← dilateCtrl_withGd x m 0, fillControls_dil hs]
  cases h0 : (m.withGd x 0).fillControls c with
  | error e => rfl
  | ok m' =>
    dsimp only [Except.map]
    rw [cost_dil hs]
    cases m'.cost with
    | error e => rfl
    | ok b =>
      dsimp only [Except.map]
      rcases field_dil hs m' with ⟨e, h1, h2⟩ | ⟨f, f', h1, h2, h3⟩
      · rw [h1, h2]
      · rw [h1, h2]
        dsimp only
        rw [manifold_dil, action_dil hs h3]
        cases h4 : m'.manifold.action f with
        | error e => rfl
        | ok v =>
          dsimp only [Except.map]
          have hu : m'.unitRow s = m.unitRow s := by
            have : Same m' m := ((sameGd_of_reset (reset_fill _ h0)).trans (sameGd_withGd m x)).same
            exact this.unitRow
          rw [rowTan_dil m' (fits_action f _ h4), hu]

theorem forwardC_dil (hs : s ≠ 0) (ms : List (DefModule d)) (controls : List (Ctrl d)) (t1 : ℝ) (it : Nat) (t : ℝ) (x : Row) :
    ProgMap (InvC ms) (GradObj.dilate s (.compound ms)) (fun k : Row => fun j => (DefModule.compound ms).unitRow s j * k j) (forwardControl controls t1 it t x)
      (forwardControl (controls.map ((DefModule.compound ms).dilateCtrl s)) t1 it t (fun j => (DefModule.compound ms).unitRow s j * x j)) := by
  intro w hI
  have hI' : InvC (DefModule.dilateAll s ms) (w.dilate s (.compound ms)) := by
    obtain ⟨ms', e, hp, hm⟩ := hI
    refine ⟨DefModule.dilateAll s ms', ?_, (plainMembers_dil ms').2 hp, ?_⟩
    · show w.module.dilate s = _
      rw [e, DefModule.dilate]
    · rw [← DefModule.dilate, ← DefModule.dilate]; exact hm.dilate hs
  rw [forwardC_run hI, forwardC_run hI', ← DefModule.dilate]
  have hpick : pickControls (controls.map ((DefModule.compound ms).dilateCtrl s)) it (tToIt t1 it t) (w.dilate s (.compound ms)).it
      = (pickControls controls it (tToIt t1 it t) w.it).map ((DefModule.compound ms).dilateCtrl s) := by
    show pickControls _ it _ w.it = _
    unfold pickControls
    rw [List.length_map]
    dsimp only
    rw [List.getElem?_map]
    cases controls[if controls.length = it then (tToIt t1 it t).toNat else if it < controls.length then w.it else 0]? <;> rfl
  rw [hpick]
  cases h0 : pickControls controls it (tToIt t1 it t) w.it with
  | error e => exact ⟨hI, rfl⟩
  | ok c =>
    dsimp only [Except.map]
    rw [ctrlEval_dil hs]
    cases h1 : ctrlEval (.compound ms) c x with
    | error e => exact ⟨hI, rfl⟩
    | ok r =>
      refine ⟨invC_after hI h1 .., ?_⟩
      dsimp only [Except.map]
      have hsm : Same (DefModule.compound ms) r.1 :=
        (((sameGd_of_reset (reset_fill _ (ctrlEval_ok h1).1)).trans (sameGd_withGd _ x)).same).symm
      rw [after_dil hs w hsm]

theorem shootControls_dil (hs : s ≠ 0) (ms : List (DefModule d)) (S : Solver) (it : Nat) (t1 : ℝ) (controls : List (Ctrl d)) :
    shootControls S it t1 (controls.map ((DefModule.compound ms).dilateCtrl s)) ((DefModule.compound ms).dilate s)
      = (shootControls S it t1 controls (.compound ms)).map (Shot.dilate s (.compound ms)) := by
  have hnc : numCoords (DefModule.compound (DefModule.dilateAll s ms)) = numCoords (.compound ms) := by
    rw [← DefModule.dilate]; exact numCoords_dil _
  by_cases hn : 0 < numCoords (.compound ms)
  swap
  · rw [DefModule.dilate, shootControls, shootControls, C07_no_coordinates (DefModule.compound ms) (by omega), C07_no_coordinates (.compound (DefModule.dilateAll s ms)) (by rw [hnc]; omega)]; rfl
  by_cases hp : PlainMembers ms
  swap
  · rw [DefModule.dilate, shootC_not_plain hp hn, shootC_not_plain (fun h' => hp ((plainMembers_dil ms).1 h')) (hnc ▸ hn)]; rfl
  have hrun := progMap_odeint (T := LinearMap.mulLeft ℝ ((DefModule.compound ms).unitRow s)) (L := LinearMap.mulLeft ℝ ((DefModule.compound ms).unitRow s))
    (fun y k => map_add _ y k) (forwardC_dil hs ms controls t1 it) S t1 it (gdRow (.compound ms)) (GradObj.init (.compound ms)) (invC_init hp)
  cases hr : odeint S (forwardControl controls t1 it) t1 it (gdRow (.compound ms)) (GradObj.init (.compound ms)) with
  | mk r w =>
    rw [hr] at hrun
    obtain ⟨hI, hrun⟩ := hrun
    have e0 : LinearMap.mulLeft ℝ ((DefModule.compound ms).unitRow s) (gdRow (.compound ms)) = gdRow (.compound (DefModule.dilateAll s ms)) := by
      rw [← DefModule.dilate, gdRow_dil hs]; rfl
    have e1 : (GradObj.init (.compound ms)).dilate s (.compound ms) = GradObj.init (.compound (DefModule.dilateAll s ms)) := by
      rw [← DefModule.dilate]; rfl
    rw [e0, e1] at hrun
    rw [DefModule.dilate, shootC_of_run ((plainMembers_dil ms).2 hp) (hnc ▸ hn) S it t1 _ hrun, shootC_of_run hp hn S it t1 _ hr]
    have hu : w.module.unitRow s = (DefModule.compound ms).unitRow s := by
      obtain ⟨ms', e, -, hm⟩ := hI
      rw [e]; exact hm.unitRow
    cases r with
    | error e => rfl
    | ok xs =>
      dsimp only [Except.map]
      refine congrArg Except.ok ?_
      unfold Shot.dilate
      dsimp only
      rw [← e0, getLastD_map, List.map_map, List.map_map]
      congr 1
      · have := dil_withGd (xs.getLastD (gdRow (.compound ms))) w.module (starts_unitRow (s := s) w.module)
        rw [hu] at this
        exact this
      · refine List.map_congr_left fun x _ => ?_
        show ((DefModule.compound (DefModule.dilateAll s ms)).withGd _ 0).manifold = _
        rw [← DefModule.dilate]
        refine (congrArg DefModule.manifold (dil_withGd x (.compound ms) (starts_unitRow (s := s) _))).trans ?_
        rw [manifold_dil]; rfl

/-! ## Euler's method of the library itself -/

theorem eulerStep_dil (hs : s ≠ 0) (controls : Option (List (Ctrl d))) (i : Nat) {m0 m : DefModule d} (h : Same m0 m) (step : ℝ) :
    eulerStep step (controls.map (List.map (m0.dilateCtrl s))) i (m.dilate s) = (eulerStep step controls i m).map (DefModule.dilate s) := by
  have hP := (prepDil_setControls hs m0 controls i).same h
  unfold eulerStep
  rw [hP m (Same.refl m)]
  cases h1 : setControls controls i m with
  | error e => rfl
  | ok m1 =>
    dsimp only [Except.map]
    rw [value_dil hs]
    cases Hamiltonian.value m1 with
    | error e => rfl
    | ok v =>
      dsimp only [Except.map]
      have hu : m1.unitRow s = m.unitRow s := unitRow_of_reset (setControls_reset h1)
      rw [withRows_eq, withRows_eq, gradH_dil hs hP, gdRow_dil hs, cotRow_dil hs]
      dsimp only
      refine congrArg Except.ok ?_
      have := rowsMod_dil hs m1 (gdRow m + step • (gradH (setControls controls i) m).2, cotRow m + -step • (gradH (setControls controls i) m).1)
      rw [hu, rowsDil_apply] at this
      unfold rowsMod at this
      refine Eq.trans ?_ this
      congr 2
      · funext j; simp only [Pi.add_apply, Pi.smul_apply, smul_eq_mul]; ring
      · congr 1
        funext j; simp only [Pi.add_apply, Pi.smul_apply, smul_eq_mul]; ring

theorem eulerLoop_dil (hs : s ≠ 0) (controls : Option (List (Ctrl d))) {m0 : DefModule d} (step : ℝ) (k : Nat) : ∀ (i : Nat) {m : DefModule d}, Same m0 m →
    eulerLoop step (controls.map (List.map (m0.dilateCtrl s))) i k (m.dilate s) = (eulerLoop step controls i k m).map (Shot.dilate s m0) := by
  induction k with
  | zero =>
    intro i m _
    rw [eulerLoop, eulerLoop, manifold_dil]
    rfl
  | succ k ih =>
    intro i m h
    rw [eulerLoop, eulerLoop, eulerStep_dil hs controls i h]
    cases h1 : eulerStep step controls i m with
    | error e => rfl
    | ok m' =>
      have hm' : Same m0 m' := by
        unfold eulerStep at h1
        cases h2 : setControls controls i m with
        | error e => rw [h2] at h1; cases h1
        | ok m1 =>
          rw [h2] at h1
          dsimp only at h1
          cases h3 : Hamiltonian.value m1 with
          | error e => rw [h3] at h1; cases h1
          | ok v =>
            rw [h3] at h1
            dsimp only at h1
            rw [withRows_eq] at h1
            rw [← Except.ok.inj h1]
            exact (h.trans (same_of_reset (setControls_reset h2)).symm).trans (same_rowsMod m1 (_, _)).symm
      dsimp only [Except.map]
      rw [ih (i + 1) hm']
      cases eulerLoop step controls (i + 1) k m' with
      | error e => rfl
      | ok r =>
        dsimp only [Except.map]
        rw [manifold_dil, controls_dil, ← hm'.dilateCtrl]
        rfl

theorem shootEuler_dil (hs : s ≠ 0) (controls : Option (List (Ctrl d))) (it : Nat) (m : DefModule d) :
    shootEuler it (controls.map (List.map (m.dilateCtrl s))) (m.dilate s) = (shootEuler it controls m).map (Shot.dilate s m) := by
  unfold shootEuler
  split
  · rfl
  · exact eulerLoop_dil hs controls _ it 0 (Same.refl m)

end
end Imodal
