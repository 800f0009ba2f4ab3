import Verif.Props.C116
import Verif.Props.C122
import Verif.Spec.ControlCurve
/-!
# C123: a constant control moves everything along its flow, and the opposite control moves it back
-/
set_option autoImplicit false
namespace Imodal
noncomputable section
open Filter Topology Set
variable {d : Nat}

/-! ## Momenta and controls the module holds do not matter -/

mutual
theorem mfd_scale_forget (a : ℝ) (y : Row) : (M : Mfd d) → (o : Nat) → (M.scale a).withCot y o = M.withCot y o
  | .landmarks _ _, _ => by simp only [Mfd.withCot, Mfd.scale]
  | .direction _ _ _ _ _, _ => by simp only [Mfd.withCot, Mfd.scale]
  | .frame _ _ _ _, _ => by simp only [Mfd.withCot, Mfd.scale]
  | .empty, _ => by simp only [Mfd.withCot, Mfd.scale]
  | .compound ms, o => by rw [Mfd.scale, Mfd.withCot, Mfd.withCot, mfds_scale_forget a y ms]
theorem mfds_scale_forget (a : ℝ) (y : Row) : (ms : List (Mfd d)) → (o : Nat) → Mfd.withCotAll y o (Mfd.scaleAll a ms) = Mfd.withCotAll y o ms
  | [], _ => by simp [Mfd.withCotAll, Mfd.scaleAll]
  | m :: ms, o => by rw [Mfd.scaleAll, Mfd.withCotAll, Mfd.withCotAll, mfd_scale_forget a y m, mfds_scale_forget a y ms, mfd_size_scale]
end

mutual
theorem scale_forget (a : ℝ) (y : Row) : (m : DefModule d) → (o : Nat) → ((m.scale a).withCot y o).reset = (m.withCot y o).reset
  | .translations _, _ => by simp only [DefModule.withCot, DefModule.scale, DefModule.reset]
  | .implicit0 _, _ => by simp only [DefModule.withCot, DefModule.scale, DefModule.reset]
  | .oriented _, _ => by simp only [DefModule.withCot, DefModule.scale, DefModule.reset]
  | .constrained _, _ => by simp only [DefModule.withCot, DefModule.scale, DefModule.reset]
  | .globalTranslation _, _ => by simp only [DefModule.withCot, DefModule.scale, DefModule.reset]
  | .linear _, _ => by simp only [DefModule.withCot, DefModule.scale, DefModule.reset]
  | .implicit1 _, _ => by simp only [DefModule.withCot, DefModule.scale, DefModule.reset]
  | .divFree _, _ => by simp only [DefModule.withCot, DefModule.scale, DefModule.reset]
  | .arap _, _ => by simp only [DefModule.withCot, DefModule.scale, DefModule.reset]
  | .silent man, o => by rw [DefModule.scale, DefModule.withCot, DefModule.withCot, mfd_scale_forget]
  | .compound ms, o => by rw [DefModule.scale, DefModule.withCot, DefModule.withCot, DefModule.reset, DefModule.reset, scaleAll_forget a y ms]
theorem scaleAll_forget (a : ℝ) (y : Row) : (ms : List (DefModule d)) → (o : Nat) →
    DefModule.resetAll (DefModule.withCotAll y o (DefModule.scaleAll a ms)) = DefModule.resetAll (DefModule.withCotAll y o ms)
  | [], _ => by simp [DefModule.withCotAll, DefModule.scaleAll]
  | m :: ms, o => by
    rw [DefModule.scaleAll, DefModule.withCotAll, DefModule.withCotAll, DefModule.resetAll, DefModule.resetAll, scale_forget a y m, scaleAll_forget a y ms,
      manifold_scale, mfd_size_scale]
end

theorem ctrlRhs_same {m m' : DefModule d} (h : SameGd m m') (c : Ctrl d) (x : Row) : ctrlRhs m c x = ctrlRhs m' c x := by
  unfold ctrlRhs
  rw [ctrlEval_same h]

/-- The velocity is proportional to the controls. -/
theorem ctrlRhs_smul (a : ℝ) (m : DefModule d) (c : Ctrl d) (x : Row) : ctrlRhs m (c.scale a) x = (ctrlRhs m c x).map fun k => a • k := by
  have h1 : ctrlRhs (m.scale a) (c.scale a) x = ctrlRhs m (c.scale a) x := by
    rw [← ctrlRhs_withCot 0 (m.scale a), ← ctrlRhs_withCot 0 m]
    exact ctrlRhs_same (sameGd_of_reset (scale_forget a 0 m 0)) _ _
  rw [← h1]
  unfold ctrlRhs
  rw [ctrlEval_scale]
  cases ctrlEval m c x <;> rfl

/-! ## The field of a control on finitely many entries -/

theorem orbitWith_const {V : Type} [AddCommGroup V] [Module ℝ V] (s : Solver) (X : V → Py V) (T : ℝ) (it k : Nat) : ∀ (i : Nat) (y : V),
    orbitWith s (fun _ _ => X) (T / it) i k y = orbitFrom s X T it i k y := by
  induction k with
  | zero => intro i y; rfl
  | succ k ih =>
    intro i y
    rw [orbitWith, orbitFrom, ← stepWith_const, grid_step]
    cases stepWith s (fun _ => X) (T / it) y with
    | error e => rfl
    | ok y' =>
      dsimp only
      rw [ih]
      cases orbitFrom s X T it (i + 1) k y' <;> rfl

/-- With one control, that control is picked. -/
theorem pickRhs_one (m : DefModule d) (c : Ctrl d) (T : ℝ) {it : Nat} (hit : it ≠ 0) (t : ℝ) (n : Nat) : pickRhs m [c] T it t n = ctrlRhs m c := by
  funext x
  unfold pickRhs pickControls
  have h1 : ¬ it < [c].length := by simp only [List.length_singleton]; omega
  have h2 : (if [c].length = it then (tToIt T it t).toNat else 0) = 0 := by
    split
    · next h =>
      have h2 : it = 1 := by rw [← h]; rfl
      rw [Int.toNat_eq_zero]
      unfold tToIt
      rw [h2]
      exact min_le_right _ _
    · rfl
  dsimp only
  rw [if_neg h1, h2]
  rfl

/-- The first entries of a row. -/
def headL (N : Nat) : Row →ₗ[ℝ] (Fin N → ℝ) where
  toFun x := fun j => x j
  map_add' _ _ := rfl
  map_smul' _ _ := rfl

/-- The velocity under a control, with its exceptions. -/
def ctrlV (m : DefModule d) (c : Ctrl d) (v : Fin (numCoords m) → ℝ) : Py (Fin (numCoords m) → ℝ) := (ctrlRhs m c (extRow v)).map (headL (numCoords m))

/-- The velocity under a control, zero where it raises. -/
def ctrlField (m : DefModule d) (c : Ctrl d) (v : Fin (numCoords m) → ℝ) : Fin (numCoords m) → ℝ :=
  match ctrlV m c v with
  | .ok k => k
  | .error _ => 0

theorem ctrlRhs_congr (m : DefModule d) (c : Ctrl d) {x y : Row} (h : ∀ j < numCoords m, x j = y j) : ctrlRhs m c x = ctrlRhs m c y := by
  unfold ctrlRhs ctrlEval
  rw [DefModule.withGd_congr (x := x) (y := y) m (off := 0) (off' := 0) fun j hj => by
    rw [Nat.zero_add]; exact h j (by rwa [numCoords_eq])]

theorem ctrlV_row (m : DefModule d) (c : Ctrl d) (x : Row) : ctrlV m c (headL _ x) = (ctrlRhs m c x).map (headL (numCoords m)) := by
  unfold ctrlV
  rw [ctrlRhs_congr m c (x := extRow (headL (numCoords m) x)) (y := x) fun j hj => extRow_lt _ hj]

theorem orbitC_head (m : DefModule d) (c : Ctrl d) (s : Solver) (T : ℝ) (it : Nat) (x : Row) :
    (orbit s (ctrlRhs m c) T it x).map (List.map (headL (numCoords m))) = orbit s (ctrlV m c) T it (headL (numCoords m) x) :=
  Tangent.orbit_map (A := univ) (W := ⊤) ⟨fun _ _ _ _ => trivial, fun _ _ _ _ => trivial⟩ (headL (numCoords m))
    (fun y _ => (ctrlV_row m c y).symm) s T it trivial

theorem ctrlField_contDiffAt {m : DefModule d} {n : WithTop ℕ∞} (hm : m.Smooth n) {c : Ctrl d} {v : Fin (numCoords m) → ℝ}
    (hok : ∃ m', (m.withGd (extRow v) 0).fillControls c = .ok m') :
    ContDiffAt ℝ n (ctrlField m c) v ∧ ∀ᶠ y in 𝓝 v, ctrlV m c y = .ok (ctrlField m c y) := by
  obtain ⟨w, a, hw, -, hev⟩ := ctrlEval_smooth (n := n) (e₀ := v) hm (smCtrl_const c) (fun _ => (gdRow m, cotRow m)) (q := fun y => extRow y)
    (fun j => sm_extRow contDiffAt_id j) (by rw [rowsMod_self]; exact hok)
  have h1 : ∀ᶠ y in 𝓝 v, ctrlV m c y = .ok (headL _ (w y)) := by
    filter_upwards [hev] with y ⟨m', h, _⟩
    rw [rowsMod_self] at h
    unfold ctrlV ctrlRhs
    rw [h]; rfl
  have h2 : ∀ᶠ y in 𝓝 v, ctrlField m c y = headL _ (w y) := by
    filter_upwards [h1] with y hy
    unfold ctrlField
    rw [hy]
  refine ⟨ContDiffAt.congr_of_eventuallyEq ?_ h2, ?_⟩
  · exact contDiffAt_pi.2 fun j => hw j
  · filter_upwards [h1, h2] with y a b
    rw [a, b]

theorem ctrlEval_parts {m : DefModule d} {c : Ctrl d} {x : Row} {r : DefModule d × Row} (h : ctrlEval m c x = .ok r) :
    ∃ f v, r.1.field = .ok f ∧ r.1.manifold.action f = .ok v ∧ rowOf v.unroll.flatten = r.2 := by
  unfold ctrlEval at h
  cases h1 : (m.withGd x 0).fillControls c with
  | error e => rw [h1] at h; cases h
  | ok m' =>
    rw [h1] at h
    dsimp only at h
    cases h2 : m'.cost with
    | error e => rw [h2] at h; cases h
    | ok a =>
      rw [h2] at h
      dsimp only at h
      cases h3 : m'.field with
      | error e => rw [h3] at h; cases h
      | ok f =>
        rw [h3] at h
        dsimp only at h
        cases h4 : m'.manifold.action f with
        | error e => rw [h4] at h; cases h
        | ok v =>
          rw [h4] at h
          cases h
          exact ⟨f, v, h3, h4, rfl⟩

/-- A motion under a constant control, through the velocities the callback returns. -/
def MovesBy (m : DefModule d) (c : Ctrl d) (T : ℝ) (q : ℝ → Row) : Prop :=
  ∀ t ∈ Icc 0 T, ∃ k, ctrlRhs m c (q t) = .ok k ∧ ∀ j < numCoords m, HasDerivWithinAt (fun u => q u j) (k j) (Icc 0 T) t

theorem ctrlRhs_fill {m : DefModule d} {c : Ctrl d} {x k : Row} (h : ctrlRhs m c x = .ok k) : ∃ m', (m.withGd x 0).fillControls c = .ok m' := by
  unfold ctrlRhs at h
  obtain ⟨r, hr, -⟩ := py_map_ok h
  exact ⟨r.1, (ctrlEval_ok hr).1⟩

theorem withGd_head (m : DefModule d) (x : Row) : m.withGd (extRow (headL (numCoords m) x)) 0 = m.withGd x 0 :=
  DefModule.withGd_congr m fun j hj => by
    rw [Nat.zero_add]; exact extRow_lt _ (by rwa [numCoords_eq])

theorem ctrlRhs_of_fill {m : DefModule d} (hm : m.Smooth 0) {c : Ctrl d} {x : Row} {m' : DefModule d} (h : (m.withGd x 0).fillControls c = .ok m')
    {f : FieldExpr d} (hf : m'.field = .ok f) {v : Tan d} (hv : m'.manifold.action f = .ok v) : ctrlRhs m c x = .ok (rowOf v.unroll.flatten) := by
  obtain ⟨-, h1⟩ := ctrlField_contDiffAt (v := headL _ x) hm ⟨m', by rw [withGd_head]; exact h⟩
  have h2 := h1.self_of_nhds
  rw [ctrlV_row] at h2
  obtain ⟨k, hk, -⟩ := py_map_ok h2
  unfold ctrlRhs at hk ⊢
  obtain ⟨r, hr, -⟩ := py_map_ok hk
  obtain ⟨e1, e2⟩ := ctrlEval_ok hr
  rw [h] at e1
  cases e1
  unfold ctrlEval
  rw [h]
  dsimp only
  rw [e2]
  dsimp only
  rw [hf]
  dsimp only
  rw [hv]
  rfl

theorem ControlCurve.moves {m : DefModule d} (hm : m.Smooth 0) {c : Ctrl d} {T : ℝ} {q : ℝ → Row} (h : ControlCurve m c T q) : MovesBy m c T q := fun t ht => by
  obtain ⟨m', f, v, h1, h2, h3, h4⟩ := h t ht
  exact ⟨_, ctrlRhs_of_fill hm h1 h2 h3, h4⟩

/-- The opposite control leads back. -/
theorem MovesBy.back {m : DefModule d} {c : Ctrl d} {T : ℝ} {q : ℝ → Row} (h : MovesBy m c T q) : MovesBy m (c.scale (-1)) T fun t => q (T - t) := fun t ht => by
  obtain ⟨k, h1, h2⟩ := h (T - t) ⟨by linarith [ht.2], by linarith [ht.1]⟩
  refine ⟨-k, by rw [ctrlRhs_smul, h1]; exact congrArg Except.ok (neg_one_smul ℝ k), fun j hj => ?_⟩
  have h3 : HasDerivWithinAt (fun t : ℝ => T - t) (-1) (Icc 0 T) t := (hasDerivWithinAt_id t (Icc 0 T)).const_sub T
  have h4 := (h2 j hj).scomp t h3 (fun u hu => ⟨by linarith [hu.2], by linarith [hu.1]⟩)
  simpa [Function.comp_def] using h4

theorem MovesBy.solves {m : DefModule d} {c : Ctrl d} {T : ℝ} {q : ℝ → Row} (h : MovesBy m c T q) : Solves (ctrlField m c) (fun t => headL (numCoords m) (q t)) T := fun t ht => by
  obtain ⟨k, h1, h2⟩ := h t ht
  have e : ctrlField m c (headL _ (q t)) = headL _ k := by
    unfold ctrlField
    rw [ctrlV_row, h1]; rfl
  rw [e]
  exact hasDerivWithinAt_pi.2 fun j => h2 j j.2

/-- The steps of a solver follow the motion, from near its beginning. -/
theorem MovesBy.orbit {m : DefModule d} (s : Solver) (hm : m.Smooth s.order) {c : Ctrl d} {T : ℝ} (hT : 0 < T) {q : ℝ → Row} (h : MovesBy m c T q) {B : ℝ} (hB : 0 ≤ B) :
    ∃ (C : ℝ) (n₀ : Nat), 0 ≤ C ∧ ∀ it : Nat, it ≥ n₀ → it ≠ 0 → ∀ x₀ : Row, (∀ j < numCoords m, |x₀ j - q 0 j| ≤ B / it ^ s.order) →
      ∃ xs, Imodal.orbit s (ctrlRhs m c) T it x₀ = .ok xs ∧ ∀ k ≤ it, ∃ x, xs[k]? = some x ∧
        ∀ j < numCoords m, |x j - q (T * k / it) j| ≤ C / it ^ s.order := by
  have hok : ∀ t ∈ Icc 0 T, ∃ m', (m.withGd (extRow (headL (numCoords m) (q t))) 0).fillControls c = .ok m' := fun t ht => by
    obtain ⟨k, h1, -⟩ := h t ht
    rw [withGd_head]; exact ctrlRhs_fill h1
  obtain ⟨C, n₀, h'⟩ := orbit_order_from (X := ctrlV m c) hT h.solves s (fun t ht => (ctrlField_contDiffAt hm (hok t ht)).1)
    (fun t ht => (ctrlField_contDiffAt hm (hok t ht)).2) hB
  refine ⟨max C 0, n₀, le_max_right _ _, fun it hit hne x₀ hx₀ => ?_⟩
  have hpos : (0 : ℝ) < it := by exact_mod_cast Nat.pos_of_ne_zero hne
  obtain ⟨l, hl, hall⟩ := h' it hit hne (headL _ x₀) (by
    rw [pi_norm_le_iff_of_nonneg (by positivity)]
    exact fun j => hx₀ j j.2)
  rw [← orbitC_head] at hl
  obtain ⟨xs, h1, h2⟩ := py_map_ok hl
  refine ⟨xs, h1, fun k hk => ?_⟩
  obtain ⟨y, hy, hyn⟩ := hall k hk
  rw [← h2, List.getElem?_map] at hy
  cases hx : xs[k]? with
  | none => rw [hx] at hy; cases hy
  | some x =>
    rw [hx] at hy
    obtain rfl : headL _ x = y := Option.some.inj hy
    refine ⟨x, rfl, fun j hj => ?_⟩
    have := (norm_le_pi_norm _ (⟨j, hj⟩ : Fin (numCoords m))).trans hyn
    exact this.trans (div_le_div_of_nonneg_right (le_max_left _ _) (by positivity))

/-- Shooting with one control. -/
theorem shoot_one {ms : List (DefModule d)} (hp : PlainMembers ms) (hn : 0 < numCoords (.compound ms)) {s : Solver} {it : Nat} (hit : it ≠ 0) {T : ℝ} (hT : T ≠ 0)
    {c : Ctrl d} {xs : List Row} (h : orbit s (ctrlRhs (.compound ms) c) T it (gdRow (.compound ms)) = .ok xs) :
    ∃ r, shootControls s it T [c] (.compound ms) = .ok r ∧ r.states = xs.map (fun x => ((DefModule.compound ms).withGd x 0).manifold) ∧
      r.module.reset = ((DefModule.compound ms).withGd (xs.getLastD (gdRow (.compound ms))) 0).reset := by
  have h0 := shootC_cases hp hn s it T [c]
  simp only [pickRhs_one _ c T hit, orbitWith_const] at h0
  rw [orbit_eq] at h
  rw [if_neg fun h => hT h.2] at h h0
  rw [h] at h0
  obtain ⟨g, -, ⟨ms', e, -, hs⟩, h3⟩ := h0
  exact ⟨_, h3, rfl, by dsimp only; rw [e]; exact hs _⟩

/-- **C123, order.** With one control for all steps, shooting follows the motion of the descriptors under that control: if there is such a motion over the
whole duration, then from some number of steps on shooting returns, and each of its states differs from the motion at the corresponding time by at most a
constant over the power of the number of steps that belongs to the method. -/
theorem C123_order {ms : List (DefModule d)} (s : Solver) (hs : (DefModule.compound ms).Smooth s.order) (hp : PlainMembers ms)
    (hn : 0 < numCoords (.compound ms)) {T : ℝ} (hT : 0 < T) {c : Ctrl d} {q : ℝ → Row} (hc : ControlCurve (.compound ms) c T q)
    (h0 : ∀ j < numCoords (.compound ms), q 0 j = gdRow (.compound ms) j) :
    ∃ (C : ℝ) (n₀ : Nat), ∀ it : Nat, it ≥ n₀ → it ≠ 0 → ∃ r, shoot (.fixed s) it T (some [c]) (.compound ms) = .ok r ∧ r.1.states.length = it + 1 ∧
      ∀ k ≤ it, ∃ S, r.1.states[k]? = some S ∧ ∀ j < numCoords (.compound ms), |rowOf S.unrollGd.flatten j - q (T * k / it) j| ≤ C / it ^ s.order := by
  obtain ⟨C, n₀, -, h⟩ := (hc.moves (smooth_of_le zero_le hs)).orbit s hs hT le_rfl
  refine ⟨C, n₀, fun it hit hne => ?_⟩
  obtain ⟨xs, h1, h2⟩ := h it hit hne (gdRow (.compound ms)) fun j hj => by rw [h0 j hj]; simp
  obtain ⟨r, h3, h4, -⟩ := shoot_one hp hn hne hT.ne' h1
  refine ⟨(r, some r.costs), by unfold shoot shootOde; dsimp only; rw [h3], by simp [h4, (orbit_steps h1).1], fun k hk => ?_⟩
  obtain ⟨x, h5, h6⟩ := h2 k hk
  refine ⟨((DefModule.compound ms).withGd x 0).manifold, by rw [h4, List.getElem?_map, h5]; rfl, fun j hj => ?_⟩
  have := congrFun (gdRow_withGd (.compound ms) x) j
  rw [cut_of_lt hj] at this
  rw [show rowOf ((DefModule.compound ms).withGd x 0).manifold.unrollGd.flatten j = x j from this]
  exact h6 j hj

/-- **C123, back.** Shooting again with the opposite control, from the modules the first shooting left, goes back through the states of the first shooting. -/
theorem C123_back {ms : List (DefModule d)} (s : Solver) (hs : (DefModule.compound ms).Smooth s.order) (hp : PlainMembers ms)
    (hn : 0 < numCoords (.compound ms)) {T : ℝ} (hT : 0 < T) {c : Ctrl d} {q : ℝ → Row} (hc : ControlCurve (.compound ms) c T q)
    (h0 : ∀ j < numCoords (.compound ms), q 0 j = gdRow (.compound ms) j) :
    ∃ (C : ℝ) (n₀ : Nat), ∀ it : Nat, it ≥ n₀ → it ≠ 0 → ∃ r, shoot (.fixed s) it T (some [c]) (.compound ms) = .ok r ∧
      ∀ ms', (DefModule.compound ms').reset = r.1.module.reset → ∃ r', shoot (.fixed s) it T (some [c.scale (-1)]) (.compound ms') = .ok r' ∧
        r'.1.states.length = it + 1 ∧
        ∀ k ≤ it, ∃ S S', r.1.states[k]? = some S ∧ r'.1.states[it - k]? = some S' ∧ S.Near (numCoords (.compound ms)) (C / it ^ s.order) S' := by
  have hm := hc.moves (smooth_of_le zero_le hs)
  obtain ⟨C, n₀, hC, h⟩ := hm.orbit s hs hT le_rfl
  obtain ⟨C', n₁, -, h'⟩ := hm.back.orbit s hs hT hC
  refine ⟨C' + C, max n₀ n₁, fun it hit hne => ?_⟩
  have hpos : (0 : ℝ) < it := by exact_mod_cast Nat.pos_of_ne_zero hne
  obtain ⟨xs, h1, h2⟩ := h it (le_of_max_le_left hit) hne (gdRow (.compound ms)) fun j hj => by rw [h0 j hj]; simp
  obtain ⟨r, h3, h4, h5⟩ := shoot_one hp hn hne hT.ne' h1
  refine ⟨(r, some r.costs), by unfold shoot shootOde; dsimp only; rw [h3], fun ms' hms' => ?_⟩
  obtain ⟨y, y1, y2⟩ := h2 it le_rfl
  have hlast : xs.getLastD (gdRow (.compound ms)) = y := by
    rw [List.getLastD_eq_getLast?, List.getLast?_eq_getElem?, (orbit_steps h1).1, Nat.add_sub_cancel, y1]; rfl
  rw [hlast] at h5
  have hms : (DefModule.compound ms').reset = ((DefModule.compound ms).withGd y 0).reset := hms'.trans h5
  have hsame : SameGd (.compound ms') (.compound ms) := (sameGd_of_reset hms).trans (sameGd_withGd _ y)
  have hman := manifold_of_reset hms
  have hnc : numCoords (.compound ms') = numCoords (.compound ms) := by
    rw [← numCoords_withGd (.compound ms) y]; unfold numCoords; rw [hman]
  have hgd : gdRow (.compound ms') = cut (numCoords (.compound ms)) y := by
    rw [← gdRow_withGd]; unfold gdRow; rw [hman]
  have hp' : PlainMembers ms' := by
    rw [DefModule.withGd] at hms
    obtain ⟨L, e, hL⟩ := compound_of_reset hms (plainMembers_withGd _ _ hp)
    cases e; exact hL
  obtain ⟨zs, k1, k2⟩ := h' it (le_of_max_le_right hit) hne (gdRow (.compound ms')) fun j hj => by
    rw [hgd, cut_of_lt hj]
    have := y2 j hj
    rwa [mul_div_assoc, div_self hpos.ne', mul_one, show T = T - 0 by ring] at this
  have e1 : ctrlRhs (.compound ms) (c.scale (-1)) = ctrlRhs (.compound ms') (c.scale (-1)) := funext fun x => (ctrlRhs_same hsame _ x).symm
  rw [e1] at k1
  obtain ⟨r', k3, k4, -⟩ := shoot_one hp' (by rw [hnc]; exact hn) hne hT.ne' k1
  refine ⟨(r', some r'.costs), by unfold shoot shootOde; dsimp only; rw [k3], by simp [k4, (orbit_steps k1).1], fun k hk => ?_⟩
  obtain ⟨x, x1, x2⟩ := h2 k hk
  obtain ⟨z, z1, z2⟩ := k2 (it - k) (by omega)
  refine ⟨((DefModule.compound ms).withGd x 0).manifold, ((DefModule.compound ms').withGd z 0).manifold,
    by rw [h4, List.getElem?_map, x1]; rfl, by rw [k4, List.getElem?_map, z1]; rfl, fun j hj => ?_⟩
  have g1 := congrFun (gdRow_withGd (.compound ms) x) j
  have g2 := congrFun (gdRow_withGd (.compound ms') z) j
  rw [hnc] at g2
  rw [cut_of_lt hj] at g1 g2
  rw [show rowOf ((DefModule.compound ms).withGd x 0).manifold.unrollGd.flatten j = x j from g1,
    show rowOf ((DefModule.compound ms').withGd z 0).manifold.unrollGd.flatten j = z j from g2, add_div]
  have et : T - T * ((it - k : Nat) : ℝ) / it = T * k / it := by
    rw [Nat.cast_sub hk]; field_simp; ring
  have b1 := x2 j hj
  have b2 := z2 j hj
  rw [et] at b2
  calc |z j - x j| = |(z j - q (T * k / it) j) + -(x j - q (T * k / it) j)| := by ring_nf
    _ ≤ _ := (abs_add_le _ _).trans (add_le_add b2 (by rwa [abs_neg]))

/-- **C123, existence.** Where the control can be set, there is such a motion for some time. -/
theorem C123_exists {m : DefModule d} (hs : m.Smooth 1) {c : Ctrl d} (hok : ∃ m', m.fillControls c = .ok m') :
    ∃ T q, 0 < T ∧ ControlCurve m c T q ∧ ∀ j < numCoords m, q 0 j = gdRow m j := by
  set v := headL (numCoords m) (gdRow m) with hv
  have hok' : ∃ m', (m.withGd (extRow v) 0).fillControls c = .ok m' := by rwa [hv, withGd_head, DefModule.withGd_gdRow]
  obtain ⟨hf, hev⟩ := ctrlField_contDiffAt hs hok'
  obtain ⟨α, h0, ε, hε, hα⟩ := hf.exists_forall_mem_closedBall_exists_eq_forall_mem_Ioo_hasDerivAt₀ 0
  have hc : ContinuousAt α 0 := (hα 0 ⟨by linarith, by linarith⟩).continuousAt
  have h1 : ∀ᶠ t in 𝓝 (0 : ℝ), ctrlV m c (α t) = .ok (ctrlField m c (α t)) := by
    have : Tendsto α (𝓝 0) (𝓝 v) := by rw [← h0]; exact hc
    exact this.eventually hev
  obtain ⟨η, hη, hball⟩ := Metric.eventually_nhds_iff.1 h1
  refine ⟨min ε η / 2, fun t => extRow (α t), by positivity, fun t ht => ?_, fun j hj => by
    show extRow (α 0) j = _
    rw [h0]; exact extRow_lt _ hj⟩
  have hlt := lt_min_iff.1 (lt_of_le_of_lt ht.2 (half_lt_self (lt_min hε hη)))
  have h2 := hball (show dist t 0 < η by rw [Real.dist_eq, sub_zero, abs_of_nonneg ht.1]; exact hlt.2)
  have h3 := (hα t ⟨by linarith [ht.1], by linarith [hlt.1]⟩).hasDerivWithinAt (s := Icc 0 (min ε η / 2))
  obtain ⟨k, hk, h4⟩ := py_map_ok h2
  unfold ctrlRhs at hk
  obtain ⟨r, hr, rfl⟩ := py_map_ok hk
  obtain ⟨f, w, e1, e2, e3⟩ := ctrlEval_parts hr
  refine ⟨r.1, f, w, (ctrlEval_ok hr).1, e1, e2, fun j hj => ?_⟩
  have h5 := hasDerivWithinAt_pi.1 h3 ⟨j, hj⟩
  rw [← h4] at h5
  rw [e3]
  refine (h5.congr_deriv ?_).congr (fun u _ => extRow_lt _ hj) (extRow_lt _ hj)
  rfl

/-- Points moved by translations of points of their own, beside any shape in the plane. -/
example {k l : Nat} (D : Translations 2 l) (h : Fin l → Vec 2) (x p : Fin (k + 1) → Vec 2) (s : Solver) :
    ∃ T > 0, ∃ (C : ℝ) (n₀ : Nat), ∀ it : Nat, it ≥ n₀ → it ≠ 0 → ∃ r r',
      shoot (.fixed s) it T (some [.list [.vecs h, .none]]) (.compound [.translations D, .silent (.landmarks x p)]) = .ok r ∧
      shoot (.fixed s) it T (some [(Ctrl.list [.vecs h, .none]).scale (-1)]) r.1.module = .ok r' ∧
      ∃ S S', r.1.states[0]? = some S ∧ r'.1.states[it]? = some S' ∧
        S.Near (numCoords (.compound [.translations D, .silent (.landmarks x p)])) (C / it ^ s.order) S' := by
  have hs : ∀ n, (DefModule.compound [.translations D, .silent (.landmarks x p)]).Smooth n := fun n => by
    simp [DefModule.Smooth, DefModule.SmoothParts, DefModule.AllSmoothParts, Mfd.NoEmptyCompound]
  have hok : ∃ m', (DefModule.compound [.translations D, .silent (.landmarks x p)]).fillControls (.list [.vecs h, .none]) = .ok m' := by
    simp [DefModule.fillControls, DefModule.fillAll]
  obtain ⟨T, q, hT, h1, h2⟩ := C123_exists (hs 1) hok
  obtain ⟨C, n₀, h3⟩ := C123_back s (hs _)
    (by simp [PlainMembers, DefModule.manifolds, DefModule.manifold, Translations.manifold, Mfd.Plain, Mfd.hasShapeGd])
    (by simp [numCoords, DefModule.manifolds, DefModule.manifold, Translations.manifold, Mfd.unrollGd, Mfd.unrollGdAll, length_flatVecs]) hT h1 h2
  refine ⟨T, hT, C, n₀, fun it hit hne => ?_⟩
  obtain ⟨r, k1, k2⟩ := h3 it hit hne
  obtain ⟨L, hL, -⟩ := same_compound (shoot_same (r := r) k1)
  obtain ⟨r', k3, -, k4⟩ := k2 L (by rw [hL])
  obtain ⟨S, S', s1, s2, s3⟩ := k4 0 (Nat.zero_le _)
  exact ⟨r, r', k1, by rw [hL]; exact k3, S, S', s1, s2, s3⟩

end
end Imodal
