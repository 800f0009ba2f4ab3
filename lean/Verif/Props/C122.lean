import Verif.Props.C102
import Verif.Props.C88
import Verif.Lemmas.RegSame
/-!
# C122: shooting back undoes a shooting
-/
set_option autoImplicit false
namespace Imodal
noncomputable section
open Filter Topology Set Matrix
variable {d : Nat}

section
variable {V : Type} [AddCommGroup V] [Module ℝ V]

theorem stepOf_neg (s : Solver) (X : V → Py V) (t t' : ℝ) (y : V) :
    stepOf s X (-t) (-t') y = stepOf s (fun y => (X y).map fun k => -k) t t' y := by
  have e : -t' - -t = -(t' - t) := by ring
  cases s with
  | euler =>
    rw [stepOf_euler, stepOf_euler, e]
    cases X y with
    | error _ => rfl
    | ok k => exact congrArg Except.ok (by module)
  | midpoint =>
    rw [stepOf_midpoint, stepOf_midpoint, e]
    cases X y with
    | error _ => rfl
    | ok k =>
      dsimp only [Except.bind, Except.map]
      rw [show y + (0.5 * (t' - t)) • -k = y + (0.5 * -(t' - t)) • k by module]
      cases X (y + (0.5 * -(t' - t)) • k) with
      | error _ => rfl
      | ok k' => exact congrArg Except.ok (by module)
  | rk4 =>
    rw [stepOf_rk4, stepOf_rk4, e]
    cases X y with
    | error _ => rfl
    | ok k₁ =>
      dsimp only [Except.bind, Except.map]
      rw [show y + ((t' - t) * (1 / 3)) • -k₁ = y + (-(t' - t) * (1 / 3)) • k₁ by module]
      cases X (y + (-(t' - t) * (1 / 3)) • k₁) with
      | error _ => rfl
      | ok k₂ =>
        dsimp only
        rw [show y + (t' - t) • (-k₂ - (1 / 3 : ℝ) • -k₁) = y + -(t' - t) • (k₂ - (1 / 3 : ℝ) • k₁) by module]
        cases X (y + -(t' - t) • (k₂ - (1 / 3 : ℝ) • k₁)) with
        | error _ => rfl
        | ok k₃ =>
          dsimp only
          rw [show y + (t' - t) • (-k₁ - -k₂ + -k₃) = y + -(t' - t) • (k₁ - k₂ + k₃) by module]
          cases X (y + -(t' - t) • (k₁ - k₂ + k₃)) with
          | error _ => rfl
          | ok k₄ => exact congrArg Except.ok (by module)

theorem orbitFrom_neg (s : Solver) (X : V → Py V) (T : ℝ) (it k : Nat) : ∀ (i : Nat) (y : V),
    orbitFrom s X (-T) it i k y = orbitFrom s (fun y => (X y).map fun k => -k) T it i k y := by
  have e : ∀ i, gridTime (-T) it i = -gridTime T it i := fun i => by unfold gridTime; ring
  induction k with
  | zero => intro i y; rfl
  | succ k ih =>
    intro i y
    rw [orbitFrom, orbitFrom, e, e, stepOf_neg]
    simp only [ih]

/-- Going back in time is following the opposite velocities. -/
theorem orbit_neg (s : Solver) (X : V → Py V) (T : ℝ) (it : Nat) (y : V) : orbit s X (-T) it y = orbit s (fun y => (X y).map fun k => -k) T it y := by
  rw [orbit_eq, orbit_eq, orbitFrom_neg]
  simp only [neg_eq_zero]
end

theorem Solves.back {E : Type} [NormedAddCommGroup E] [NormedSpace ℝ E] {f : E → E} {x : ℝ → E} {T : ℝ} (h : Solves f x T) :
    Solves (fun y => -f y) (fun t => x (T - t)) T := by
  intro t ht
  have h1 : HasDerivWithinAt (fun t : ℝ => T - t) (-1) (Icc 0 T) t := by
    exact (hasDerivWithinAt_id t (Icc 0 T)).const_sub T
  have h2 := (h (T - t) ⟨by linarith [ht.2], by linarith [ht.1]⟩).scomp t h1 (fun u hu => ⟨by linarith [hu.2], by linarith [hu.1]⟩)
  simpa [Function.comp_def] using h2

theorem rowOf_scale (a : ℝ) (S : Mfd d) (j : Nat) : rowOf (S.scale a).unrollGd.flatten j = rowOf S.unrollGd.flatten j ∧
    rowOf (S.scale a).unrollCot.flatten j = a * rowOf S.unrollCot.flatten j := by
  rw [unrollGd_scale, unrollCot_scale, ← List.map_flatten, rowOf_mapMul]
  exact ⟨rfl, rfl⟩

/-- The states of a shooting are near each other: descriptors alike, momenta opposite. -/
def Mfd.Opposite (N : Nat) (ε : ℝ) (S S' : Mfd d) : Prop :=
  ∀ j < N, |rowOf S'.unrollGd.flatten j - rowOf S.unrollGd.flatten j| ≤ ε ∧ |rowOf S'.unrollCot.flatten j + rowOf S.unrollCot.flatten j| ≤ ε

/-- **C122.** Let shooting follow a solution of Hamilton's equations along which geodesic controls exist. Shoot with enough steps, turn the
momenta of the modules round, whatever controls they hold, and shoot again: the second shooting returns and goes back through the states of the first, up to a constant over the
power of the number of steps that belongs to the method. -/
theorem C122_back {ms : List (DefModule d)} (s : Solver) (hs : (DefModule.compound ms).Smooth (s.order + 1 : Nat)) (hp : PlainMembers ms)
    (hn : 0 < numCoords (.compound ms)) {T : ℝ} (hT : 0 < T) {q p : ℝ → Row}
    (hc : HamiltonCurve (numCoords (.compound ms)) (ham (.compound ms)) T q p)
    (h0 : ∀ j < numCoords (.compound ms), q 0 j = gdRow (.compound ms) j ∧ p 0 j = cotRow (.compound ms) j)
    (hok : ∀ t ∈ Icc 0 T, ∃ m', Hamiltonian.geodesicControls (rowsMod (.compound ms) (q t, p t)) = .ok m') :
    ∃ (C : ℝ) (n₀ : Nat), ∀ it : Nat, it ≥ n₀ → it ≠ 0 → ∃ r, shoot (.fixed s) it T none (.compound ms) = .ok r ∧
      ∀ ms', (DefModule.compound ms').reset = (r.1.module.scale (-1)).reset → ∃ r', shoot (.fixed s) it T none (.compound ms') = .ok r' ∧
        r'.1.states.length = it + 1 ∧
        ∀ k ≤ it, ∃ S S', r.1.states[k]? = some S ∧ r'.1.states[it - k]? = some S' ∧ S.Opposite (numCoords (.compound ms)) (C / it ^ s.order) S' := by
  set m := DefModule.compound ms with hm
  obtain ⟨C, n₀, h⟩ := C102_order s hs hp hn hT hc h0 hok
  have hok' : ∀ t ∈ Icc 0 T, ∃ m', Hamiltonian.geodesicControls (rowsMod m (finRows (entries (numCoords m) (q t, p t)))) = .ok m' := fun t ht => by
    rw [rowsMod_entries]; exact hok t ht
  have hb : ∀ t ∈ Icc 0 T, T - t ∈ Icc 0 T := fun t ht => ⟨by linarith [ht.2], by linarith [ht.1]⟩
  obtain ⟨C', n₁, h'⟩ := orbit_order_from (X := fun y => (rhsV m y).map fun k => -k) hT hc.solves.back s
    (fun t ht => ((hamField_contDiffAt (k := s.order) hs (by push_cast; exact le_rfl) (hok' _ (hb t ht))).1).neg)
    (fun t ht => by
      filter_upwards [(hamField_contDiffAt (k := s.order) hs (by push_cast; exact le_rfl) (hok' _ (hb t ht))).2] with y hy
      rw [hy]; rfl) (le_max_right C 0)
  refine ⟨C' + C, max n₀ n₁, fun it hit hne => ?_⟩
  have hpos : (0 : ℝ) < it := by exact_mod_cast Nat.pos_of_ne_zero hne
  obtain ⟨r, h1, h2, h3⟩ := h it (le_of_max_le_left hit) hne
  obtain ⟨xs, k1, k2, k3, -⟩ := shoot_ok hp hn h1
  have klen := (orbit_steps k1).1
  have hrow : ∀ (x : Row × Row) (j : Nat), j < numCoords m → rowOf (rowsMod m x).manifold.unrollGd.flatten j = x.1 j ∧
      rowOf (rowsMod m x).manifold.unrollCot.flatten j = x.2 j := fun x j hj => by
    have e1 := congrFun (gdRow_rowsMod m x) j
    have e2 := congrFun (cotRow_rowsMod m x) j
    rw [cut_of_lt hj] at e1 e2
    exact ⟨e1, e2⟩
  have hx : ∀ k ≤ it, ∃ x, xs[k]? = some x ∧ r.states[k]? = some (rowsMod m x).manifold ∧
      ∀ j < numCoords m, |x.1 j - q (T * k / it) j| ≤ C / it ^ s.order ∧ |x.2 j - p (T * k / it) j| ≤ C / it ^ s.order := fun k hk => by
    obtain ⟨x, hx⟩ : ∃ x, xs[k]? = some x := ⟨_, List.getElem?_eq_getElem (by omega)⟩
    have e : r.states[k]? = some (rowsMod m x).manifold := by rw [k2, List.getElem?_map, hx]; rfl
    obtain ⟨S, e1, e2⟩ := h3 k hk
    rw [e] at e1
    obtain rfl := Option.some.inj e1
    refine ⟨x, hx, e, fun j hj => ?_⟩
    have := e2 j hj
    rwa [(hrow x j hj).1, (hrow x j hj).2] at this
  obtain ⟨y, y1, -, y3⟩ := hx it le_rfl
  have hlast : xs.getLastD (gdRow m, cotRow m) = y := by
    rw [List.getLastD_eq_getLast?, List.getLast?_eq_getElem?, klen, Nat.add_sub_cancel, y1]; rfl
  rw [hlast] at k3
  have hCn : 0 ≤ C / (it : ℝ) ^ s.order := (abs_nonneg _).trans (y3 0 hn).1
  have hy0 : ‖entries (numCoords m) y - entries (numCoords m) (q (T - 0), p (T - 0))‖ ≤ max C 0 / it ^ s.order := by
    have e : T * (it : ℝ) / it = T - 0 := by rw [sub_zero, mul_div_assoc, div_self hpos.ne', mul_one]
    rw [e] at y3
    refine le_trans ?_ (div_le_div_of_nonneg_right (le_max_left C 0) (by positivity))
    rw [Prod.norm_def, max_le_iff, pi_norm_le_iff_of_nonneg hCn, pi_norm_le_iff_of_nonneg hCn]
    exact ⟨fun j => (y3 j j.2).1, fun j => (y3 j j.2).2⟩
  obtain ⟨l, hl, hall⟩ := h' it (le_of_max_le_right hit) hne _ hy0
  obtain ⟨msy, c1, c2, c3⟩ : ∃ msy, rowsMod m y = .compound msy ∧ PlainMembers msy ∧ numCoords (.compound msy) = numCoords m := by
    refine ⟨_, rowsMod_compound _ _, plainMembers_withCot _ _ (plainMembers_withGd _ _ hp), ?_⟩
    rw [← rowsMod_compound, numCoords_rowsMod]
  have hrhs : rhs (.compound msy) = rhs m := by
    rw [← c1]; funext x
    unfold rhs evalAt hamVec
    rw [rowsMod_rowsMod]
  have hl' : (orbit s (rhs (.compound msy)) (-T) it (gdRow (.compound msy), cotRow (.compound msy))).map (List.map (entries (numCoords m))) = .ok l := by
    rw [hrhs, orbit_entries, orbit_neg, ← hl]
    congr 1
    rw [← c1, gdRow_rowsMod, cotRow_rowsMod]
    exact Prod.ext (funext fun j => cut_of_lt j.2) (funext fun j => cut_of_lt j.2)
  refine ⟨(r, some r.costs), by unfold shoot shootOde; dsimp only; rw [h1], fun ms' hms' => ?_⟩
  have hreset : ((DefModule.compound msy).scale (-1)).reset = (DefModule.compound ms').reset := by
    rw [hms', ← c1]
    show _ = (r.module.scale (-1)).reset
    rw [← reset_scale, ← k3, reset_scale]
  have := shoot_cases c2 (by rw [c3]; exact hn) s it (-T)
  cases ho : orbit s (rhs (.compound msy)) (-T) it (gdRow (.compound msy), cotRow (.compound msy)) with
  | error e => rw [ho] at hl'; cases hl'
  | ok zs =>
    rw [ho] at hl' this
    obtain rfl : zs.map (entries (numCoords m)) = l := Except.ok.inj hl'
    obtain ⟨g, -, -, g3⟩ := this
    have g4 := shootMoments_scale (-1) (by norm_num) msy s it T
    rw [neg_one_mul, g3, DefModule.scale] at g4
    rw [DefModule.scale] at hreset
    have g5 := shootMoments_of_reset hreset s hne T g4
    refine ⟨(_, some _), by unfold shoot shootOde; dsimp only; rw [g5], ?_, fun k hk => ?_⟩
    · simp [Shot.scale, (orbit_steps ho).1]
    obtain ⟨x, -, e2, e3⟩ := hx k hk
    obtain ⟨w, w1, w2⟩ := hall (it - k) (by omega)
    rw [List.getElem?_map] at w1
    cases hz : zs[it - k]? with
    | none => rw [hz] at w1; cases w1
    | some z =>
      rw [hz] at w1
      obtain rfl : entries (numCoords m) z = w := Option.some.inj w1
      refine ⟨_, ((rowsMod m z).manifold).scale (-1), e2, ?_, fun j hj => ?_⟩
      · simp only [Shot.scale, List.getElem?_map, hz, Option.map_some]
        rw [← c1, rowsMod_rowsMod]
      · have et : T - gridTime T it (it - k) = T * k / it := by
          unfold gridTime
          rw [Nat.cast_sub hk]; field_simp; ring
        rw [et] at w2
        have w3 := entries_le w2 j hj
        have e4 := e3 j hj
        rw [(rowOf_scale (-1) _ j).1, (rowOf_scale (-1) _ j).2, (hrow z j hj).1, (hrow z j hj).2, (hrow x j hj).1, (hrow x j hj).2, add_div]
        constructor
        · calc |z.1 j - x.1 j| = |(z.1 j - q (T * k / it) j) - (x.1 j - q (T * k / it) j)| := by congr 1; ring
            _ ≤ _ := (abs_sub _ _).trans (add_le_add w3.1 e4.1)
        · calc |-1 * z.2 j + x.2 j| = |(x.2 j - p (T * k / it) j) - (z.2 j - p (T * k / it) j)| := by congr 1; ring
            _ ≤ _ := (abs_sub _ _).trans (by linarith [w3.2, e4.2])

/-- Points attracted by points in the plane, beside shapes that are carried along, satisfy all hypotheses for some time; the modules the first
shooting left, with their momenta negated, are an instance of what the second one may start from. -/
example {k l : Nat} (D : Implicit0 2 l) (hν : 0 < D.ν) (hc : 0 < D.coeff) (x p : Fin (k + 1) → Vec 2) :
    ∃ T > 0, ∃ (C : ℝ) (n₀ : Nat), ∀ it : Nat, it ≥ n₀ → it ≠ 0 → ∃ r ms' r',
      shoot (.fixed .rk4) it T none (.compound [.implicit0 D, .silent (.landmarks x p)]) = .ok r ∧ r.1.module.scale (-1) = .compound ms' ∧
      shoot (.fixed .rk4) it T none (r.1.module.scale (-1)) = .ok r' ∧
      ∃ S S', r.1.states[0]? = some S ∧ r'.1.states[it]? = some S' ∧
        S.Opposite (numCoords (.compound [.implicit0 D, .silent (.landmarks x p)])) (C / it ^ 4) S' := by
  have hr : (DefModule.compound [.implicit0 D, .silent (.landmarks x p)]).Regular := by
    simp [DefModule.Regular, DefModule.AllRegular, Mfd.NoEmptyCompound, Mfd.NoDirections, hν, hc]
  obtain ⟨T, q, p', hT, h1, h2, h3⟩ := C80_exists (hr.smooth 2) (by
    obtain ⟨m', h⟩ := regular_evalAt hr (gdRow _, cotRow _)
    exact evalAt_geodesic h)
  obtain ⟨C, n₀, h⟩ := C122_back .rk4 (hr.smooth _)
    (by simp [PlainMembers, DefModule.manifolds, DefModule.manifold, Implicit0.manifold, Mfd.Plain, Mfd.hasShapeGd])
    (by simp [numCoords, DefModule.manifolds, DefModule.manifold, Implicit0.manifold, Mfd.unrollGd, Mfd.unrollGdAll, length_flatVecs]) hT h1 h2 h3
  refine ⟨T, hT, C, n₀, fun it hit hne => ?_⟩
  obtain ⟨r, k1, k2⟩ := h it hit hne
  obtain ⟨L, hL, -⟩ := same_compound (shoot_same (r := r) k1)
  have e : r.1.module.scale (-1) = .compound (DefModule.scaleAll (-1) L) := by rw [hL, DefModule.scale]
  obtain ⟨r', k3, -, k4⟩ := k2 (DefModule.scaleAll (-1) L) (by rw [e])
  obtain ⟨S, S', s1, s2, s3⟩ := k4 0 (Nat.zero_le _)
  exact ⟨r, _, r', k1, e, by rw [e]; exact k3, S, S', s1, s2, s3⟩

end
end Imodal
