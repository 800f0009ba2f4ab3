import Verif.Props.C91
import Verif.Props.C102
import Mathlib.Analysis.Calculus.MeanValue
/-!
# C91: the cost bounds the displacement along geodesics, and for all methods in the limit
-/
set_option autoImplicit false
namespace Imodal
noncomputable section
open Set
variable {d : Nat}

/-- The cost of the geodesic controls bounds the velocities of the points. -/
theorem rhs_slow {m : DefModule d} (hw : m.PositiveWeights) (hl : m.NoLinear) {x y : Row × Row} {a : ℝ} (ha : GeodesicCostAt m x a)
    (h : rhs m x = .ok y) {i n : Nat} {x₀ : Fin n → Vec d} (hx : m.manifold.At i x₀) (p : Fin n) :
    ∑ b, block (d := d) (n := n) (m.manifold.off i) y.1 p b ^ 2 ≤ 2 * m.mobility * a := by
  obtain ⟨m', hg, hc⟩ := ha
  obtain ⟨m1, f, w, h1, h2, h3, h4⟩ := C70_rhs h
  rw [hg] at h1
  obtain rfl := Except.ok.inj h1
  obtain ⟨c, hf⟩ : ∃ c, ((m.withGd x.1 0).fillControls c) = .ok (m'.withCot (cotRow (m.withGd x.1 0)) 0) := by
    have := geodesic_fill _ _ hg
    have q := fill_withCot (cotRow (m.withGd x.1 0)) (rowsMod m x) 0 m'.controls
    rw [this, rowsMod, DefModule.withCot_withCot, DefModule.withCot_cotRow] at q
    exact ⟨_, q⟩
  obtain ⟨f', a', q1, q2, q3, -, -, -, q4⟩ := says_fill _ (positive_withGd x.1 m 0 hw) hf
  rw [field_withCot, h2] at q1
  rw [cost_withCot, hc] at q2
  obtain rfl := Except.ok.inj q1
  obtain rfl := Except.ok.inj q2
  have e : (rowsMod m x).manifold.off i = m.manifold.off i := by
    rw [rowsMod, DefModule.manifold_withCot, DefModule.manifold_withGd, ((hx.withGd _).1.withCot _).2, (hx.withGd _).2]
  have := (At_rowsMod hx x).action h3
  rw [e, q3.values, ← h4] at this
  rw [← Except.ok.inj this]
  have := q4 (noLinear_withGd x.1 m 0 hl)
  rw [mobility_withGd] at this
  exact this _

/-- A path whose speed is at most `c` moves at most `c` times the elapsed time. -/
theorem path_le {d : Nat} {X V : ℝ → Vec d} {T B : ℝ} (hX : ∀ t ∈ Icc 0 T, ∀ b, HasDerivWithinAt (fun u => X u b) (V t b) (Icc 0 T) t)
    (hV : ∀ t ∈ Icc 0 T, ∑ b, V t b ^ 2 ≤ B) {t : ℝ} (ht : t ∈ Icc 0 T) : ∑ b, (X t b - X 0 b) ^ 2 ≤ t ^ 2 * B := by
  have hsub : Icc 0 t ⊆ Icc 0 T := Icc_subset_Icc_right ht.2
  have hB : 0 ≤ B := (Finset.sum_nonneg fun b _ => sq_nonneg _).trans (hV t ht)
  set S := ∑ b, (X t b - X 0 b) ^ 2 with hS
  have hS0 : 0 ≤ S := Finset.sum_nonneg fun b _ => sq_nonneg _
  have h1 : ∀ u ∈ Icc 0 t, HasDerivWithinAt (fun u => ∑ b, (X t b - X 0 b) * X u b) (∑ b, (X t b - X 0 b) * V u b) (Icc 0 t) u := fun u hu =>
    HasDerivWithinAt.fun_sum fun b _ => ((hX u (hsub hu) b).mono hsub).const_mul _
  have h2 : ∀ u ∈ Icc 0 t, ‖∑ b, (X t b - X 0 b) * V u b‖ ≤ √(S * B) := fun u hu => by
    rw [Real.norm_eq_abs]
    refine Real.abs_le_sqrt ((Finset.sum_mul_sq_le_sq_mul_sq _ _ _).trans ?_)
    exact mul_le_mul_of_nonneg_left (hV u (hsub hu)) hS0
  have h3 := (convex_Icc 0 t).norm_image_sub_le_of_norm_hasDerivWithin_le h1 h2 (left_mem_Icc.2 ht.1) (right_mem_Icc.2 ht.1)
  have e : (∑ b, (X t b - X 0 b) * X t b) - ∑ b, (X t b - X 0 b) * X 0 b = S := by
    rw [← Finset.sum_sub_distrib, hS]
    exact Finset.sum_congr rfl fun b _ => by ring
  rw [e, Real.norm_of_nonneg hS0, sub_zero, Real.norm_of_nonneg ht.1] at h3
  have h4 : S ^ 2 ≤ S * B * t ^ 2 := by
    calc S ^ 2 ≤ (√(S * B) * t) ^ 2 := pow_le_pow_left₀ hS0 h3 2
      _ = S * B * t ^ 2 := by rw [mul_pow, Real.sq_sqrt (mul_nonneg hS0 hB)]
  rcases hS0.eq_or_lt with h | h
  · rw [← h]; positivity
  · have : S * S ≤ S * (t ^ 2 * B) := by nlinarith
    exact le_of_mul_le_mul_left this h

theorem off_lt {M : Mfd d} {i n : Nat} {x : Fin n → Vec d} (h : M.At i x) (p : Fin n) (b : Fin d) : M.off i + (p * d + b) < M.size := by
  obtain ⟨l₁, l₂, cot, rfl, hi⟩ := h
  have hs : ∀ l₁ l₂ : List (Mfd d), Mfd.sizeAll (l₁ ++ l₂) = Mfd.sizeAll l₁ + Mfd.sizeAll l₂ := fun l₁ l₂ => by
    induction l₁ with
    | nil => simp [Mfd.sizeAll]
    | cons m l ih => rw [List.cons_append, Mfd.sizeAll, Mfd.sizeAll, ih, Nat.add_assoc]
  rw [Mfd.At.off_eq hi, Mfd.size, hs, Mfd.sizeAll, Mfd.size]
  have h1 : (p : Nat) * d + b < n * d := by
    calc (p : Nat) * d + b < p * d + d := by omega
      _ = (p + 1) * d := by ring
      _ ≤ n * d := Nat.mul_le_mul_right d p.2
  omega

section
variable {m : DefModule d} {T : ℝ} {q p : ℝ → Row}

/-- **C91 along geodesics.** Let `(q, p)` follow Hamilton's equations. Until time `t` a carried point moves
by at most `t` times the root of twice the initial energy times the sum of the inverse coefficients. -/
theorem C91_curve (hw : m.PositiveWeights) (hl : m.NoLinear) (hs : m.Smooth 1) (hc : HamiltonCurve (numCoords m) (ham m) T q p)
    (hok : ∀ t ∈ Icc 0 T, ∃ m', Hamiltonian.geodesicControls (rowsMod m (q t, p t)) = .ok m')
    {i n : Nat} {x : Fin n → Vec d} (hx : m.manifold.At i x) (k : Fin n) {t : ℝ} (ht : t ∈ Icc 0 T) :
    ∑ b, (block (d := d) (n := n) (m.manifold.off i) (q t) k b - block (d := d) (n := n) (m.manifold.off i) (q 0) k b) ^ 2
      ≤ t ^ 2 * (2 * m.mobility * ham m (q 0) (p 0)) := by
  refine path_le (X := fun t => block (d := d) (n := n) (m.manifold.off i) (q t) k)
    (V := fun t => block (d := d) (n := n) (m.manifold.off i) (partialP (ham m) (q t) (p t)) k) (fun u hu b => ?_) (fun u hu => ?_) ht
  · exact hc.gd u hu _ (by rw [numCoords_eq]; exact off_lt hx k b)
  · obtain ⟨m', hm'⟩ := hok u hu
    obtain ⟨H, -, hH, -⟩ := value_is_cost (nonneg_rowsMod (positive_nonneg m hw) (q u, p u)) hm'
    have ha : GeodesicCostAt m (q u, p u) H := ⟨m', hm', hH⟩
    have hv := (hamField_contDiffAt (k := 0) hs (by simp) (v := entries (numCoords m) (q u, p u))
      (by rw [rowsMod_entries]; exact ⟨m', hm'⟩)).2.self_of_nhds
    rw [rhsV_entries] at hv
    obtain ⟨y, hy, hye⟩ := map_eq_ok hv
    have e : ∀ b, block (d := d) (n := n) (m.manifold.off i) (partialP (ham m) (q u) (p u)) k b = block (d := d) (n := n) (m.manifold.off i) y.1 k b := fun b => by
      have hj : m.manifold.off i + (k * d + b) < numCoords m := by rw [numCoords_eq]; exact off_lt hx k b
      have h1 : y.1 (m.manifold.off i + (k * d + b)) = (hamField m (entries (numCoords m) (q u, p u))).1 ⟨_, hj⟩ := by rw [← hye]; rfl
      show partialP (ham m) (q u) (p u) (m.manifold.off i + (k * d + b)) = y.1 (m.manifold.off i + (k * d + b))
      rw [h1, hamField_eq]
      exact ((partials_congr (ham_reads m) (q := (finRows (entries (numCoords m) (q u, p u))).1) (q' := q u)
        (p := (finRows (entries (numCoords m) (q u, p u))).2) (p' := p u) (fun j hj => extRow_lt _ hj) fun j hj => extRow_lt _ hj).2 _ hj).symm
    have h2 := rhs_slow hw hl ha hy hx k
    rw [← ham_cost (positive_nonneg m hw) ha, show ham m (q u, p u).1 (q u, p u).2 = ham m (q u) (p u) from rfl, C81_energy hs hc hok u hu] at h2
    simpa only [e] using h2
end

theorem near_sq {B ε c : ℝ} {x y z : Vec d} (hB : 0 ≤ B) (h : ∑ b, (z b - x b) ^ 2 ≤ B) (hy : ∀ b, |y b - z b| ≤ ε) (hε : ε ≤ c) :
    ∑ b, (y b - x b) ^ 2 ≤ B + d * (2 * √B + c) * ε := by
  have h1 : ∀ b, (y b - x b) ^ 2 ≤ (z b - x b) ^ 2 + (2 * √B + c) * ε := fun b => by
    have hz : |z b - x b| ≤ √B := Real.abs_le_sqrt ((Finset.single_le_sum (f := fun b => (z b - x b) ^ 2) (fun b _ => sq_nonneg _) (Finset.mem_univ b)).trans h)
    have h0 := hy b
    have hε0 : 0 ≤ ε := (abs_nonneg _).trans h0
    have e : (y b - x b) ^ 2 = (z b - x b) ^ 2 + 2 * ((z b - x b) * (y b - z b)) + (y b - z b) ^ 2 := by ring
    have h2 : (z b - x b) * (y b - z b) ≤ √B * ε := by
      refine (le_abs_self _).trans ?_
      rw [abs_mul]
      exact mul_le_mul hz h0 (abs_nonneg _) (Real.sqrt_nonneg _)
    have h3 : (y b - z b) ^ 2 ≤ ε * c := by
      rw [← sq_abs, sq]
      exact mul_le_mul h0 (h0.trans hε) (abs_nonneg _) hε0
    rw [e]
    nlinarith
  calc ∑ b, (y b - x b) ^ 2 ≤ ∑ b, ((z b - x b) ^ 2 + (2 * √B + c) * ε) := Finset.sum_le_sum fun b _ => h1 b
    _ = ∑ b, (z b - x b) ^ 2 + d * (2 * √B + c) * ε := by
        rw [Finset.sum_add_distrib, Finset.sum_const, Finset.card_univ, Fintype.card_fin, nsmul_eq_mul, mul_assoc]
    _ ≤ _ := by linarith

/-- The first recorded cost is the initial energy. -/
theorem first_cost {ms : List (DefModule d)} (hw : (DefModule.compound ms).NonnegWeights) {s : Solver} {it : Nat} (hit : it ≠ 0) {t1 : ℝ} {r : Shot d}
    (h : shootMoments s it t1 (.compound ms) = .ok r) :
    r.costs[0]? = some (ham (.compound ms) (gdRow (.compound ms)) (cotRow (.compound ms))) := by
  obtain ⟨hp, hn⟩ := shoot_plain h
  obtain ⟨xs, h1, h2, h3, g, h4, h5, h6⟩ := shoot_ok hp hn h
  obtain ⟨a, cs, b, c, e⟩ := (clocked_moments ms t1 it).odeint (inv_init hp) h4
  obtain ⟨x, n, u, e1, e2, e3, e4⟩ := e 0 (Nat.pos_of_ne_zero hit)
  have hx := (e3 (Or.inr rfl)).1
  rw [(orbit_steps h1).2.1] at hx
  obtain rfl := Option.some.inj hx
  rw [ham_cost hw e2, h5, b]
  simpa [GradObj.init] using e1

/-- **C91 for every method, in the limit.** Shooting from momenta moves the carried points by at most what the
first recorded cost says, up to a constant over the power of the number of steps that belongs to the method. -/
theorem C91_limit {ms : List (DefModule d)} (s : Solver) (hs : (DefModule.compound ms).Smooth (s.order + 1 : Nat)) (hp : PlainMembers ms)
    (hn : 0 < numCoords (.compound ms)) (hw : (DefModule.compound ms).PositiveWeights) (hl : (DefModule.compound ms).NoLinear)
    {T : ℝ} (hT : 0 < T) {q p : ℝ → Row} (hc : HamiltonCurve (numCoords (.compound ms)) (ham (.compound ms)) T q p)
    (h0 : ∀ j < numCoords (.compound ms), q 0 j = gdRow (.compound ms) j ∧ p 0 j = cotRow (.compound ms) j)
    (hok : ∀ t ∈ Icc 0 T, ∃ m', Hamiltonian.geodesicControls (rowsMod (.compound ms) (q t, p t)) = .ok m') :
    ∃ C n₀, ∀ it ≥ n₀, it ≠ 0 → ∃ r a, shootMoments s it T (.compound ms) = .ok r ∧ r.costs[0]? = some a ∧
      ∀ (i n : Nat) (x : Fin n → Vec d), (DefModule.compound ms).manifold.At i x → ∃ y : Fin n → Vec d, r.module.manifold.At i y ∧
        ∀ k, ∑ b, (y k b - x k b) ^ 2 ≤ 2 * (DefModule.compound ms).mobility * T ^ 2 * a + C / it ^ s.order := by
  obtain ⟨C, n₀, h⟩ := C102_order s hs hp hn hT hc h0 hok
  set m := DefModule.compound ms with hm
  set a := ham m (gdRow m) (cotRow m) with ha
  have hs1 : m.Smooth 1 := smooth_of_le (one_le_order s) hs
  have e0 : ham m (q 0) (p 0) = a := ham_reads m (fun j hj => (h0 j hj).1) fun j hj => (h0 j hj).2
  refine ⟨d * (2 * √(T ^ 2 * (2 * m.mobility * a)) + C) * C, n₀, fun it hit hne => ?_⟩
  obtain ⟨r, h1, h2, h3⟩ := h it hit hne
  refine ⟨r, a, h1, first_cost (positive_nonneg _ hw) hne h1, fun i n x hx => ?_⟩
  obtain ⟨xs, g1, g2, g3, -⟩ := shoot_ok hp hn h1
  have hlen := (orbit_steps g1).1
  obtain ⟨z, hz⟩ : ∃ z, xs[it]? = some z := ⟨_, List.getElem?_eq_getElem (by omega)⟩
  have hlast : xs.getLastD (gdRow m, cotRow m) = z := by
    rw [List.getLastD_eq_getLast?, List.getLast?_eq_getElem?, hlen, Nat.add_sub_cancel, hz]; rfl
  rw [hlast] at g3
  refine ⟨block (n := n) (m.manifold.off i) z.1, ?_, fun k => ?_⟩
  · rw [manifold_of_reset g3]; exact At_rowsMod hx z
  obtain ⟨S, hS, hSw⟩ := h3 it le_rfl
  have hpos : (0 : ℝ) < it := by exact_mod_cast Nat.pos_of_ne_zero hne
  have hTT : T * it / it = T := by field_simp
  rw [hTT] at hSw
  rw [g2, List.getElem?_map, hz] at hS
  obtain rfl := Option.some.inj hS
  have hent : ∀ j < numCoords m, |z.1 j - q T j| ≤ C / it ^ s.order := fun j hj => by
    have e1 : rowOf (rowsMod m z).manifold.unrollGd.flatten j = z.1 j := by
      have := congrFun (gdRow_rowsMod m z) j
      rw [cut_of_lt hj] at this; exact this
    rw [← e1]; exact (hSw j hj).1
  have hC : 0 ≤ C / it ^ s.order := (abs_nonneg _).trans (hent 0 hn)
  have hC0 : 0 ≤ C := by
    have := mul_nonneg hC (by positivity : (0 : ℝ) ≤ (it : ℝ) ^ s.order)
    rwa [div_mul_cancel₀ _ (by positivity)] at this
  have hle : C / (it : ℝ) ^ s.order ≤ C := div_le_self hC0 (one_le_pow₀ (by exact_mod_cast Nat.pos_of_ne_zero hne))
  have hcurve := C91_curve hw hl hs1 hc hok hx k (right_mem_Icc.2 hT.le)
  rw [e0] at hcurve
  have hq0 : ∀ b, block (d := d) (n := n) (m.manifold.off i) (q 0) k b = x k b := fun b => by
    have hj : m.manifold.off i + (k * d + b) < numCoords m := by rw [numCoords_eq]; exact off_lt hx k b
    have := congrFun (congrFun hx.row k) b
    rw [← this]
    exact (h0 _ hj).1
  simp only [hq0] at hcurve
  have hB : 0 ≤ T ^ 2 * (2 * m.mobility * a) := (Finset.sum_nonneg fun b _ => sq_nonneg _).trans hcurve
  have := near_sq hB hcurve (y := block (d := d) (n := n) (m.manifold.off i) z.1 k) (fun b => by
    have hj : m.manifold.off i + (k * d + b) < numCoords m := by rw [numCoords_eq]; exact off_lt hx k b
    exact hent _ hj) hle
  refine this.trans (le_of_eq ?_)
  ring

/-- Points attracted by points in the plane, beside a shape that is carried along, satisfy all hypotheses for some time, and the shape is at place `1`. -/
example {k l : Nat} (D : Implicit0 2 l) (hν : 0 < D.ν) (hc : 0 < D.coeff) (x p : Fin (k + 1) → Vec 2) :
    ∃ T > 0, ∃ C n₀, ∀ it ≥ n₀, it ≠ 0 → ∃ r a, shootMoments .rk4 it T (.compound [.implicit0 D, .silent (.landmarks x p)]) = .ok r ∧
      r.costs[0]? = some a ∧ ∃ y : Fin (k + 1) → Vec 2, r.module.manifold.At 1 y ∧
        ∀ j, ∑ b, (y j b - x j b) ^ 2 ≤ 2 * (1 / D.coeff) * T ^ 2 * a + C / it ^ 4 := by
  have hr : (DefModule.compound [.implicit0 D, .silent (.landmarks x p)]).Regular := by
    simp [DefModule.Regular, DefModule.AllRegular, Mfd.NoEmptyCompound, Mfd.NoDirections, hν, hc]
  obtain ⟨T, q, p', hT, h1, h2, h3⟩ := C80_exists (hr.smooth 2) (by
    obtain ⟨m', h⟩ := regular_evalAt hr (gdRow _, cotRow _)
    exact evalAt_geodesic h)
  obtain ⟨C, n₀, h⟩ := C91_limit .rk4 (hr.smooth _) (ms := [.implicit0 D, .silent (.landmarks x p)])
    (by simp [PlainMembers, DefModule.manifolds, DefModule.manifold, Implicit0.manifold, Mfd.Plain, Mfd.hasShapeGd])
    (by simp [numCoords, DefModule.manifolds, DefModule.manifold, Implicit0.manifold, Mfd.unrollGd, Mfd.unrollGdAll, length_flatVecs])
    (by simp [DefModule.PositiveWeights, DefModule.AllPositiveWeights, hν.le, hc]) (by simp [DefModule.NoLinear, DefModule.AllNoLinear]) hT h1 h2 h3
  refine ⟨T, hT, C, n₀, fun it hit hne => ?_⟩
  obtain ⟨r, a, e1, e2, e3⟩ := h it hit hne
  obtain ⟨y, e4, e5⟩ := e3 1 (k + 1) x ⟨[Mfd.landmarks D.gd D.cot], [], p, by simp [DefModule.manifold, DefModule.manifolds, Implicit0.manifold], rfl⟩
  refine ⟨r, a, e1, e2, y, e4, fun j => ?_⟩
  simpa [DefModule.mobility, DefModule.mobilities, Solver.order] using e5 j

end
end Imodal
