import Verif.Props.C105
import Verif.Lemmas.Probe
import Mathlib.Analysis.Calculus.ContDiff.Operations
import Mathlib.Topology.MetricSpace.Contracting
/-!
# C120: the deformation is a diffeomorphism of space
-/
set_option autoImplicit false
namespace Imodal
noncomputable section
open Set Spec
variable {d : Nat}

/-! ### One step -/

/-- A map that moves points by a contraction reaches every point. -/
theorem step_surjective {V : Vec d → Vec d} {K h : ℝ} (hV : ∀ x y, euclid (V x) (V y) ≤ K * euclid x y) (hK : |h| * K < 1) :
    Function.Surjective fun x : Vec d => x + h • V x := by
  intro y
  let g : EuclideanSpace ℝ (Fin d) → EuclideanSpace ℝ (Fin d) := fun x => WithLp.toLp 2 (y - h • V (WithLp.ofLp x))
  have hg : ∀ a b, dist (g a) (g b) ≤ |h| * K * dist a b := fun a b => by
    have h1 := hV (WithLp.ofLp a) (WithLp.ofLp b)
    have h2 : dist (g a) (g b) = |h| * euclid (V (WithLp.ofLp a)) (V (WithLp.ofLp b)) := by
      unfold euclid
      rw [dist_eq_norm, dist_comm, dist_eq_norm, ← Real.norm_eq_abs h, ← norm_smul]
      congr 1
      ext b
      simp [g]
      ring
    rw [h2, mul_assoc]
    exact mul_le_mul_of_nonneg_left h1 (abs_nonneg _)
  have hc : ContractingWith (Real.toNNReal (|h| * K)) g := by
    refine ⟨?_, LipschitzWith.of_dist_le_mul fun a b => (hg a b).trans ?_⟩
    · rw [← NNReal.coe_lt_coe, Real.coe_toNNReal', NNReal.coe_one]
      exact max_lt hK one_pos
    · exact mul_le_mul_of_nonneg_right (Real.le_coe_toNNReal _) dist_nonneg
  have hfix := hc.fixedPoint_isFixedPt
  refine ⟨WithLp.ofLp (hc.fixedPoint g), ?_⟩
  have e : y - h • V (WithLp.ofLp (hc.fixedPoint g)) = WithLp.ofLp (hc.fixedPoint g) := congrArg WithLp.ofLp hfix
  show WithLp.ofLp (hc.fixedPoint g) + h • V (WithLp.ofLp (hc.fixedPoint g)) = y
  nth_rewrite 1 [← e]
  rw [sub_add_cancel]

/-- Steps of duration `h` along the fields `V 0`, `V 1`, …. -/
def spaceMap (h : ℝ) (V : Nat → Vec d → Vec d) : Nat → Vec d → Vec d
  | 0, x => x
  | l + 1, x => spaceMap h V l x + h • V l (spaceMap h V l x)

theorem spaceMap_surjective {h : ℝ} {V : Nat → Vec d → Vec d} {K : Nat → ℝ} (l : Nat)
    (hV : ∀ k < l, (∀ x y, euclid (V k x) (V k y) ≤ K k * euclid x y) ∧ |h| * K k < 1) :
    Function.Surjective (spaceMap h V l) := by
  induction l with
  | zero => exact fun y => ⟨y, rfl⟩
  | succ l ih =>
    have h1 := step_surjective (hV l (Nat.lt_succ_self _)).1 (hV l (Nat.lt_succ_self _)).2
    exact h1.comp (ih fun k hk => hV k (by omega))

theorem spaceMap_contDiff (n : WithTop ℕ∞) (h : ℝ) {V : Nat → Vec d → Vec d} (hV : ∀ k, ContDiff ℝ n (V k)) (l : Nat) :
    ContDiff ℝ n (spaceMap h V l) := by
  induction l with
  | zero => exact contDiff_id
  | succ l ih => exact ih.add ((contDiff_const (c := h)).smul ((hV l).comp ih))

theorem spaceMap_det {h : ℝ} {V : Nat → Vec d → Vec d} {K : Nat → ℝ} (hd : ∀ k, ContDiff ℝ 1 (V k)) (l : Nat)
    (hV : ∀ k < l, (∀ x y, euclid (V k x) (V k y) ≤ K k * euclid x y) ∧ |h| * K k < 1) (x : Vec d) :
    0 < (fderiv ℝ (spaceMap h V l) x).det := by
  induction l with
  | zero =>
    have : fderiv ℝ (spaceMap h V 0) x = ContinuousLinearMap.id ℝ (Vec d) := (hasFDerivAt_id x).fderiv
    rw [this]
    exact lt_of_lt_of_eq one_pos LinearMap.det_id.symm
  | succ l ih =>
    have hV' : Differentiable ℝ (V l) := (hd l).differentiable one_ne_zero
    have h1 := det_step_pos (hV l (Nat.lt_succ_self _)).1 hV' (hV l (Nat.lt_succ_self _)).2 (spaceMap h V l x)
    have h2 := ih fun k hk => hV k (by omega)
    have hg : DifferentiableAt ℝ (fun x : Vec d => x + h • V l x) (spaceMap h V l x) := differentiableAt_id.add ((hV' _).const_smul h)
    have hf : DifferentiableAt ℝ (spaceMap h V l) x := ((spaceMap_contDiff 1 h hd l).differentiable one_ne_zero) x
    have e : fderiv ℝ (spaceMap h V (l + 1)) x = (fderiv ℝ (fun x : Vec d => x + h • V l x) (spaceMap h V l x)).comp (fderiv ℝ (spaceMap h V l) x) :=
      (hg.hasFDerivAt.comp x hf.hasFDerivAt).fderiv
    rw [e]
    refine lt_of_lt_of_eq (mul_pos h1 h2) ?_
    exact (LinearMap.det_comp _ _).symm

/-! ### The steps of a call -/

/-- The cost bounds how fast the field changes from place to place. -/
theorem CtrlCostAt.flow {m : DefModule d} (hw : m.PositiveWeights) {c : Ctrl d} {x k : Row} {a : ℝ} (h : CtrlCostAt m c x a)
    {f : FieldExpr d} (hk : ctrlVel m c x = .ok (k, f)) (y z : Vec d) :
    euclid (fieldVal f y) (fieldVal f z) ≤ √(2 * m.stretch * a) * euclid y z := by
  obtain ⟨m', h1, h2⟩ := h
  obtain ⟨f', a', h3, e, h0, -, hr⟩ := steady_fill _ (positive_withGd x m 0 hw) h1
  rw [h2] at e
  obtain rfl := Except.ok.inj e
  obtain ⟨r, q1, q2⟩ := bind_eq_ok hk
  obtain ⟨f₂, q3, q4⟩ := map_eq_ok q2
  have := (ctrlEval_ok q1).1
  rw [h1] at this
  obtain rfl := Except.ok.inj this
  rw [h3] at q3
  obtain rfl := Except.ok.inj q3
  obtain rfl : f' = f := (Prod.ext_iff.1 q4).2
  refine euclid_le_of_sq ?_
  rw [← stretch_withGd x m 0]; exact hr y z

/-- The steps of a point under Euler's method, and the costs. -/
theorem euler_probe {ms : List (DefModule d)} {it : Nat} {t1 : ℝ} {controls : List (Ctrl d)} {r : Shot d}
    (h : shootControls .euler it t1 controls (.compound ms) = .ok r) : r.costs.length = it ∧ ∃ F : Nat → FieldExpr d,
      probe .euler it t1 controls (.compound ms) = spaceMap (t1 / it) (fun l => fieldVal (F l)) it ∧
      ∀ l < it, ∃ y k c a, r.costs[l]? = some a ∧ CtrlCostAt (.compound ms) c y a ∧ ctrlVel (.compound ms) c y = .ok (k, F l) := by
  obtain ⟨ht, xs, h1, h2, h3, hc, h4⟩ := shootC_parts h
  obtain ⟨q1, q2, q3⟩ := orbitWith_steps h1
  have key : ∀ l, ∃ f : FieldExpr d, l < it → ∃ y k c a, xs[l]? = some y ∧ xs[l + 1]? = some (y + (t1 / it) • k) ∧ r.costs[l]? = some a ∧
      pickControls controls it (tToIt t1 it (gridTime t1 it l)) l = .ok c ∧ CtrlCostAt (.compound ms) c y a ∧ ctrlVel (.compound ms) c y = .ok (k, f) := by
    intro l
    by_cases hl : l < it
    · obtain ⟨y, a, e1, ⟨c, e2, e3⟩, e4, -⟩ := h4 l hl
      have e5 := e4 (Or.inl (by decide))
      obtain ⟨y', y'', r1, r2, r3⟩ := q3 l hl
      rw [e5] at r1
      obtain rfl := Option.some.inj r1
      obtain ⟨k, r4, rfl⟩ := map_eq_ok r3
      obtain ⟨c', r5, r6⟩ := bind_eq_ok r4
      have hcc : costCall .euler l = l := by simp [costCall, Solver.stages]
      rw [hcc] at e2
      have r5' : pickControls controls it (tToIt t1 it (gridTime t1 it l)) l = .ok c' := by
        have : Solver.euler.stages * (0 + l) + 0 = l := by simp [Solver.stages]
        rw [this, Nat.zero_add] at r5
        exact r5
      have hcc' : c = c' := by rw [e2] at r5'; exact Except.ok.inj r5'
      subst hcc'
      obtain ⟨f, h7, -⟩ := ctrlRhs_vel r6
      exact ⟨f, fun _ => ⟨y, k, c, a, e5, r2, e1, e2, e3, h7⟩⟩
    · exact ⟨.sum [], fun h => absurd h hl⟩
  choose F hF using key
  refine ⟨hc, F, ?_, fun l hl => ?_⟩
  · funext x
    obtain ⟨l, hl⟩ := orbit_lift h1 x
    rw [probe_of_orbit hl]
    obtain ⟨p1, p2, p3⟩ := orbitWith_steps hl
    have hstep : ∀ j ≤ it, ∃ y, xs[j]? = some y ∧ l[j]? = some (y, spaceMap (t1 / it) (fun l => fieldVal (F l)) j x) := by
      intro j
      induction j with
      | zero => intro _; exact ⟨_, q2, p2⟩
      | succ j ih =>
        intro hj
        obtain ⟨y, i1, i2⟩ := ih (by omega)
        obtain ⟨y', k, c, a, f1, f2, -, f4, -, f6⟩ := hF j (by omega)
        rw [i1] at f1
        obtain rfl := Option.some.inj f1
        obtain ⟨z, z', s1, s2, s3⟩ := p3 j (by omega)
        rw [i2] at s1
        obtain rfl := Option.some.inj s1
        refine ⟨_, f2, ?_⟩
        rw [s2]
        have e : probeRhs (.compound ms) controls t1 it (Solver.euler.stageTime (gridTime t1 it (0 + j)) (gridTime t1 it (0 + j + 1)) 0)
            (Solver.euler.stages * (0 + j) + 0) (y, spaceMap (t1 / it) (fun l => fieldVal (F l)) j x)
            = .ok (k, fieldVal (F j) (spaceMap (t1 / it) (fun l => fieldVal (F l)) j x)) := by
          have e1 : Solver.euler.stages * (0 + j) + 0 = j := by simp [Solver.stages]
          unfold probeRhs
          rw [e1, Nat.zero_add]
          show ((pickControls controls it (tToIt t1 it (gridTime t1 it j)) j).bind _) = _
          rw [f4]
          show (ctrlVel _ c y).map _ = _
          rw [f6]
          rfl
        rw [stepWith] at s3

        rw [e] at s3
        obtain rfl := Except.ok.inj s3
        rfl
    obtain ⟨y, -, e2⟩ := hstep it le_rfl
    rw [List.getLastD_eq_getLast?, List.getLast?_eq_getElem?, p1, Nat.add_sub_cancel, e2]
    rfl
  · obtain ⟨y, k, c, a, -, -, f3, -, f5, f6⟩ := hF l hl
    exact ⟨y, k, c, a, f3, f5, f6⟩

/-- What the costs say about where points go. -/
theorem flow_controls {ms : List (DefModule d)} (hw : (DefModule.compound ms).PositiveWeights)
    {it : Nat} {t1 : ℝ} {controls : List (Ctrl d)} {r : Shot d} (h : shootControls .euler it t1 controls (.compound ms) = .ok r) :
    (∀ x x', KeptApart (DefModule.compound ms).stretch (t1 / it) r.costs x x' (probe .euler it t1 controls (.compound ms) x)
      (probe .euler it t1 controls (.compound ms) x')) ∧
    ((∀ a ∈ r.costs, |t1 / it| * √(2 * (DefModule.compound ms).stretch * a) < 1) → Function.Surjective (probe .euler it t1 controls (.compound ms)) ∧
      ∀ x, 0 < (fderiv ℝ (probe .euler it t1 controls (.compound ms)) x).det) := by
  obtain ⟨hc, F, hP, hV⟩ := euler_probe h
  rw [hP]
  refine ⟨fun x x' => ?_, fun hsm => ?_⟩
  · have key := gap_euler (w := (DefModule.compound ms).stretch) (h := t1 / it) r.costs
      (fun l => euclid (spaceMap (t1 / it) (fun l => fieldVal (F l)) l x) (spaceMap (t1 / it) (fun l => fieldVal (F l)) l x')) (fun l => euclid_nonneg _ _) (fun l a ha => by
      obtain ⟨y, k, c, b, e3, e4, e5⟩ := hV l (by rw [← hc]; exact (List.getElem?_eq_some_iff.1 ha).1)
      rw [ha] at e3
      obtain rfl := Option.some.inj e3
      rw [mul_assoc]
      exact (euclid_step _ _ _ _ _).trans (mul_le_mul_of_nonneg_left (e4.flow hw e5 _ _) (abs_nonneg _)))
    rw [hc] at key
    exact key
  · have hK : ∀ l < it, (∀ y z, euclid (fieldVal (F l) y) (fieldVal (F l) z) ≤ (fun l => √(2 * (DefModule.compound ms).stretch * r.costs.getD l 0)) l * euclid y z) ∧
        |t1 / it| * (fun l => √(2 * (DefModule.compound ms).stretch * r.costs.getD l 0)) l < 1 := fun l hl' => by
      obtain ⟨y, k, c, a, e3, e4, e5⟩ := hV l hl'
      have : r.costs.getD l 0 = a := by rw [List.getD_eq_getElem?_getD, e3, Option.getD_some]
      dsimp only
      rw [this]
      exact ⟨e4.flow hw e5, hsm a (List.mem_of_getElem? e3)⟩
    exact ⟨spaceMap_surjective it hK, spaceMap_det (fun k => fieldVal_smooth 1 (F k)) it hK⟩

/-- A smooth map that keeps points apart, reaches every point and has no vanishing determinant has a smooth inverse. -/
theorem smooth_inverse {Φ : Vec d → Vec d} (k0 : ∀ n, ContDiff ℝ n Φ) {c : ℝ} (hpos : 0 < c) (hlow : ∀ x x', c * euclid x x' ≤ euclid (Φ x) (Φ x'))
    (ksurj : Function.Surjective Φ) (kdet : ∀ x, 0 < (fderiv ℝ Φ x).det) :
    ∃ Ψ : Vec d → Vec d, (∀ n, ContDiff ℝ n Ψ) ∧ (∀ x, Ψ (Φ x) = x) ∧ ∀ y, Φ (Ψ y) = y := by
  have hinj : Function.Injective Φ := fun x x' he => by
    have := hlow x x'
    rw [he, euclid_eq_zero.2 rfl] at this
    have hz : euclid x x' = 0 := le_antisymm (by nlinarith) (euclid_nonneg _ _)
    exact euclid_eq_zero.1 hz
  let e : Vec d ≃ Vec d := Equiv.ofBijective Φ ⟨hinj, ksurj⟩
  have hcont : Continuous e.symm := by
    have hl : LipschitzWith (Real.toNNReal c⁻¹) (fun y : EuclideanSpace ℝ (Fin d) => (WithLp.toLp 2 (e.symm (WithLp.ofLp y)) : EuclideanSpace ℝ (Fin d))) := by
      refine LipschitzWith.of_dist_le_mul fun y z => ?_
      have h1 := hlow (e.symm (WithLp.ofLp y)) (e.symm (WithLp.ofLp z))
      have e1 : ∀ w, Φ (e.symm w) = w := fun w => e.apply_symm_apply w
      rw [e1, e1] at h1
      rw [Real.coe_toNNReal _ (inv_nonneg.2 hpos.le)]
      have h2 : euclid (WithLp.ofLp y) (WithLp.ofLp z) = dist y z := rfl
      have h3 : dist (WithLp.toLp 2 (e.symm (WithLp.ofLp y)) : EuclideanSpace ℝ (Fin d)) (WithLp.toLp 2 (e.symm (WithLp.ofLp z)))
          = euclid (e.symm (WithLp.ofLp y)) (e.symm (WithLp.ofLp z)) := rfl
      rw [h3, ← h2, inv_mul_eq_div, le_div_iff₀ hpos, mul_comm]
      exact h1
    have := (PiLp.continuous_ofLp 2 _).comp (hl.continuous.comp (PiLp.continuous_toLp 2 fun _ : Fin d => ℝ))
    exact this
  let E : Vec d ≃ₜ Vec d := ⟨e, (k0 0).continuous, hcont⟩
  refine ⟨E.symm, fun n => ?_, fun x => e.symm_apply_apply x, fun y => e.apply_symm_apply y⟩
  refine E.contDiff_symm (f₀' := fun x => (fderiv ℝ Φ x).toContinuousLinearEquivOfDetNeZero (kdet x).ne') (fun x => ?_) (k0 n)
  rw [ContinuousLinearMap.coe_toContinuousLinearEquivOfDetNeZero]
  exact (((k0 1).differentiable one_ne_zero) x).hasFDerivAt

/-- The condition on the costs of a call, and its consequence. -/
theorem euler_inverse {ms : List (DefModule d)} (hw : (DefModule.compound ms).PositiveWeights) {it : Nat} {t1 : ℝ} {controls : List (Ctrl d)} {r : Shot d}
    (h : shootControls .euler it t1 controls (.compound ms) = .ok r) (h0 : ∀ a ∈ r.costs, 0 ≤ a)
    (hsmall : ∀ a ∈ r.costs, (t1 / it) ^ 2 * (2 * (DefModule.compound ms).stretch * a) < 1) :
    (∀ x, 0 < (fderiv ℝ (probe .euler it t1 controls (.compound ms)) x).det) ∧ ∃ Ψ : Vec d → Vec d, (∀ n, ContDiff ℝ n Ψ) ∧
      (∀ x, Ψ (probe .euler it t1 controls (.compound ms) x) = x) ∧ ∀ y, probe .euler it t1 controls (.compound ms) (Ψ y) = y := by
  obtain ⟨k1, k2⟩ := flow_controls hw h
  have hstn : 0 ≤ (DefModule.compound ms).stretch := stretch_nonneg _ hw
  have hu : ∀ a ∈ r.costs, |t1 / it| * √(2 * (DefModule.compound ms).stretch * a) < 1 := fun a ha => by
    have hB : 0 ≤ 2 * (DefModule.compound ms).stretch * a := mul_nonneg (by linarith) (h0 a ha)
    have : (|t1 / it| * √(2 * (DefModule.compound ms).stretch * a)) ^ 2 < 1 ^ 2 := by
      rw [mul_pow, sq_abs, Real.sq_sqrt hB, one_pow]; exact hsmall a ha
    exact lt_of_pow_lt_pow_left₀ 2 zero_le_one this
  obtain ⟨ksurj, kdet⟩ := k2 hu
  refine ⟨kdet, smooth_inverse (fun n => probe_smooth .euler it t1 controls _ n)
    (c := (r.costs.map fun a => 1 - |t1 / it| * √(2 * (DefModule.compound ms).stretch * a)).prod) (List.prod_pos fun b hb => ?_)
    (fun x x' => (k1 x x').1 fun a ha => (hu a ha).le) ksurj kdet⟩
  obtain ⟨e, he, rfl⟩ := List.mem_map.1 hb
  linarith [hu e he]

variable {G : Type}

/-- **C120.** The call with Euler's method, from momenta or with given controls: one smooth map of the whole space carries all points of all
shapes. It changes distances by factors between the products of `1 - step · √(2 · stretch · cost)` and `1 + …`. If at every step the
square of the duration times twice the stretch times the cost is below one, it has a smooth inverse and keeps orientation. -/
theorem C120_space {Ds : List (Deformable d G)} {ms : List (DefModule d)} {it : Nat} {controls : Option (List (List (Ctrl d)))} {t1 : ℝ}
    {want : Bool} {red : Reduce} {r : Deformed d G} (hne : Ds ≠ [] ∨ ms ≠ []) (hw : DefModule.AllPositiveWeights ms)
    (h : computeDeformed Ds ms (.fixed .euler) it want controls t1 red = .ok r) :
    ∃ Φ : Vec d → Vec d,
      (∀ (i : Nat) (D : Deformable d G), Ds[i]? = some D → ∃ g, r.geometries[i]? = some g ∧ D.toDeformed ⟨D.n, fun p => Φ (D.gd p)⟩ = .ok g) ∧
      (∀ n, ContDiff ℝ n Φ) ∧
      (∀ x x', KeptApart (DefModule.stretches ms) (t1 / it) r.shot.costs x x' (Φ x) (Φ x')) ∧
      ((∀ a ∈ r.shot.costs, (t1 / it) ^ 2 * (2 * DefModule.stretches ms * a) < 1) →
        (∀ x, 0 < (fderiv ℝ Φ x).det) ∧ ∃ Ψ : Vec d → Vec d, (∀ n, ContDiff ℝ n Ψ) ∧ (∀ x, Ψ (Φ x) = x) ∧ ∀ y, Φ (Ψ y) = y) := by
  obtain ⟨h0, -⟩ := C105_bounds hne hw h
  obtain ⟨-, -, costs, hs, -⟩ := computeDeformed_inv h
  obtain ⟨hs, -⟩ := fixed_shot hs
  have hw' : (DefModule.compound (Ds.map Deformable.silent ++ ms)).PositiveWeights := by
    rw [DefModule.PositiveWeights]
    exact ⟨fun e => by simp [List.append_eq_nil_iff] at e; tauto, silents_positive Ds hw⟩
  have hst : (DefModule.compound (Ds.map Deformable.silent ++ ms)).stretch = DefModule.stretches ms := by
    rw [DefModule.stretch, silents_stretch]
  have hsn : ∀ a ∈ r.shot.costs, 0 ≤ a := h0
  have key : ∃ us r', shootControls .euler it t1 us (.compound (Ds.map Deformable.silent ++ ms)) = .ok r' ∧ r'.costs = r.shot.costs ∧
      ∀ (i n : Nat) (x : Fin n → Vec d), (DefModule.compound (Ds.map Deformable.silent ++ ms)).manifold.At i x →
        r'.module.manifold.At i (fun p => probe .euler it t1 us (.compound (Ds.map Deformable.silent ++ ms)) (x p)) →
        r.shot.module.manifold.At i fun p => probe .euler it t1 us (.compound (Ds.map Deformable.silent ++ ms)) (x p) := by
    dsimp only at hs
    cases hc : padControls Ds.length controls with
    | some us => rw [hc] at hs; exact ⟨us, _, hs, rfl, fun i n x _ ha => ha⟩
    | none =>
      rw [hc] at hs
      obtain ⟨-, r', q1, -, q2, q3, -⟩ := C71_solver _ _ it t1 hs
      exact ⟨_, r', q1, q3, fun i n x hx ha => at_replay hs q1 q2 hx ha⟩
  obtain ⟨us, r', k1, k2, k3⟩ := key
  refine ⟨probe .euler it t1 us (.compound (Ds.map Deformable.silent ++ ms)),
    fun i D hD => geometry_at h hD (k3 i D.n D.gd (deformable_at hD) (probe_at k1 (deformable_at hD))),
    fun n => probe_smooth _ _ _ _ _ n, fun x x' => ?_, fun hsmall => ?_⟩
  · have := (flow_controls hw' k1).1 x x'
    rwa [hst, k2] at this
  · exact euler_inverse hw' k1 (by rw [k2]; exact hsn) (by rw [k2, hst]; exact hsmall)

/-- The hypotheses are met, and the bound cannot be raised: one step towards a point with control `u` below one is a diffeomorphism of the
line, and with `u = 1` two points of a shape meet, so that no bijection carries them. -/
theorem C120_tight (u : ℝ) (h0 : 0 ≤ u) (h1 : u ≤ 1) : ∃ r, computeDeformed [couple] [.linear shrink] (.fixed .euler) 1 true
      (some [[.scalar u]]) 1 .sum = .ok r ∧
      ((∀ a ∈ r.shot.costs, ((1 : ℝ) / (1 : ℕ)) ^ 2 * (2 * DefModule.stretches [.linear shrink] * a) < 1) ↔ u < 1) ∧
      (u = 1 → ¬ ∃ Φ : Vec 1 → Vec 1, Function.Injective Φ ∧ ∀ g, r.geometries[0]? = some g → couple.toDeformed ⟨2, fun p => Φ (couple.gd p)⟩ = .ok g) := by
  obtain ⟨r, hr, hg, hc, -⟩ := C105_tight u h0 h1
  refine ⟨r, hr, ?_, ?_⟩
  · have e : ((1 : ℝ) / (1 : ℕ)) ^ 2 * (2 * DefModule.stretches [.linear shrink] * (u ^ 2 / 2)) = u ^ 2 := by
      simp [DefModule.stretches, DefModule.stretch, shrink]; ring
    rw [hc]
    simp only [List.mem_singleton, forall_eq]
    rw [e]
    constructor
    · intro h; nlinarith
    · intro h; nlinarith
  · rintro rfl ⟨Φ, hi, h⟩
    have h2 := h _ (by rw [hg]; rfl)
    have h3 : (⟨2, fun p => Φ (couple.gd p)⟩ : Points 1) = ⟨2, fun (p : Fin 2) _ => (1 - 1) * (p : ℕ)⟩ := Except.ok.inj h2
    have h4 : (fun p : Fin 2 => Φ (couple.gd p)) = fun (p : Fin 2) _ => (1 - 1) * ((p : ℕ) : ℝ) := by
      simpa using h3
    have h5 : Φ (couple.gd (0 : Fin 2)) = Φ (couple.gd (1 : Fin 2)) := by
      rw [show Φ (couple.gd (0 : Fin 2)) = _ from congrFun h4 (0 : Fin 2), show Φ (couple.gd (1 : Fin 2)) = _ from congrFun h4 (1 : Fin 2)]
      simp
    have h6 := congrFun (hi h5) 0
    simp [couple] at h6

/-! ## `torch_euler` -/

/-- What a call from momenta with `torch_euler` returns, whatever its duration, is what the solver method `euler` returns on `[0, 1]`. -/
theorem torch_as_euler {Ds : List (Deformable d G)} {ms : List (DefModule d)} (hp : PlainMembers ms) {D : Deformable d G} (hD : D ∈ Ds) (hd : 0 < D.n * d)
    {it : Nat} {t1 : ℝ} {want : Bool} {red : Reduce} {r : Deformed d G} (h : computeDeformed Ds ms .torchEuler it want none t1 red = .ok r) :
    ∃ r', computeDeformed Ds ms (.fixed .euler) it false none 1 red = .ok r' ∧ r'.geometries = r.geometries ∧ r'.shot.states = r.shot.states := by
  obtain ⟨hb, hg, costs, hs, -⟩ := computeDeformed_inv h
  rw [show padControls Ds.length (none : Option (List (List (Ctrl d)))) = none from rfl] at hs
  have hs : shootEuler it none (.compound (Ds.map Deformable.silent ++ ms)) = .ok r.shot := by
    unfold shoot at hs
    dsimp only at hs
    cases h1 : shootEuler it none (.compound (Ds.map Deformable.silent ++ ms)) with
    | error e => rw [h1] at hs; cases hs
    | ok q => rw [h1] at hs; cases hs; rfl
  have hit : it ≠ 0 := by
    rintro rfl
    rw [C26_no_steps] at hs
    cases hs
  have ha := C26_agrees _ (silents_plain Ds hp) (silents_numCoords hD hd ms) it hit
  rw [hs] at ha
  cases h2 : shootMoments .euler it 1 (.compound (Ds.map Deformable.silent ++ ms)) with
  | error e => rw [h2] at ha; exact ha.elim
  | ok q =>
    rw [h2] at ha
    dsimp only at ha
    have hsh : shoot (.fixed .euler) it 1 (padControls Ds.length (none : Option (List (List (Ctrl d))))) (.compound (Ds.map Deformable.silent ++ ms))
        = .ok (q, some q.costs) := by
      unfold shoot
      rw [show padControls Ds.length (none : Option (List (List (Ctrl d)))) = none from rfl]
      simp only [shootOde, h2]
    refine ⟨⟨r.geometries, none, q, q.module⟩, ?_, rfl, ha.2.1⟩
    unfold computeDeformed
    dsimp only
    rw [hsh]
    dsimp only
    rw [if_neg (by
      intro hany
      obtain ⟨E, hE, e⟩ := List.any_eq_true.1 hany
      rw [hb E hE] at e
      cases e)]
    simp only [Bool.false_eq_true, if_false]
    rw [ha.1, hg]

/-- **C120, `torch_euler`.** From momenta: one smooth map of the whole space carries all points of all shapes. It changes distances by factors
that the costs of the modules along the way bound, and is a diffeomorphism that keeps orientation if these costs are small. The costs are the
values of the Hamiltonian that the solver method `euler` reports, since `torch_euler` reports none. -/
theorem C120_torch {Ds : List (Deformable d G)} {ms : List (DefModule d)} (hp : PlainMembers ms) {D : Deformable d G} (hD : D ∈ Ds) (hd : 0 < D.n * d)
    (hw : DefModule.AllPositiveWeights ms) {it : Nat} {t1 : ℝ} {want : Bool} {red : Reduce} {r : Deformed d G}
    (h : computeDeformed Ds ms .torchEuler it want none t1 red = .ok r) :
    ∃ (r' : Deformed d G) (Φ : Vec d → Vec d), computeDeformed Ds ms (.fixed .euler) it false none 1 red = .ok r' ∧
      (∀ (i : Nat) (D : Deformable d G), Ds[i]? = some D → ∃ g, r.geometries[i]? = some g ∧ D.toDeformed ⟨D.n, fun p => Φ (D.gd p)⟩ = .ok g) ∧
      (∀ n, ContDiff ℝ n Φ) ∧
      (∀ x x', KeptApart (DefModule.stretches ms) (1 / it) r'.shot.costs x x' (Φ x) (Φ x')) ∧
      ((∀ a ∈ r'.shot.costs, ((1 : ℝ) / it) ^ 2 * (2 * DefModule.stretches ms * a) < 1) →
        (∀ x, 0 < (fderiv ℝ Φ x).det) ∧ ∃ Ψ : Vec d → Vec d, (∀ n, ContDiff ℝ n Ψ) ∧ (∀ x, Ψ (Φ x) = x) ∧ ∀ y, Φ (Ψ y) = y) := by
  obtain ⟨r', h1, h2, -⟩ := torch_as_euler hp hD hd h
  obtain ⟨Φ, k⟩ := C120_space (Or.inl (List.ne_nil_of_mem hD)) hw h1
  rw [h2] at k
  exact ⟨r', Φ, h1, k⟩

end
end Imodal
