import Verif.Lemmas.Stretch
import Mathlib.Analysis.Calculus.Deriv.MeanValue
/-!
# C105: a deformation keeps different points apart
-/
set_option autoImplicit false
namespace Imodal
noncomputable section
open Set Spec
variable {d : Nat}

/-! ### Fields -/

/-- The difference of the velocities at two points is at most their distance times the root of twice the cost times the stretch. -/
theorem C105_field {m m' : DefModule d} (hw : m.PositiveWeights) {c : Ctrl d} (h : m.fillControls c = .ok m') :
    ∃ f a, m'.field = .ok f ∧ m'.cost = .ok a ∧ 0 ≤ a ∧
      ∀ (n : Nat) (x : Fin n → Vec d), ∃ v, f.values x = .ok v ∧ ∀ i j, euclid (v i) (v j) ≤ √(2 * m.stretch * a) * euclid (x i) (x j) := by
  obtain ⟨f, a, h1, h2, h3, h4, h5⟩ := steady_fill m hw h
  exact ⟨f, a, h1, h2, h4, fun n x => ⟨_, h3.values x, fun i j => euclid_le_of_sq (h5 _ _)⟩⟩

/-! ### Euler's method -/

/-- Between `∏ (1 - u)` and `∏ (1 + u)` times the first distance. -/
theorem gap_euler {w h : ℝ} : ∀ (costs : List ℝ) (δ : Nat → ℝ), (∀ l, 0 ≤ δ l) →
    (∀ l a, costs[l]? = some a → |δ (l + 1) - δ l| ≤ |h| * √(2 * w * a) * δ l) →
    ((∀ a ∈ costs, |h| * √(2 * w * a) ≤ 1) → (costs.map fun a => 1 - |h| * √(2 * w * a)).prod * δ 0 ≤ δ costs.length) ∧
      δ costs.length ≤ (costs.map fun a => 1 + |h| * √(2 * w * a)).prod * δ 0
  | [], δ, _, _ => by simp
  | a :: costs, δ, h0, hs => by
    obtain ⟨i1, i2⟩ := gap_euler (w := w) (h := h) costs (fun l => δ (l + 1)) (fun l => h0 _) (fun l b hb => hs (l + 1) b (by simpa using hb))
    have hstep := abs_le.1 (hs 0 a (by simp))
    simp only [List.map_cons, List.prod_cons, List.length_cons]
    constructor
    · intro hu
      refine le_trans ?_ (i1 fun b hb => hu b (List.mem_cons_of_mem _ hb))
      have hp : 0 ≤ (costs.map fun a => 1 - |h| * √(2 * w * a)).prod := List.prod_nonneg fun b hb => by
        obtain ⟨e, he, rfl⟩ := List.mem_map.1 hb
        linarith [hu e (List.mem_cons_of_mem _ he)]
      have : (1 - |h| * √(2 * w * a)) * δ 0 ≤ δ (0 + 1) := by nlinarith [hstep.1]
      calc _ = (costs.map fun a => 1 - |h| * √(2 * w * a)).prod * ((1 - |h| * √(2 * w * a)) * δ 0) := by ring
        _ ≤ _ := mul_le_mul_of_nonneg_left this hp
    · refine i2.trans ?_
      have hp : 0 ≤ (costs.map fun a => 1 + |h| * √(2 * w * a)).prod := List.prod_nonneg fun b hb => by
        obtain ⟨e, he, rfl⟩ := List.mem_map.1 hb
        positivity
      have : δ (0 + 1) ≤ (1 + |h| * √(2 * w * a)) * δ 0 := by nlinarith [hstep.2]
      calc _ ≤ (costs.map fun a => 1 + |h| * √(2 * w * a)).prod * ((1 + |h| * √(2 * w * a)) * δ 0) := mul_le_mul_of_nonneg_left this hp
        _ = _ := by ring

theorem apart_controls {ms : List (DefModule d)} (hw : (DefModule.compound ms).PositiveWeights)
    {it : Nat} {t1 : ℝ} {controls : List (Ctrl d)} {r : Shot d} (h : shootControls .euler it t1 controls (.compound ms) = .ok r) :
    (∀ a ∈ r.costs, 0 ≤ a) ∧ ∃ z : Row, (∀ (i n : Nat) (x : Fin n → Vec d), (DefModule.compound ms).manifold.At i x →
        r.module.manifold.At i (block (n := n) ((DefModule.compound ms).manifold.off i) z)) ∧
      ∀ (i n j n' : Nat) (x : Fin n → Vec d) (x' : Fin n' → Vec d), (DefModule.compound ms).manifold.At i x → (DefModule.compound ms).manifold.At j x' →
        ∀ p p', KeptApart (DefModule.compound ms).stretch (t1 / it) r.costs (x p) (x' p')
          (block (n := n) ((DefModule.compound ms).manifold.off i) z p) (block (n := n') ((DefModule.compound ms).manifold.off j) z p') := by
  obtain ⟨hc, xs, hl, h0, -, hm, hs⟩ := euler_costs h
  refine ⟨fun a ha => ?_, xs.getD it 0, fun i n x hx => ?_, fun i n j n' x x' hx hx' p p' => ?_⟩
  · obtain ⟨l, hlt, rfl⟩ := List.getElem_of_mem ha
    obtain ⟨_, _, c, a, _, _, e, q, _⟩ := hs l (by omega)
    rw [List.getElem?_eq_getElem hlt] at e
    rw [Option.some.inj e]
    exact q.nonneg hw
  · rw [hm, DefModule.manifold_withGd, getLastD_eq hl]
    exact (hx.withGd _).1
  · have e0 : xs.getD 0 0 = gdRow (.compound ms) := by rw [List.getD_eq_getElem?_getD, h0, Option.getD_some]
    have key := gap_euler (w := (DefModule.compound ms).stretch) (h := t1 / it) r.costs
      (fun l => euclid (block (d := d) (n := n) ((DefModule.compound ms).manifold.off i) (xs.getD l 0) p)
        (block (d := d) (n := n') ((DefModule.compound ms).manifold.off j) (xs.getD l 0) p')) (fun l => euclid_nonneg _ _) (fun l a ha => by
      have hlt : l < it := by rw [← hc]; exact (List.getElem?_eq_some_iff.1 ha).1
      obtain ⟨y, k, c, b, e1, e2, e3, e4, e5⟩ := hs l hlt
      rw [ha] at e3
      obtain rfl := Option.some.inj e3
      have g1 : xs.getD l 0 = y := by rw [List.getD_eq_getElem?_getD, e1, Option.getD_some]
      have g2 : xs.getD (l + 1) 0 = y + (t1 / it) • k := by rw [List.getD_eq_getElem?_getD, e2, Option.getD_some]
      rw [g1, g2, block_add, block_smul, block_add, block_smul, mul_assoc]
      refine (euclid_step _ _ _ _ _).trans (mul_le_mul_of_nonneg_left ?_ (abs_nonneg _))
      exact euclid_le_of_sq (e4.steady hw e5 hx hx' p p'))
    rw [hc] at key
    rw [e0, show block (d := d) (n := n) ((DefModule.compound ms).manifold.off i) (gdRow (.compound ms)) = x from hx.row,
      show block (d := d) (n := n') ((DefModule.compound ms).manifold.off j) (gdRow (.compound ms)) = x' from hx'.row] at key
    exact key

variable {G : Type}

theorem silents_stretch : ∀ (Ds : List (Deformable d G)) (ms : List (DefModule d)),
    DefModule.stretches (Ds.map Deformable.silent ++ ms) = DefModule.stretches ms
  | [], ms => rfl
  | D :: Ds, ms => by
    rw [List.map_cons, List.cons_append, DefModule.stretches, silents_stretch Ds ms]
    unfold Deformable.silent
    rw [DefModule.stretch, zero_add]

/-- **C105.** The call with Euler's method, from momenta or with given controls: there are places of all points, of which the
returned geometries are made, such that the distance of any two points, of the same shape or of two, is at least the product over the
steps of `1 - step · √(2 · stretch · cost)` times what it was, as long as no factor is negative, and at most the product of `1 + …`. -/
theorem C105_bounds {Ds : List (Deformable d G)} {ms : List (DefModule d)} {it : Nat} {controls : Option (List (List (Ctrl d)))} {t1 : ℝ}
    {want : Bool} {red : Reduce} {r : Deformed d G} (hne : Ds ≠ [] ∨ ms ≠ []) (hw : DefModule.AllPositiveWeights ms)
    (h : computeDeformed Ds ms (.fixed .euler) it want controls t1 red = .ok r) :
    (∀ a ∈ r.shot.costs, 0 ≤ a) ∧ ∃ place : Nat → Nat → Vec d,
      (∀ (i : Nat) (D : Deformable d G), Ds[i]? = some D → ∃ g, r.geometries[i]? = some g ∧ D.toDeformed ⟨D.n, fun p => place i p⟩ = .ok g) ∧
      ∀ (i : Nat) (D : Deformable d G) (j : Nat) (D' : Deformable d G), Ds[i]? = some D → Ds[j]? = some D' → ∀ (p : Fin D.n) (p' : Fin D'.n),
        KeptApart (DefModule.stretches ms) (t1 / it) r.shot.costs (D.gd p) (D'.gd p') (place i p) (place j p') := by
  obtain ⟨-, -, costs, hs, -⟩ := computeDeformed_inv h
  obtain ⟨hs, -⟩ := fixed_shot hs
  have hw' : (DefModule.compound (Ds.map Deformable.silent ++ ms)).PositiveWeights := by
    rw [DefModule.PositiveWeights]
    exact ⟨fun e => by simp [List.append_eq_nil_iff] at e; tauto, silents_positive Ds hw⟩
  have hst : (DefModule.compound (Ds.map Deformable.silent ++ ms)).stretch = DefModule.stretches ms := by
    rw [DefModule.stretch, silents_stretch]
  have key : (∀ a ∈ r.shot.costs, 0 ≤ a) ∧ ∃ z : Row, (∀ (i n : Nat) (x : Fin n → Vec d),
        (DefModule.compound (Ds.map Deformable.silent ++ ms)).manifold.At i x →
        r.shot.module.manifold.At i (block (n := n) ((DefModule.compound (Ds.map Deformable.silent ++ ms)).manifold.off i) z)) ∧
      ∀ (i n j n' : Nat) (x : Fin n → Vec d) (x' : Fin n' → Vec d), (DefModule.compound (Ds.map Deformable.silent ++ ms)).manifold.At i x →
        (DefModule.compound (Ds.map Deformable.silent ++ ms)).manifold.At j x' →
        ∀ p p', KeptApart (DefModule.stretches ms) (t1 / it) r.shot.costs (x p) (x' p')
          (block (n := n) ((DefModule.compound (Ds.map Deformable.silent ++ ms)).manifold.off i) z p)
          (block (n := n') ((DefModule.compound (Ds.map Deformable.silent ++ ms)).manifold.off j) z p') := by
    dsimp only at hs
    rw [← hst]
    cases hc : padControls Ds.length controls with
    | some us => rw [hc] at hs; exact apart_controls hw' hs
    | none =>
      rw [hc] at hs
      obtain ⟨-, r', q1, -, q2, q3, -⟩ := C71_solver _ _ it t1 hs
      obtain ⟨a1, z, a2, a3⟩ := apart_controls hw' q1
      rw [q3] at a1 a3
      exact ⟨a1, z, fun i n x hx => at_replay hs q1 q2 hx (a2 i n x hx), a3⟩
  obtain ⟨k1, z, k2, k3⟩ := key
  refine ⟨k1, fun i p c => z ((DefModule.compound (Ds.map Deformable.silent ++ ms)).manifold.off i + (p * d + c)), fun i D hD => ?_, fun i D j D' hD hD' p p' => ?_⟩
  · exact geometry_at h hD (k2 i D.n D.gd (deformable_at hD))
  · exact k3 i D.n j D'.n D.gd D'.gd (deformable_at hD) (deformable_at hD') p p'

/-- **C105.** If at every step the duration times the root of twice the stretch times the cost is below one, different points stay different. -/
theorem C105_apart {Ds : List (Deformable d G)} {ms : List (DefModule d)} {it : Nat} {controls : Option (List (List (Ctrl d)))} {t1 : ℝ}
    {want : Bool} {red : Reduce} {r : Deformed d G} (hne : Ds ≠ [] ∨ ms ≠ []) (hw : DefModule.AllPositiveWeights ms)
    (h : computeDeformed Ds ms (.fixed .euler) it want controls t1 red = .ok r)
    (hsmall : ∀ a ∈ r.shot.costs, (t1 / it) ^ 2 * (2 * DefModule.stretches ms * a) < 1) :
    ∃ place : Nat → Nat → Vec d,
      (∀ (i : Nat) (D : Deformable d G), Ds[i]? = some D → ∃ g, r.geometries[i]? = some g ∧ D.toDeformed ⟨D.n, fun p => place i p⟩ = .ok g) ∧
      ∀ (i : Nat) (D : Deformable d G) (j : Nat) (D' : Deformable d G), Ds[i]? = some D → Ds[j]? = some D' → ∀ (p : Fin D.n) (p' : Fin D'.n),
        D.gd p ≠ D'.gd p' → place i p ≠ place j p' := by
  obtain ⟨h0, place, h1, h2⟩ := C105_bounds hne hw h
  refine ⟨place, h1, fun i D j D' hD hD' p p' hn he => ?_⟩
  have hst := stretches_nonneg ms hw
  have hu : ∀ a ∈ r.shot.costs, |t1 / it| * √(2 * DefModule.stretches ms * a) < 1 := fun a ha => by
    have hB : 0 ≤ 2 * DefModule.stretches ms * a := mul_nonneg (by linarith) (h0 a ha)
    have : (|t1 / it| * √(2 * DefModule.stretches ms * a)) ^ 2 < 1 ^ 2 := by
      rw [mul_pow, sq_abs, Real.sq_sqrt hB, one_pow]; exact hsmall a ha
    exact lt_of_pow_lt_pow_left₀ 2 zero_le_one this
  have := (h2 i D j D' hD hD' p p').1 fun a ha => (hu a ha).le
  rw [he, euclid_eq_zero.2 rfl] at this
  have hpos : 0 < (r.shot.costs.map fun a => 1 - |t1 / it| * √(2 * DefModule.stretches ms * a)).prod := List.prod_pos fun b hb => by
    obtain ⟨e, he, rfl⟩ := List.mem_map.1 hb
    linarith [hu e he]
  have hz : euclid (D.gd p) (D'.gd p') = 0 := le_antisymm (by nlinarith) (euclid_nonneg _ _)
  exact hn (euclid_eq_zero.1 hz)

theorem sum_sqrt_le (w : ℝ) (hw : 0 ≤ w) (l : List ℝ) (hl : ∀ a ∈ l, 0 ≤ a) : (l.map fun a => √(w * a)).sum ≤ √(l.length * (w * l.sum)) := by
  refine Real.le_sqrt_of_sq_le ?_
  have e : ∀ f : ℝ → ℝ, (l.map f).sum = ∑ i : Fin l.length, f (l.get i) := fun f => by
    rw [← List.sum_ofFn]; congr 1
    refine List.ext_getElem (by simp) fun i h1 h2 => by simp
  rw [e]
  refine sq_sum_le_card_mul_sum_sq.trans (le_of_eq ?_)
  rw [Finset.card_univ, Fintype.card_fin]
  congr 1
  rw [show l.sum = (l.map id).sum by simp, e, Finset.mul_sum]
  exact Finset.sum_congr rfl fun i _ => Real.sq_sqrt (mul_nonneg hw (hl _ (l.get_mem i)))

theorem prod_le_exp (h : ℝ) (f : ℝ → ℝ) (hf : ∀ a, 0 ≤ f a) : ∀ l : List ℝ, (l.map fun a => 1 + |h| * f a).prod ≤ Real.exp (|h| * (l.map f).sum)
  | [] => by simp
  | a :: l => by
    rw [List.map_cons, List.prod_cons, List.map_cons, List.sum_cons, mul_add, Real.exp_add]
    refine mul_le_mul (by linarith [Real.add_one_le_exp (|h| * f a)]) (prod_le_exp h f hf l) ?_ (Real.exp_pos _).le
    exact List.prod_nonneg fun b hb => by
      obtain ⟨e, he, rfl⟩ := List.mem_map.1 hb
      have := hf e
      positivity

/-- **C105.** With the reduction `'sum'` the reported cost `c` bounds how much distances grow: by the exponential of the duration times the
root of twice the stretch times the mean cost of the steps. -/
theorem C105_growth {Ds : List (Deformable d G)} {ms : List (DefModule d)} {it : Nat} {controls : Option (List (List (Ctrl d)))} {t1 : ℝ}
    {r : Deformed d G} (hit : it ≠ 0) (hne : Ds ≠ [] ∨ ms ≠ []) (hw : DefModule.AllPositiveWeights ms)
    (h : computeDeformed Ds ms (.fixed .euler) it true controls t1 .sum = .ok r) :
    ∃ c, r.cost = some c ∧ ∃ place : Nat → Nat → Vec d,
      (∀ (i : Nat) (D : Deformable d G), Ds[i]? = some D → ∃ g, r.geometries[i]? = some g ∧ D.toDeformed ⟨D.n, fun p => place i p⟩ = .ok g) ∧
      ∀ (i : Nat) (D : Deformable d G) (j : Nat) (D' : Deformable d G), Ds[i]? = some D → Ds[j]? = some D' → ∀ (p : Fin D.n) (p' : Fin D'.n),
        euclid (place i p) (place j p') ≤ Real.exp (|t1| * √(2 * DefModule.stretches ms * (c / it))) * euclid (D.gd p) (D'.gd p') := by
  obtain ⟨c, e1, e2, e3⟩ := C34_partial h (by decide)
  obtain ⟨h0, place, h1, h2⟩ := C105_bounds hne hw h
  refine ⟨c, e1, place, h1, fun i D j D' hD hD' p p' => ((h2 i D j D' hD hD' p p').2).trans (mul_le_mul_of_nonneg_right ?_ (euclid_nonneg _ _))⟩
  refine (prod_le_exp _ _ (fun a => Real.sqrt_nonneg _) _).trans (Real.exp_le_exp.2 ?_)
  have hst := stretches_nonneg ms hw
  have hS := sum_sqrt_le (2 * DefModule.stretches ms) (by linarith) r.shot.costs h0
  refine (mul_le_mul_of_nonneg_left hS (abs_nonneg _)).trans (le_of_eq ?_)
  have hc : r.shot.costs.sum = c := by rw [e3]
  have hlen : r.shot.costs.length = it := by
    obtain ⟨-, -, costs, hs, -⟩ := computeDeformed_inv h
    obtain ⟨hs, -⟩ := fixed_shot hs
    dsimp only at hs
    cases hc : padControls Ds.length controls with
    | some us => rw [hc] at hs; exact (C27_controls _ hs).1
    | none => rw [hc] at hs; exact (C27_moments _ hs).1
  rw [hc, hlen, abs_div, Nat.abs_cast]
  have hp : (0 : ℝ) < it := by exact_mod_cast Nat.pos_of_ne_zero hit
  have : (it : ℝ) * (2 * DefModule.stretches ms * c) = (it : ℝ) ^ 2 * (2 * DefModule.stretches ms * (c / it)) := by field_simp
  rw [this, Real.sqrt_mul (by positivity), Real.sqrt_sq hp.le]
  field_simp

/-! ### Along geodesics, and all methods in the limit -/

/-- If the velocities of two points differ by at most `c` times their distance, the distance changes by a factor between `e^(-c t)` and `e^(c t)`. -/
theorem gap_path {X Y V W : ℝ → Vec d} {T c : ℝ} (hX : ∀ t ∈ Icc 0 T, ∀ b, HasDerivWithinAt (fun u => X u b) (V t b) (Icc 0 T) t)
    (hY : ∀ t ∈ Icc 0 T, ∀ b, HasDerivWithinAt (fun u => Y u b) (W t b) (Icc 0 T) t)
    (hV : ∀ t ∈ Icc 0 T, euclid (V t) (W t) ≤ c * euclid (X t) (Y t)) {t : ℝ} (ht : t ∈ Icc 0 T) :
    Real.exp (-(c * t)) * euclid (X 0) (Y 0) ≤ euclid (X t) (Y t) ∧ euclid (X t) (Y t) ≤ Real.exp (c * t) * euclid (X 0) (Y 0) := by
  set S : ℝ → ℝ := fun u => ∑ b, (X u b - Y u b) ^ 2 with hS
  set S' : ℝ → ℝ := fun u => ∑ b, 2 * ((X u b - Y u b) * (V u b - W u b)) with hS'
  have hd : ∀ u ∈ Icc 0 T, HasDerivWithinAt S (S' u) (Icc 0 T) u := fun u hu => by
    refine HasDerivWithinAt.fun_sum fun b _ => ?_
    have := ((hX u hu b).sub (hY u hu b)).pow 2
    refine this.congr_deriv ?_
    simp; ring
  have hSe : ∀ u, S u = euclid (X u) (Y u) ^ 2 := fun u => (euclid_sq _ _).symm
  have hS'b : ∀ u ∈ Icc 0 T, |S' u| ≤ 2 * c * S u := fun u hu => by
    have h1 : S' u = 2 * ∑ b, (X u b - Y u b) * (V u b - W u b) := by rw [hS', Finset.mul_sum]
    have h2 : |∑ b, (X u b - Y u b) * (V u b - W u b)| ≤ euclid (X u) (Y u) * euclid (V u) (W u) := by
      refine abs_le_of_sq_le_sq ?_ (mul_nonneg (euclid_nonneg _ _) (euclid_nonneg _ _))
      rw [mul_pow, euclid_sq, euclid_sq]
      exact Finset.sum_mul_sq_le_sq_mul_sq _ _ _
    rw [h1, abs_mul, abs_two, hSe]
    nlinarith [mul_le_mul_of_nonneg_left (hV u hu) (euclid_nonneg (X u) (Y u))]
  have mono : ∀ s : ℝ, (∀ u ∈ Icc 0 T, 0 ≤ S' u + s * S u) → S 0 ≤ Real.exp (s * t) * S t := fun s hs => by
    have hF : ∀ u ∈ Icc 0 T, HasDerivWithinAt (fun u => Real.exp (s * u) * S u) (Real.exp (s * u) * (S' u + s * S u)) (Icc 0 T) u := fun u hu => by
      have := (((hasDerivAt_id u).const_mul s).exp.hasDerivWithinAt (s := Icc 0 T)).mul (hd u hu)
      refine this.congr_deriv ?_
      simp; ring
    have hm : MonotoneOn (fun u => Real.exp (s * u) * S u) (Icc 0 T) := by
      refine monotoneOn_of_deriv_nonneg (convex_Icc 0 T) (fun u hu => (hF u hu).continuousWithinAt) (fun u hu => ?_) (fun u hu => ?_)
      · rw [interior_Icc] at hu ⊢
        exact ((hF u (Ioo_subset_Icc_self hu)).hasDerivAt (Icc_mem_nhds hu.1 hu.2)).differentiableAt.differentiableWithinAt
      · rw [interior_Icc] at hu
        rw [((hF u (Ioo_subset_Icc_self hu)).hasDerivAt (Icc_mem_nhds hu.1 hu.2)).deriv]
        exact mul_nonneg (Real.exp_pos _).le (hs u (Ioo_subset_Icc_self hu))
    have := hm (left_mem_Icc.2 (ht.1.trans ht.2)) ht ht.1
    simpa using this
  have antimono : Real.exp (-(2 * c) * t) * S t ≤ S 0 := by
    have hF : ∀ u ∈ Icc 0 T, HasDerivWithinAt (fun u => Real.exp (-(2 * c) * u) * S u) (Real.exp (-(2 * c) * u) * (S' u + -(2 * c) * S u)) (Icc 0 T) u := fun u hu => by
      have := (((hasDerivAt_id u).const_mul (-(2 * c))).exp.hasDerivWithinAt (s := Icc 0 T)).mul (hd u hu)
      refine this.congr_deriv ?_
      simp; ring
    have hm : AntitoneOn (fun u => Real.exp (-(2 * c) * u) * S u) (Icc 0 T) := by
      refine antitoneOn_of_deriv_nonpos (convex_Icc 0 T) (fun u hu => (hF u hu).continuousWithinAt) (fun u hu => ?_) (fun u hu => ?_)
      · rw [interior_Icc] at hu ⊢
        exact ((hF u (Ioo_subset_Icc_self hu)).hasDerivAt (Icc_mem_nhds hu.1 hu.2)).differentiableAt.differentiableWithinAt
      · rw [interior_Icc] at hu
        rw [((hF u (Ioo_subset_Icc_self hu)).hasDerivAt (Icc_mem_nhds hu.1 hu.2)).deriv]
        refine mul_nonpos_of_nonneg_of_nonpos (Real.exp_pos _).le ?_
        linarith [(abs_le.1 (hS'b u (Ioo_subset_Icc_self hu))).2]
    have := hm (left_mem_Icc.2 (ht.1.trans ht.2)) ht ht.1
    simpa using this
  have h1 := mono (2 * c) fun u hu => by linarith [(abs_le.1 (hS'b u hu)).1]
  rw [hSe, hSe] at h1 antimono
  have e1 : Real.exp (2 * c * t) = Real.exp (c * t) ^ 2 := by rw [← Real.exp_nat_mul]; congr 1; push_cast; ring
  have e2 : Real.exp (-(2 * c) * t) = Real.exp (-(c * t)) ^ 2 := by rw [← Real.exp_nat_mul]; congr 1; push_cast; ring
  rw [e1, ← mul_pow] at h1
  rw [e2, ← mul_pow] at antimono
  have g1 := abs_le_of_sq_le_sq h1 (mul_nonneg (Real.exp_pos _).le (euclid_nonneg _ _))
  have g2 := abs_le_of_sq_le_sq antimono (euclid_nonneg _ _)
  rw [abs_of_nonneg (euclid_nonneg _ _)] at g1
  rw [abs_of_nonneg (mul_nonneg (Real.exp_pos _).le (euclid_nonneg _ _))] at g2
  have hinv : Real.exp (-(c * t)) * Real.exp (c * t) = 1 := by rw [← Real.exp_add]; simp
  constructor
  · calc _ ≤ Real.exp (-(c * t)) * (Real.exp (c * t) * euclid (X t) (Y t)) := mul_le_mul_of_nonneg_left g1 (Real.exp_pos _).le
      _ = _ := by rw [← mul_assoc, hinv, one_mul]
  · calc euclid (X t) (Y t) = Real.exp (c * t) * (Real.exp (-(c * t)) * euclid (X t) (Y t)) := by rw [← mul_assoc, mul_comm (Real.exp (c * t)), hinv, one_mul]
      _ ≤ _ := mul_le_mul_of_nonneg_left g2 (Real.exp_pos _).le

section
variable {m : DefModule d} {T : ℝ} {q p : ℝ → Row}

/-- **C105 along geodesics.** Let `(q, p)` follow Hamilton's equations. Until time `t` the distance of two carried points changes by a factor
between `e^(-c t)` and `e^(c t)`, where `c` is the root of twice the stretch times the initial energy. -/
theorem C105_curve (hw : m.PositiveWeights) (hs : m.Smooth 1) (hc : HamiltonCurve (numCoords m) (ham m) T q p)
    (hok : ∀ t ∈ Icc 0 T, ∃ m', Hamiltonian.geodesicControls (rowsMod m (q t, p t)) = .ok m')
    {i n j n' : Nat} {x : Fin n → Vec d} {x' : Fin n' → Vec d} (hx : m.manifold.At i x) (hx' : m.manifold.At j x') (k : Fin n) (k' : Fin n')
    {t : ℝ} (ht : t ∈ Icc 0 T) :
    Real.exp (-(√(2 * m.stretch * ham m (q 0) (p 0)) * t))
        * euclid (block (d := d) (n := n) (m.manifold.off i) (q 0) k) (block (d := d) (n := n') (m.manifold.off j) (q 0) k')
      ≤ euclid (block (d := d) (n := n) (m.manifold.off i) (q t) k) (block (d := d) (n := n') (m.manifold.off j) (q t) k') ∧
    euclid (block (d := d) (n := n) (m.manifold.off i) (q t) k) (block (d := d) (n := n') (m.manifold.off j) (q t) k')
      ≤ Real.exp (√(2 * m.stretch * ham m (q 0) (p 0)) * t)
        * euclid (block (d := d) (n := n) (m.manifold.off i) (q 0) k) (block (d := d) (n := n') (m.manifold.off j) (q 0) k') := by
  refine gap_path (X := fun t => block (d := d) (n := n) (m.manifold.off i) (q t) k) (Y := fun t => block (d := d) (n := n') (m.manifold.off j) (q t) k')
    (V := fun t => block (d := d) (n := n) (m.manifold.off i) (partialP (ham m) (q t) (p t)) k)
    (W := fun t => block (d := d) (n := n') (m.manifold.off j) (partialP (ham m) (q t) (p t)) k') (fun u hu b => ?_) (fun u hu b => ?_) (fun u hu => ?_) ht
  · exact hc.gd u hu _ (by rw [numCoords_eq]; exact off_lt hx k b)
  · exact hc.gd u hu _ (by rw [numCoords_eq]; exact off_lt hx' k' b)
  · obtain ⟨m', hm'⟩ := hok u hu
    obtain ⟨H, -, hH, -⟩ := value_is_cost (nonneg_rowsMod (positive_nonneg m hw) (q u, p u)) hm'
    have ha : GeodesicCostAt m (q u, p u) H := ⟨m', hm', hH⟩
    have hv := (hamField_contDiffAt (k := 0) hs (by simp) (v := entries (numCoords m) (q u, p u))
      (by rw [rowsMod_entries]; exact ⟨m', hm'⟩)).2.self_of_nhds
    rw [rhsV_entries] at hv
    obtain ⟨y, hy, hye⟩ := map_eq_ok hv
    have e : ∀ {i n : Nat} {x : Fin n → Vec d}, m.manifold.At i x → ∀ k : Fin n,
        block (d := d) (n := n) (m.manifold.off i) (partialP (ham m) (q u) (p u)) k = block (d := d) (n := n) (m.manifold.off i) y.1 k := fun {i n x} hx k => by
      funext b
      have hj : m.manifold.off i + (k * d + b) < numCoords m := by rw [numCoords_eq]; exact off_lt hx k b
      have h1 : y.1 (m.manifold.off i + (k * d + b)) = (hamField m (entries (numCoords m) (q u, p u))).1 ⟨_, hj⟩ := by rw [← hye]; rfl
      show partialP (ham m) (q u) (p u) (m.manifold.off i + (k * d + b)) = y.1 (m.manifold.off i + (k * d + b))
      rw [h1, hamField_eq]
      exact ((partials_congr (ham_reads m) (q := (finRows (entries (numCoords m) (q u, p u))).1) (q' := q u)
        (p := (finRows (entries (numCoords m) (q u, p u))).2) (p' := p u) (fun j hj => extRow_lt _ hj) fun j hj => extRow_lt _ hj).2 _ hj).symm
    have h2 := rhs_steady hw ha hy hx hx' k k'
    rw [← ham_cost (positive_nonneg m hw) ha, show ham m (q u, p u).1 (q u, p u).2 = ham m (q u) (p u) from rfl, C81_energy hs hc hok u hu] at h2
    rw [e hx, e hx']
    exact euclid_le_of_sq h2
end

theorem euclid_near {x x' y y' : Vec d} {ε : ℝ} (h : ∀ b, |y b - x b| ≤ ε) (h' : ∀ b, |y' b - x' b| ≤ ε) : |euclid y y' - euclid x x'| ≤ 2 * d * ε := by
  have one : ∀ {x y : Vec d}, (∀ b, |y b - x b| ≤ ε) → euclid y x ≤ d * ε := fun {x y} h => by
    have hd : 0 ≤ (d : ℝ) * ε := by
      rcases Nat.eq_zero_or_pos d with h0 | h0
      · rw [h0]; simp
      · exact mul_nonneg (Nat.cast_nonneg _) ((abs_nonneg _).trans (h ⟨0, h0⟩))
    refine abs_le_of_sq_le_sq' ?_ hd |>.2
    rw [euclid_sq]
    calc ∑ b, (y b - x b) ^ 2 ≤ ∑ _b : Fin d, ε ^ 2 := Finset.sum_le_sum fun b _ => by
          rw [← sq_abs]; exact pow_le_pow_left₀ (abs_nonneg _) (h b) 2
      _ = d * ε ^ 2 := by rw [Finset.sum_const, Finset.card_univ, Fintype.card_fin, nsmul_eq_mul]
      _ ≤ (d : ℝ) ^ 2 * ε ^ 2 := mul_le_mul_of_nonneg_right (by exact_mod_cast Nat.le_self_pow two_ne_zero d) (sq_nonneg _)
      _ = (d * ε) ^ 2 := by ring
  have h1 := one h
  have h2 := one h'
  have t1 : euclid y y' ≤ euclid y x + euclid x x' + euclid y' x' := by
    unfold euclid at *
    calc _ ≤ _ := dist_triangle4 _ (WithLp.toLp 2 x : EuclideanSpace ℝ (Fin d)) (WithLp.toLp 2 x') _
      _ = _ := by rw [dist_comm (WithLp.toLp 2 x' : EuclideanSpace ℝ (Fin d)) (WithLp.toLp 2 y')]
  have t2 : euclid x x' ≤ euclid y x + euclid y y' + euclid y' x' := by
    unfold euclid at *
    calc _ ≤ _ := dist_triangle4 _ (WithLp.toLp 2 y : EuclideanSpace ℝ (Fin d)) (WithLp.toLp 2 y') _
      _ = _ := by rw [dist_comm (WithLp.toLp 2 x : EuclideanSpace ℝ (Fin d)) (WithLp.toLp 2 y)]
  rw [abs_le]
  constructor <;> linarith

/-- **C105 for every method, in the limit.** Shooting from momenta changes the distance of two carried points by a factor between `e^(-c T)` and
`e^(c T)`, where `c` is the root of twice the stretch times the first recorded cost, up to a constant over the power of the number of steps that
belongs to the method. -/
theorem C105_limit {ms : List (DefModule d)} (s : Solver) (hs : (DefModule.compound ms).Smooth (s.order + 1 : Nat)) (hp : PlainMembers ms)
    (hn : 0 < numCoords (.compound ms)) (hw : (DefModule.compound ms).PositiveWeights)
    {T : ℝ} (hT : 0 < T) {q p : ℝ → Row} (hc : HamiltonCurve (numCoords (.compound ms)) (ham (.compound ms)) T q p)
    (h0 : ∀ j < numCoords (.compound ms), q 0 j = gdRow (.compound ms) j ∧ p 0 j = cotRow (.compound ms) j)
    (hok : ∀ t ∈ Icc 0 T, ∃ m', Hamiltonian.geodesicControls (rowsMod (.compound ms) (q t, p t)) = .ok m') :
    ∃ C n₀ a, ∀ it ≥ n₀, it ≠ 0 → ∃ r, shootMoments s it T (.compound ms) = .ok r ∧ r.costs[0]? = some a ∧ ∃ place : Nat → Nat → Vec d,
      (∀ (i n : Nat) (x : Fin n → Vec d), (DefModule.compound ms).manifold.At i x → r.module.manifold.At i fun k : Fin n => place i k) ∧
      ∀ (i n j n' : Nat) (x : Fin n → Vec d) (x' : Fin n' → Vec d), (DefModule.compound ms).manifold.At i x → (DefModule.compound ms).manifold.At j x' →
        ∀ k k', Real.exp (-(√(2 * (DefModule.compound ms).stretch * a) * T)) * euclid (x k) (x' k') - C / it ^ s.order ≤ euclid (place i k) (place j k') ∧
          euclid (place i k) (place j k') ≤ Real.exp (√(2 * (DefModule.compound ms).stretch * a) * T) * euclid (x k) (x' k') + C / it ^ s.order := by
  obtain ⟨C, n₀, h⟩ := C102_order s hs hp hn hT hc h0 hok
  set m := DefModule.compound ms with hm
  set a := ham m (gdRow m) (cotRow m) with ha
  have hs1 : m.Smooth 1 := smooth_of_le (one_le_order s) hs
  have e0 : ham m (q 0) (p 0) = a := ham_reads m (fun j hj => (h0 j hj).1) fun j hj => (h0 j hj).2
  refine ⟨2 * d * C, n₀, a, fun it hit hne => ?_⟩
  obtain ⟨r, h1, h2, h3⟩ := h it hit hne
  obtain ⟨xs, g1, g2, g3, -⟩ := shoot_ok hp hn h1
  have hlen := (orbit_steps g1).1
  obtain ⟨z, hz⟩ : ∃ z, xs[it]? = some z := ⟨_, List.getElem?_eq_getElem (by omega)⟩
  have hlast : xs.getLastD (gdRow m, cotRow m) = z := by
    rw [List.getLastD_eq_getLast?, List.getLast?_eq_getElem?, hlen, Nat.add_sub_cancel, hz]; rfl
  rw [hlast] at g3
  refine ⟨r, h1, first_cost (positive_nonneg _ hw) hne h1, fun i k c => z.1 (m.manifold.off i + (k * d + c)), fun i n x hx => ?_, fun i n j n' x x' hx hx' k k' => ?_⟩
  · rw [manifold_of_reset g3]; exact At_rowsMod hx z
  obtain ⟨S, hS, hSw⟩ := h3 it le_rfl
  have hpos : (0 : ℝ) < it := by exact_mod_cast Nat.pos_of_ne_zero hne
  have hTT : T * it / it = T := by field_simp
  rw [hTT] at hSw
  rw [g2, List.getElem?_map, hz] at hS
  obtain rfl := Option.some.inj hS
  have hent : ∀ j < numCoords m, |z.1 j - q T j| ≤ C / it ^ s.order := fun j hj => by
    have e1 : rowOf (rowsMod m z).manifold.unrollGd.flatten j = z.1 j := by
      have := congrFun (gdRow_rowsMod m z) j
      rw [cut_of_lt hj] at this; exact this
    rw [← e1]; exact (hSw j hj).1
  have hq0 : ∀ {i n : Nat} {x : Fin n → Vec d}, m.manifold.At i x → ∀ k : Fin n, block (d := d) (n := n) (m.manifold.off i) (q 0) k = x k := fun {i n x} hx k => by
    funext b
    have hj : m.manifold.off i + (k * d + b) < numCoords m := by rw [numCoords_eq]; exact off_lt hx k b
    have := congrFun (congrFun hx.row k) b
    rw [← this]
    exact (h0 _ hj).1
  have hcurve := C105_curve hw hs1 hc hok hx hx' k k' (right_mem_Icc.2 hT.le)
  rw [e0, hq0 hx, hq0 hx'] at hcurve
  have hnear := euclid_near (x := block (d := d) (n := n) (m.manifold.off i) (q T) k) (x' := block (d := d) (n := n') (m.manifold.off j) (q T) k')
    (y := block (d := d) (n := n) (m.manifold.off i) z.1 k) (y' := block (d := d) (n := n') (m.manifold.off j) z.1 k') (ε := C / it ^ s.order)
    (fun b => hent _ (by rw [numCoords_eq]; exact off_lt hx k b)) (fun b => hent _ (by rw [numCoords_eq]; exact off_lt hx' k' b))
  have e : 2 * d * C / (it : ℝ) ^ s.order = 2 * d * (C / it ^ s.order) := by ring
  rw [e]
  obtain ⟨n1, n2⟩ := abs_le.1 hnear
  constructor
  · show _ ≤ euclid (block (d := d) (n := n) (m.manifold.off i) z.1 k) (block (d := d) (n := n') (m.manifold.off j) z.1 k')
    linarith [hcurve.1]
  · show euclid (block (d := d) (n := n) (m.manifold.off i) z.1 k) (block (d := d) (n := n') (m.manifold.off j) z.1 k') ≤ _
    linarith [hcurve.2]

/-- **C105 for every method.** With sufficiently many steps, shooting from momenta takes different points of a carried shape to different places. -/
theorem C105_injective {ms : List (DefModule d)} (s : Solver) (hs : (DefModule.compound ms).Smooth (s.order + 1 : Nat)) (hp : PlainMembers ms)
    (hn : 0 < numCoords (.compound ms)) (hw : (DefModule.compound ms).PositiveWeights)
    {T : ℝ} (hT : 0 < T) {q p : ℝ → Row} (hc : HamiltonCurve (numCoords (.compound ms)) (ham (.compound ms)) T q p)
    (h0 : ∀ j < numCoords (.compound ms), q 0 j = gdRow (.compound ms) j ∧ p 0 j = cotRow (.compound ms) j)
    (hok : ∀ t ∈ Icc 0 T, ∃ m', Hamiltonian.geodesicControls (rowsMod (.compound ms) (q t, p t)) = .ok m')
    {i n : Nat} {x : Fin n → Vec d} (hx : (DefModule.compound ms).manifold.At i x) (hinj : Function.Injective x) :
    ∃ n₀, ∀ it ≥ n₀, ∃ r y, shootMoments s it T (.compound ms) = .ok r ∧ r.module.manifold.At i y ∧ Function.Injective (y : Fin n → Vec d) := by
  obtain ⟨C, n₁, a, h⟩ := C105_limit s hs hp hn hw hT hc h0 hok
  set ρ := Real.exp (-(√(2 * (DefModule.compound ms).stretch * a) * T)) with hρ
  obtain ⟨δ, hδ, hmin⟩ : ∃ δ > 0, ∀ k k' : Fin n, k ≠ k' → δ ≤ euclid (x k) (x k') := by
    classical
    by_cases hne : ((Finset.univ : Finset (Fin n × Fin n)).filter fun e => e.1 ≠ e.2).Nonempty
    · obtain ⟨e, he, hmin⟩ := Finset.exists_min_image _ (fun e : Fin n × Fin n => euclid (x e.1) (x e.2)) hne
      refine ⟨_, lt_of_le_of_ne (euclid_nonneg (x e.1) (x e.2)) fun hz => ?_, fun k k' hk => hmin (k, k') (by simpa using hk)⟩
      exact (Finset.mem_filter.1 he).2 (hinj (euclid_eq_zero.1 hz.symm))
    · refine ⟨1, one_pos, fun k k' hk => absurd ⟨(k, k'), by simpa using hk⟩ hne⟩
  have hlim : Filter.Tendsto (fun it : Nat => C / (it : ℝ) ^ s.order) Filter.atTop (nhds 0) := by
    have : s.order ≠ 0 := by cases s <;> decide
    exact Filter.Tendsto.div_atTop tendsto_const_nhds ((Filter.tendsto_pow_atTop this).comp tendsto_natCast_atTop_atTop)
  have hρδ : 0 < ρ * δ := mul_pos (Real.exp_pos _) hδ
  obtain ⟨n₂, hn₂⟩ := Filter.eventually_atTop.1 (hlim.eventually (gt_mem_nhds hρδ))
  refine ⟨max (max n₁ n₂) 1, fun it hit => ?_⟩
  obtain ⟨r, h1, -, place, h2, h3⟩ := h it (by omega) (by omega)
  refine ⟨r, _, h1, h2 i n x hx, fun k k' he => ?_⟩
  by_contra hk
  have g1 := (h3 i n i n x x hx hx k k').1
  have he' : place i k = place i k' := he
  rw [he', euclid_eq_zero.2 rfl] at g1
  have g2 := hn₂ it (by omega)
  have g3 := mul_le_mul_of_nonneg_left (hmin k k' hk) (Real.exp_pos (-(√(2 * (DefModule.compound ms).stretch * a) * T))).le
  linarith

/-! ### The bound is attained -/

/-- The points 0 and 1 of the line, and a contraction to 0. -/
def couple : Deformable 1 (Points 1) := ⟨2, fun p _ => (p : ℕ), 0, none, fun p => .ok p⟩
def shrink : Linear 1 := ⟨-1, 0, 0, 1, 0⟩

theorem couple_fill (u : ℝ) (x : Row) : ((DefModule.compound [couple.silent, .linear shrink]).withGd x 0).fillControls (.list [.none, .scalar u])
    = .ok (.compound [.silent (.landmarks (viewVecs x : Fin 2 → Vec 1) 0), .linear ⟨-1, fun _ => x 2, 0, 1, u⟩]) := by
  simp only [couple, shrink, Deformable.silent, DefModule.withGd, DefModule.withGdAll, Mfd.withGd, DefModule.fillControls, DefModule.fillAll,
    DefModule.manifold, Linear.manifold, Mfd.size, List.length_cons, List.length_nil]
  simp
  funext b
  simp [viewVecs]

theorem couple_rhs (u : ℝ) (x : Row) : ctrlRhs (.compound [couple.silent, .linear shrink]) (.list [.none, .scalar u]) x
    = .ok fun j => if j < 2 then -u * (x j - x 2) else 0 := by
  unfold ctrlRhs ctrlEval
  rw [couple_fill]
  simp only [DefModule.cost, DefModule.costs, DefModule.field, DefModule.fields, mkSumField, DefModule.manifold, DefModule.manifolds, Linear.manifold,
    Mfd.action, Mfd.actionAll, actLandmarks, Linear.field]
  have hv : ∀ (n : Nat) (y : Fin n → Vec 1), (FieldExpr.sum [FieldExpr.null, FieldExpr.affine (u • (-1 : Mat 1)) (fun _ => x 2) 0] : FieldExpr 1).values y
      = .ok fun i _ => -u * (y i 0 - x 2) := fun n y => by
    simp only [FieldExpr.values, FieldExpr.batch, FieldExpr.eval, FieldExpr.evalSum]
    congr 1
    funext i b
    obtain rfl : b = 0 := Subsingleton.elim _ _
    simp [fieldAffine]
    ring
  rw [hv, hv]
  simp only [Except.map, Tan.unroll, Tan.unrollAll]
  congr 1
  funext j
  simp only [rowOf, flatVecs]
  match j with
  | 0 => simp [viewVecs]
  | 1 => simp [viewVecs]
  | 2 => simp
  | j + 3 => simp

/-- One step of Euler's method with control `u` between 0 and 1 takes the points to 0 and `1 - u` and costs `u ^ 2 / 2`: the distance is the
factor `1 - √(2 · stretch · cost)` times what it was. At `u = 1` the two points meet: the bound of `C105_apart` cannot be raised.
The hypotheses of `C105_bounds` are met here. -/
theorem C105_tight (u : ℝ) (h0 : 0 ≤ u) (h1 : u ≤ 1) : ∃ r, computeDeformed [couple] [.linear shrink] (.fixed .euler) 1 true
      (some [[.scalar u]]) 1 .sum = .ok r ∧ r.geometries = [⟨2, fun (p : Fin 2) _ => (1 - u) * (p : ℕ)⟩] ∧ r.shot.costs = [u ^ 2 / 2] ∧
      (r.shot.costs.map fun a => 1 - |(1 : ℝ) / (1 : ℕ)| * √(2 * DefModule.stretches [.linear shrink] * a)).prod = 1 - u := by
  obtain ⟨r, hr⟩ := C90_deformed_returns (Ds := [couple]) (by simp [couple]) (by simp [couple]) (D := couple) (by simp) (by simp [couple])
    (ms := [.linear shrink]) (by simp [DefModule.AllSettable, DefModule.Settable, shrink]) (by
      intro m hm
      simp only [DefModule.manifolds, DefModule.manifold, Linear.manifold, List.mem_cons, List.not_mem_nil, or_false] at hm
      rw [hm]; simp [Mfd.Plain, Mfd.hasShapeGd]) .euler 1 one_ne_zero true
    (cs := [[.scalar u]]) (by
      intro row hrow
      simp only [List.mem_cons, List.not_mem_nil, or_false] at hrow
      rw [hrow]; exact .cons (by rw [DefModule.Fits]; exact ⟨_, rfl⟩) .nil) (Or.inl rfl)
  obtain ⟨-, -, costs, hs, -⟩ := computeDeformed_inv hr
  obtain ⟨hs, -⟩ := fixed_shot hs
  have hs : shootControls .euler 1 1 [.list [.none, .scalar u]] (.compound [couple.silent, .linear shrink]) = .ok r.shot := hs
  obtain ⟨hl, ys, hc⟩ := C27_controls _ hs
  obtain ⟨x, a, c', e1, e2, ⟨m', e3, e4⟩, -⟩ := hc.2 0 one_pos
  obtain rfl : c' = .list [.none, .scalar u] := by simpa using e2
  rw [couple_fill] at e3
  obtain rfl := Except.ok.inj e3
  have ha : a = u ^ 2 / 2 := by
    simp [DefModule.cost, DefModule.costs, Linear.cost] at e4
    rw [← e4]; ring
  have hcs1 : r.shot.costs = [u ^ 2 / 2] := by
    match r.shot.costs, hl, e1 with
    | [b], _, e1 => simp at e1; rw [e1, ha]
  refine ⟨r, hr, ?_, hcs1, ?_⟩
  · obtain ⟨xs', x1, x2, x3, x4, x5⟩ := C28_per_step_partial _ (by decide) (by simp) hs
    obtain ⟨a, b, ha, hb, c, hc, hstep⟩ := x5 0 one_pos
    obtain rfl : c = .list [.none, .scalar u] := by simpa using hc.symm
    rw [x2] at ha
    obtain rfl := Option.some.inj ha
    simp only [stepWith, couple_rhs, Except.map] at hstep
    have hat : (DefModule.compound [couple.silent, .linear shrink]).manifold.At 0 couple.gd :=
      deformable_at (Ds := [couple]) (ms := [.linear shrink]) rfl
    have hend : r.shot.module.manifold.At 0 (block (d := 1) (n := 2) ((DefModule.compound [couple.silent, .linear shrink]).manifold.off 0) (xs'.getD 1 0)) := by
      rw [x4, DefModule.manifold_withGd, getLastD_eq x1]
      exact (hat.withGd _).1
    have hrow : gdRow (.compound [couple.silent, .linear shrink]) = fun j => if j = 1 then 1 else 0 := by
      funext j
      simp only [gdRow, couple, shrink, Deformable.silent, DefModule.manifold, DefModule.manifolds, Linear.manifold, Mfd.unrollGd, Mfd.unrollGdAll, rowOf, flatVecs]
      match j with
      | 0 => simp
      | 1 => simp
      | 2 => simp
      | j + 3 => simp
    have hblock : block (d := 1) (n := 2) ((DefModule.compound [couple.silent, .linear shrink]).manifold.off 0) (xs'.getD 1 0) = fun (p : Fin 2) _ => (1 - u) * (p : ℕ) := by
      rw [List.getD_eq_getElem?_getD, hb, ← Except.ok.inj hstep, hrow]
      funext i k
      obtain rfl : k = 0 := Subsingleton.elim _ _
      fin_cases i
      · simp [block, viewVecs, Mfd.off, DefModule.manifold, DefModule.manifolds, Mfd.sizeAll]
      · simp [block, viewVecs, Mfd.off, DefModule.manifold, DefModule.manifolds, Mfd.sizeAll]
        ring
    rw [hblock] at hend
    obtain ⟨g, hg, hg'⟩ := geometry_at hr (i := 0) (D := couple) rfl hend
    have hlen := (C33_partial hr).1
    have : g = ⟨2, fun (p : Fin 2) _ => (1 - u) * (p : ℕ)⟩ := by
      have : Except.ok (⟨2, fun (p : Fin 2) _ => (1 - u) * (p : ℕ)⟩ : Points 1) = (Except.ok g : Py (Points 1)) := hg'
      exact (Except.ok.inj this).symm
    match hr' : r.geometries with
    | [] => rw [hr'] at hg; cases hg
    | [g'] => rw [hr'] at hg; simp at hg; rw [hg, this]
    | _ :: _ :: _ => rw [hr'] at hlen; simp at hlen
  · rw [hcs1]
    simp only [DefModule.stretches, DefModule.stretch, shrink, List.map_cons, List.map_nil, List.prod_cons, List.prod_nil]
    have : 2 * ((∑ b : Fin 1, ∑ c : Fin 1, (-1 : Mat 1) b c ^ 2) / 1 + 0) * (u ^ 2 / 2) = u ^ 2 := by simp; ring
    rw [this, Real.sqrt_sq h0]
    simp

/-- Points attracted by points in the plane, beside a shape that is carried along: no two points of the shape meet, with any of the methods. -/
example {k l : Nat} (D : Implicit0 2 l) (hν : 0 < D.ν) (hc : 0 < D.coeff) (x p : Fin (k + 1) → Vec 2) (hinj : Function.Injective x) (s : Solver) :
    ∃ T > 0, ∃ n₀, ∀ it ≥ n₀, ∃ r y, shootMoments s it T (.compound [.implicit0 D, .silent (.landmarks x p)]) = .ok r ∧
      r.module.manifold.At 1 y ∧ Function.Injective (y : Fin (k + 1) → Vec 2) := by
  have hr : (DefModule.compound [.implicit0 D, .silent (.landmarks x p)]).Regular := by
    simp [DefModule.Regular, DefModule.AllRegular, Mfd.NoEmptyCompound, Mfd.NoDirections, hν, hc]
  obtain ⟨T, q, p', hT, h1, h2, h3⟩ := C80_exists (hr.smooth 2) (by
    obtain ⟨m', h⟩ := regular_evalAt hr (gdRow _, cotRow _)
    exact evalAt_geodesic h)
  exact ⟨T, hT, C105_injective s (hr.smooth _) (ms := [.implicit0 D, .silent (.landmarks x p)])
    (by simp [PlainMembers, DefModule.manifolds, DefModule.manifold, Implicit0.manifold, Mfd.Plain, Mfd.hasShapeGd])
    (by simp [numCoords, DefModule.manifolds, DefModule.manifold, Implicit0.manifold, Mfd.unrollGd, Mfd.unrollGdAll, length_flatVecs])
    (by simp [DefModule.PositiveWeights, DefModule.AllPositiveWeights, hν.le, hc]) hT h1 h2 h3
    (i := 1) ⟨[Mfd.landmarks D.gd D.cot], [], p, by simp [DefModule.manifold, DefModule.manifolds, Implicit0.manifold], rfl⟩ hinj⟩

end
end Imodal
