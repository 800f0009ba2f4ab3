import Verif.Spec.Aabb
import Verif.Spec.Drawn
/-!
# C118: what is drawn
-/
set_option autoImplicit false
namespace Imodal
noncomputable section

/-! ## Grids -/

theorem consecutive_map_range {β : Type} (f : Nat → β) (n : Nat) (p q : β) : (p, q) ∈ Spec.segments ((List.range n).map f) ↔ ∃ i, i + 1 < n ∧ p = f i ∧ q = f (i + 1) := by
  unfold Spec.segments
  rw [List.mem_iff_getElem]
  constructor
  · rintro ⟨i, hi, h⟩
    simp only [List.length_zip, List.length_map, List.length_range, List.length_tail] at hi
    simp only [List.getElem_zip, List.getElem_map, List.getElem_range, List.getElem_tail, Prod.mk.injEq] at h
    exact ⟨i, by omega, h.1.symm, h.2.symm⟩
  · rintro ⟨i, hi, rfl, rfl⟩
    exact ⟨i, by simp; omega, by simp⟩

/-- **C118.** A grid of `n` rows and `m` columns is drawn as `n + m` lines, and their segments join the points that
are neighbours in the grid: all of them and nothing else. -/
theorem C118_grid (n m : Nat) (gx gy : Nat → Nat → ℝ) (p q : ℝ × ℝ) : (plotGrid n m gx gy).length = n + m ∧
    ((∃ l ∈ plotGrid n m gx gy, (p, q) ∈ Spec.segments l) ↔
      ∃ i j, p = (gx i j, gy i j) ∧ (i < n ∧ j + 1 < m ∧ q = (gx i (j + 1), gy i (j + 1)) ∨ i + 1 < n ∧ j < m ∧ q = (gx (i + 1) j, gy (i + 1) j))) := by
  unfold plotGrid
  refine ⟨by simp, ?_⟩
  simp only [List.mem_append, List.mem_map, List.mem_range]
  constructor
  · rintro ⟨l, ⟨i, hi, rfl⟩ | ⟨j, hj, rfl⟩, h⟩
    · obtain ⟨j, h1, h2, h3⟩ := (consecutive_map_range _ _ _ _).1 h
      exact ⟨i, j, h2, .inl ⟨hi, h1, h3⟩⟩
    · obtain ⟨i, h1, h2, h3⟩ := (consecutive_map_range _ _ _ _).1 h
      exact ⟨i, j, h2, .inr ⟨h1, hj, h3⟩⟩
  · rintro ⟨i, j, h, ⟨hi, hj, hq⟩ | ⟨hi, hj, hq⟩⟩
    · exact ⟨_, .inl ⟨i, hi, rfl⟩, (consecutive_map_range _ _ _ _).2 ⟨j, hj, h, hq⟩⟩
    · exact ⟨_, .inr ⟨j, hj, rfl⟩, (consecutive_map_range _ _ _ _).2 ⟨i, hi, h, hq⟩⟩

/-! ## Growth constants -/

/-- **C118.** The arrows of a point: each is centred at it, runs along an axis of its frame, and is as long as the
scaled growth constant along that axis; its heads point inward exactly if that is not positive. -/
theorem C118_arrows (pos C : Vec 2) (R : Option (Mat 2)) (scale : ℝ) : ∃ A B : Arrow, plotArrows pos C R scale = [A, B] ∧
    (∀ c, (A.start c + A.stop c) / 2 = pos c) ∧ (∀ c, (B.start c + B.stop c) / 2 = pos c) ∧
    (∀ c, A.stop c - A.start c = scale * C 0 * frameOf R c 0) ∧ (∀ c, B.stop c - B.start c = scale * C 1 * frameOf R c 1) ∧
    (A.inward ↔ scale * C 0 ≤ 0) ∧ (B.inward ↔ scale * C 1 ≤ 0) := by
  refine ⟨_, _, rfl, fun c => ?_, fun c => ?_, fun c => ?_, fun c => ?_, Iff.rfl, Iff.rfl⟩ <;>
    simp [Matrix.mulVec, dotProduct, Fin.sum_univ_two] <;> ring

/-- Their lengths in a frame whose axes have length one. -/
theorem C118_arrow_lengths (pos C : Vec 2) (R : Option (Mat 2)) (hR : (frameOf R).transpose * frameOf R = 1) (scale : ℝ) : ∃ A B : Arrow, plotArrows pos C R scale = [A, B] ∧
    ∑ c, (A.stop c - A.start c) ^ 2 = (scale * C 0) ^ 2 ∧ ∑ c, (B.stop c - B.start c) ^ 2 = (scale * C 1) ^ 2 ∧
    ∑ c, (A.stop c - A.start c) * (B.stop c - B.start c) = 0 := by
  obtain ⟨A, B, h, -, -, hA, hB, -⟩ := C118_arrows pos C R scale
  have h00 := congrFun (congrFun hR 0) 0
  have h01 := congrFun (congrFun hR 0) 1
  have h11 := congrFun (congrFun hR 1) 1
  simp only [Matrix.mul_apply, Matrix.transpose_apply, Fin.sum_univ_two, Matrix.one_apply, if_true] at h00 h01 h11
  rw [if_neg (by decide)] at h01
  refine ⟨A, B, h, ?_, ?_, ?_⟩ <;> simp only [hA, hB, Fin.sum_univ_two]
  · linear_combination (scale * C 0) ^ 2 * h00
  · linear_combination (scale * C 1) ^ 2 * h11
  · linear_combination scale * C 0 * (scale * C 1) * h01

theorem sign_abs (a : ℝ) : ∃ σ : ℝ, σ ^ 2 = 1 ∧ a = σ * |a| ∧ |a| = σ * a := by
  rcases abs_cases a with ⟨h, -⟩ | ⟨h, -⟩
  · exact ⟨1, by norm_num, by rw [h]; ring, by rw [h]; ring⟩
  · exact ⟨-1, by norm_num, by rw [h]; ring, by rw [h]; ring⟩

theorem turn_frame {R : Option (Mat 2)} (hR : (frameOf R).transpose * frameOf R = 1) :
    Spec.turn (frameAngle R) = !![frameOf R 0 0, -frameOf R 1 0; frameOf R 1 0, frameOf R 0 0] := by
  have h00 := congrFun (congrFun hR 0) 0
  simp only [Matrix.mul_apply, Matrix.transpose_apply, Fin.sum_univ_two, Matrix.one_apply, if_true] at h00
  cases R with
  | none => simp [Spec.turn, frameAngle, frameOf]
  | some R =>
    change R 0 0 * R 0 0 + R 1 0 * R 1 0 = 1 at h00
    have hn : ‖(⟨R 0 0, R 1 0⟩ : ℂ)‖ = 1 := by
      rw [Complex.norm_def, Complex.normSq_mk, h00, Real.sqrt_one]
    have hz : (⟨R 0 0, R 1 0⟩ : ℂ) ≠ 0 := fun h => by rw [h] at hn; simp at hn
    have ha : frameAngle (some R) * Real.pi / 180 = Complex.arg ⟨R 0 0, R 1 0⟩ := by
      unfold frameAngle
      field_simp [Real.pi_ne_zero]
    unfold Spec.turn
    rw [ha, Complex.cos_arg hz, Complex.sin_arg, hn]
    simp [frameOf]

/-- **C118.** The ellipse drawn at a point is the circle of diameter one, stretched by the scaled growth constants
along the axes, and carried to the frame of the point: for any frame of orthogonal unit axes, of either orientation. -/
theorem C118_ellipses (pos C : Vec 2) (R : Option (Mat 2)) (hR : (frameOf R).transpose * frameOf R = 1) (scale : ℝ) :
    Spec.ellipse (plotEllipse pos C R scale) = {p | ∃ u : Vec 2, u 0 ^ 2 + u 1 ^ 2 = 1 ∧ p = (frameOf R).mulVec ![scale * C 0 * (u 0 / 2), scale * C 1 * (u 1 / 2)] + pos} := by
  have h00 := congrFun (congrFun hR 0) 0
  have h01 := congrFun (congrFun hR 0) 1
  have h11 := congrFun (congrFun hR 1) 1
  simp only [Matrix.mul_apply, Matrix.transpose_apply, Fin.sum_univ_two, Matrix.one_apply, if_true] at h00 h01 h11
  rw [if_neg (by decide)] at h01
  unfold Spec.ellipse plotEllipse
  dsimp only
  rw [turn_frame hR]
  generalize frameOf R = F at *
  -- the second axis is the first turned by a right angle, or its opposite
  obtain ⟨ε, hε, e1, e2⟩ : ∃ ε : ℝ, ε ^ 2 = 1 ∧ F 0 1 = -ε * F 1 0 ∧ F 1 1 = ε * F 0 0 := by
    refine ⟨F 0 0 * F 1 1 - F 1 0 * F 0 1, ?_, ?_, ?_⟩
    · linear_combination (F 0 1 * F 0 1 + F 1 1 * F 1 1) * h00 + h11 - (F 0 0 * F 0 1 + F 1 0 * F 1 1) * h01
    · linear_combination (-F 0 1) * h00 + F 0 0 * h01
    · linear_combination (-F 1 1) * h00 + F 1 0 * h01
  obtain ⟨σ, hσ, s1, s2⟩ := sign_abs (scale * C 0)
  obtain ⟨τ, hτ, t1, t2⟩ := sign_abs (scale * C 1)
  generalize |scale * C 0| = w at *
  generalize |scale * C 1| = h at *
  generalize scale * C 0 = a at *
  generalize scale * C 1 = b at *
  ext p
  constructor
  · rintro ⟨u, hu, rfl⟩
    refine ⟨![σ * u 0, ε * τ * u 1], ?_, ?_⟩
    · simp only [Matrix.cons_val_zero, Matrix.cons_val_one]
      linear_combination hu + u 0 ^ 2 * hσ + u 1 ^ 2 * (ε ^ 2 * hτ + hε)
    · funext c
      fin_cases c
      · simp [Matrix.mulVec, dotProduct, Fin.sum_univ_two, e1]
        linear_combination F 0 0 * u 0 / 2 * s2 - F 1 0 * u 1 / 2 * t2 + F 1 0 * b * τ * u 1 / 2 * hε
      · simp [Matrix.mulVec, dotProduct, Fin.sum_univ_two, e2]
        linear_combination F 1 0 * u 0 / 2 * s2 + F 0 0 * u 1 / 2 * t2 - F 0 0 * b * τ * u 1 / 2 * hε
  · rintro ⟨u, hu, rfl⟩
    refine ⟨![σ * u 0, ε * τ * u 1], ?_, ?_⟩
    · simp only [Matrix.cons_val_zero, Matrix.cons_val_one]
      linear_combination hu + u 0 ^ 2 * hσ + u 1 ^ 2 * (ε ^ 2 * hτ + hε)
    · funext c
      fin_cases c
      · simp [Matrix.mulVec, dotProduct, Fin.sum_univ_two, e1]
        linear_combination F 0 0 * u 0 / 2 * s1 - F 1 0 * ε * u 1 / 2 * t1
      · simp [Matrix.mulVec, dotProduct, Fin.sum_univ_two, e2]
        linear_combination F 1 0 * u 0 / 2 * s1 + F 0 0 * ε * u 1 / 2 * t1

/-! ## Limits of three axes -/

theorem limMean_half (l : ℝ × ℝ) : |l.1 - limMean l| = |l.2 - l.1| / 2 ∧ |l.2 - limMean l| = |l.2 - l.1| / 2 := by
  unfold limMean
  constructor
  · rw [show l.1 - (l.1 + l.2) / 2 = -((l.2 - l.1) / 2) by ring, abs_neg, abs_div, abs_two]
  · rw [show l.2 - (l.1 + l.2) / 2 = (l.2 - l.1) / 2 by ring, abs_div, abs_two]

theorem plotRadius_eq (x y z : ℝ × ℝ) : plotRadius x y z = max (max |x.2 - x.1| |y.2 - y.1|) |z.2 - z.1| / 2 := by
  unfold plotRadius
  rw [(limMean_half x).1, (limMean_half x).2, (limMean_half y).1, (limMean_half y).2, (limMean_half z).1, (limMean_half z).2, max_self, max_self, max_self,
    max_div_div_right (by norm_num), max_div_div_right (by norm_num)]

/-- **C118.** The limits set for the three axes have the same lengths, namely the largest of the given ones, keep their
centres, and show all that was shown before. -/
theorem C118_aspect (x y z : ℝ × ℝ) : ∃ x' y' z' : ℝ × ℝ, aspectEqual x y z = (x', y', z') ∧
    (∀ l ∈ [x', y', z'], l.2 - l.1 = max (max |x.2 - x.1| |y.2 - y.1|) |z.2 - z.1|) ∧
    limMean x' = limMean x ∧ limMean y' = limMean y ∧ limMean z' = limMean z ∧
    Spec.between x ⊆ Spec.between x' ∧ Spec.between y ⊆ Spec.between y' ∧ Spec.between z ⊆ Spec.between z' := by
  have hr := plotRadius_eq x y z
  have hmean : ∀ (l : ℝ × ℝ) (r : ℝ), limMean (limMean l - r, limMean l + r) = limMean l := fun l r => by simp only [limMean]; ring
  have hsub : ∀ (l : ℝ × ℝ) (r : ℝ), |l.2 - l.1| / 2 ≤ r → Spec.between l ⊆ Spec.between (limMean l - r, limMean l + r) := fun l r h t ht => by
    have h0 : 0 ≤ r := (by positivity : (0 : ℝ) ≤ |l.2 - l.1| / 2).trans h
    obtain ⟨h1, h2⟩ := ht
    obtain ⟨h3, h4⟩ := abs_le.1 (show |l.2 - l.1| ≤ 2 * r by linarith)
    have h5 : limMean l - r ≤ min l.1 l.2 := le_min (by simp only [limMean]; linarith) (by simp only [limMean]; linarith)
    have h6 : max l.1 l.2 ≤ limMean l + r := max_le (by simp only [limMean]; linarith) (by simp only [limMean]; linarith)
    exact ⟨(min_le_left _ _).trans (h5.trans h1), (h2.trans h6).trans (le_max_right _ _)⟩
  have hx : |x.2 - x.1| / 2 ≤ plotRadius x y z := by
    rw [hr]; have := (le_max_left |x.2 - x.1| |y.2 - y.1|).trans (le_max_left _ |z.2 - z.1|); linarith
  have hy : |y.2 - y.1| / 2 ≤ plotRadius x y z := by
    rw [hr]; have := (le_max_right |x.2 - x.1| |y.2 - y.1|).trans (le_max_left _ |z.2 - z.1|); linarith
  have hz : |z.2 - z.1| / 2 ≤ plotRadius x y z := by
    rw [hr]; have := le_max_right (max |x.2 - x.1| |y.2 - y.1|) |z.2 - z.1|; linarith
  refine ⟨_, _, _, rfl, ?_, hmean _ _, hmean _ _, hmean _ _, hsub _ _ hx, hsub _ _ hy, hsub _ _ hz⟩
  intro l hl
  simp only [List.mem_cons, List.not_mem_nil, or_false] at hl
  rcases hl with rfl | rfl | rfl <;> dsimp only <;> rw [hr] <;> ring

/-- Doing it again changes nothing. -/
theorem C118_aspect_again (x y z x' y' z' : ℝ × ℝ) (h : aspectEqual x y z = (x', y', z')) : aspectEqual x' y' z' = (x', y', z') := by
  have h1 : 0 ≤ plotRadius x y z := by rw [plotRadius_eq]; positivity
  cases h
  have hr : plotRadius (limMean x - plotRadius x y z, limMean x + plotRadius x y z) (limMean y - plotRadius x y z, limMean y + plotRadius x y z)
      (limMean z - plotRadius x y z, limMean z + plotRadius x y z) = plotRadius x y z := by
    rw [plotRadius_eq]
    dsimp only
    have : ∀ m : ℝ, |m + plotRadius x y z - (m - plotRadius x y z)| = 2 * plotRadius x y z := fun m => by
      rw [show m + plotRadius x y z - (m - plotRadius x y z) = 2 * plotRadius x y z by ring, abs_of_nonneg (by linarith)]
    rw [this, this, this, max_self, max_self]
    ring
  have hmean : ∀ (l : ℝ × ℝ) (r : ℝ), limMean (limMean l - r, limMean l + r) = limMean l := fun l r => by simp only [limMean]; ring
  unfold aspectEqual
  dsimp only
  rw [hr, hmean, hmean, hmean]

/-- An axis that runs from large to small is turned round. -/
theorem C118_inverted_disagreement (x y z : ℝ × ℝ) (hx : x.2 < x.1) : ∃ x' y' z', aspectEqual x y z = (x', y', z') ∧ x'.1 < x'.2 := by
  refine ⟨_, _, _, rfl, ?_⟩
  have : 0 < plotRadius x y z := by
    rw [plotRadius_eq]
    have h1 : 0 < |x.2 - x.1| := abs_pos.2 (by linarith)
    have := (le_max_left |x.2 - x.1| |y.2 - y.1|).trans (le_max_left _ |z.2 - z.1|)
    linarith
  dsimp only
  linarith

/-! ## Boxes -/

theorem rectangle_eq_iff {a b c e a' b' c' e' : ℝ} (h1 : a ≤ b) (h2 : c ≤ e) (h1' : a' ≤ b') (h2' : c' ≤ e') :
    ({p : ℝ × ℝ | a ≤ p.1 ∧ p.1 ≤ b ∧ c ≤ p.2 ∧ p.2 ≤ e} = {p | a' ≤ p.1 ∧ p.1 ≤ b' ∧ c' ≤ p.2 ∧ p.2 ≤ e'}) ↔ a = a' ∧ b = b' ∧ c = c' ∧ e = e' := by
  constructor
  · intro h
    have k1 := (Set.ext_iff.1 h (a, c)).1 ⟨le_rfl, h1, le_rfl, h2⟩
    have k2 := (Set.ext_iff.1 h (b, e)).1 ⟨h1, le_rfl, h2, le_rfl⟩
    have k3 := (Set.ext_iff.1 h (a', c')).2 ⟨le_rfl, h1', le_rfl, h2'⟩
    have k4 := (Set.ext_iff.1 h (b', e')).2 ⟨h1', le_rfl, h2', le_rfl⟩
    change _ ∧ _ ∧ _ ∧ _ at k1 k2 k3 k4
    exact ⟨le_antisymm k3.1 k1.1, le_antisymm k2.2.1 k4.2.1, le_antisymm k3.2.2.1 k1.2.2.1, le_antisymm k2.2.2.2 k4.2.2.2⟩
  · rintro ⟨rfl, rfl, rfl, rfl⟩; rfl

/-- **C118.** A box is drawn where it is if its two lower limits are equal. Missing: other boxes
(`C118_box_disagreement`). -/
theorem C118_box_partial (x0 x1 y1 : ℝ) : ∃ r, plotAabb ⟨2, [x0, x0], [x1, y1]⟩ = .ok r ∧ Spec.rectangle r = {p | x0 ≤ p.1 ∧ p.1 ≤ x1 ∧ x0 ≤ p.2 ∧ p.2 ≤ y1} := by
  refine ⟨_, rfl, ?_⟩
  unfold Spec.rectangle
  dsimp only
  rw [add_sub_cancel, add_sub_cancel]

/-- Exactly the boxes with a second axis are drawn; for any other `plot_aabb` raises `IndexError`. Axes after the
second make no difference. -/
theorem C118_box_axes (b : AABB ℝ) (hb : b.WF) : (b.dim < 2 → plotAabb b = .error .index) ∧
    (2 ≤ b.dim → ∃ r, plotAabb b = .ok r ∧ plotAabb ⟨2, b.kmin.take 2, b.kmax.take 2⟩ = .ok r) := by
  have h1 := hb.lmin
  have h2 := hb.lmax
  obtain ⟨n, l, u⟩ := b
  dsimp only at h1 h2 ⊢
  constructor
  · intro h
    match l, h1 with
    | [], _ => rfl
    | [_], _ => rfl
    | _ :: _ :: _, h1 => simp at h1; omega
  · intro h
    match l, u, h1, h2 with
    | _ :: _ :: _, _ :: _ :: _, _, _ => exact ⟨_, rfl, rfl⟩
    | [], _, h1, _ => simp at h1; omega
    | [_], _, h1, _ => simp at h1; omega
    | _ :: _ :: _, [], _, h2 => simp at h2; omega
    | _ :: _ :: _, [_], _, h2 => simp at h2; omega

/-- The corner has its coordinates exchanged while the lengths have not: the rectangle is the box exactly if its two
lower limits are equal, and the box with its axes exchanged exactly if it is a square. -/
theorem C118_box_disagreement {x0 x1 y0 y1 : ℝ} (hx : x0 ≤ x1) (hy : y0 ≤ y1) : ∃ r, plotAabb ⟨2, [x0, y0], [x1, y1]⟩ = .ok r ∧
    (Spec.rectangle r = {p | x0 ≤ p.1 ∧ p.1 ≤ x1 ∧ y0 ≤ p.2 ∧ p.2 ≤ y1} ↔ x0 = y0) ∧
    (Spec.rectangle r = {p | y0 ≤ p.1 ∧ p.1 ≤ y1 ∧ x0 ≤ p.2 ∧ p.2 ≤ x1} ↔ x1 - x0 = y1 - y0) := by
  refine ⟨_, rfl, ?_, ?_⟩
  · unfold Spec.rectangle
    dsimp only
    rw [rectangle_eq_iff (by linarith) (by linarith) hx hy]
    exact ⟨fun h => h.1.symm, fun h => ⟨h.symm, by linarith, h, by linarith⟩⟩
  · unfold Spec.rectangle
    dsimp only
    rw [rectangle_eq_iff (by linarith) (by linarith) hy hx]
    exact ⟨fun h => by linarith [h.2.1], fun h => ⟨rfl, by linarith, rfl, by linarith⟩⟩

/-! ## Polylines -/

theorem segments_cons {β : Type} (a b : β) (l : List β) : Spec.segments (a :: b :: l) = (a, b) :: Spec.segments (b :: l) := rfl

theorem segments_snoc {β : Type} : (l : List β) → (a b : β) → Spec.segments (l ++ [a, b]) = Spec.segments (l ++ [a]) ++ [(a, b)]
  | [], a, b => rfl
  | [c], a, b => rfl
  | c :: c' :: l, a, b => by
    have := segments_snoc (c' :: l) a b
    rw [List.cons_append, List.cons_append] at this
    rw [List.cons_append, List.cons_append, segments_cons, this, List.cons_append, List.cons_append, segments_cons, List.cons_append]

theorem traced_lines (start : ℝ × ℝ) : (l : List (ℝ × ℝ)) → (cur : ℝ × ℝ) → (rest : List ((ℝ × ℝ) × PathCode)) →
    Spec.traced start cur (l.zip (List.replicate l.length .lineTo) ++ rest) = Spec.segments (cur :: l) ++ Spec.traced start ((cur :: l).getLast (by simp)) rest
  | [], cur, rest => rfl
  | v :: l, cur, rest => by
    rw [List.length_cons, List.replicate_succ, List.zip_cons_cons, List.cons_append, Spec.traced, traced_lines start l v rest, segments_cons, List.cons_append]
    rfl

/-- **C118.** A polyline with at least one vertex is drawn as the segments between successive vertices, and with
`close` also the one from the last back to the first. -/
theorem C118_polyline (a : ℝ × ℝ) (l : List (ℝ × ℝ)) (close : Bool) : ∃ P, plotPolyline (a :: l) close = .ok P ∧ P.codes.head? = some .moveTo ∧
    Spec.pathSegments P = Spec.segments (a :: l) ++ if close then [((a :: l).getLast (by simp), a)] else [] := by
  cases close with
  | false =>
    refine ⟨⟨a :: l, .moveTo :: List.replicate l.length .lineTo⟩, ?_, rfl, ?_⟩
    · simp [plotPolyline, PlotPath.new]
    · have := traced_lines a l a []
      rw [List.append_nil, Spec.traced] at this
      unfold Spec.pathSegments
      rw [List.zip_cons_cons, Spec.traced, this]
      simp
  | true =>
    refine ⟨⟨a :: l ++ [(0, 0)], .moveTo :: List.replicate l.length .lineTo ++ [.closePoly]⟩, ?_, rfl, ?_⟩
    · simp [plotPolyline, PlotPath.new]
    · have := traced_lines a l a [((0, 0), .closePoly)]
      unfold Spec.pathSegments
      rw [List.cons_append, List.cons_append, List.zip_cons_cons, List.zip_append (by simp), List.zip_cons_cons, List.zip_nil_left, Spec.traced, this]
      simp [Spec.traced]

/-- Without vertices it raises. -/
theorem C118_polyline_empty (close : Bool) : plotPolyline [] close = .error .value := by cases close <;> rfl

/-- **C118.** A closed shape is drawn with the same segments as a closed polyline. -/
theorem C118_closed (a : ℝ × ℝ) (l : List (ℝ × ℝ)) : ∃ vs P, plotClosedShape (a :: l) = .ok vs ∧ plotPolyline (a :: l) true = .ok P ∧ Spec.segments vs = Spec.pathSegments P := by
  obtain ⟨P, h1, -, h2⟩ := C118_polyline a l true
  refine ⟨_, P, rfl, h1, ?_⟩
  rw [h2, if_pos rfl]
  have h3 := segments_snoc (a :: l).dropLast ((a :: l).getLast (by simp)) a
  have h4 : (a :: l).dropLast ++ [(a :: l).getLast (by simp)] = a :: l := List.dropLast_append_getLast (by simp)
  rw [h4] at h3
  rw [← h3]
  congr 1
  conv_lhs => rw [← h4]
  simp

/-! ## Cases -/

/-- A frame turned by a third of a half turn has orthogonal axes of length one. -/
example : (frameOf (some !![1 / 2, -(√3 / 2); √3 / 2, 1 / 2])).transpose * frameOf (some !![1 / 2, -(√3 / 2); √3 / 2, 1 / 2]) = (1 : Mat 2) := by
  have h : √3 * √3 = 3 := Real.mul_self_sqrt (by norm_num)
  ext i j
  fin_cases i <;> fin_cases j <;> simp [frameOf, Matrix.mul_apply, Fin.sum_univ_two] <;> nlinarith

/-- The unit square shifted by five along the first axis is drawn at a place it does not meet. -/
example : ∃ r, plotAabb ⟨2, [5, 0], [6, 1]⟩ = .ok r ∧ Disjoint (Spec.rectangle r) {p | 5 ≤ p.1 ∧ p.1 ≤ 6 ∧ 0 ≤ p.2 ∧ p.2 ≤ 1} := by
  refine ⟨_, rfl, Set.disjoint_left.2 ?_⟩
  rintro p ⟨-, h, -⟩ ⟨h', -⟩
  norm_num at h
  linarith

/-- A triangle: three segments, the last of which closes it. -/
example : ∃ P, plotPolyline [(0, 0), (2, 0), (0, 3)] true = .ok P ∧ Spec.pathSegments P = [((0, 0), (2, 0)), ((2, 0), (0, 3)), ((0, 3), (0, 0))] := by
  obtain ⟨P, h, -, h'⟩ := C118_polyline (0, 0) [(2, 0), (0, 3)] true
  exact ⟨P, h, h'⟩

/-- **C118.** Bases in space: as many points as bases give three fans of arrows, red, green and blue. The arrow of a
point starts at it and runs along the column of its basis, times the length. -/
theorem C118_basis (points : List (Vec 3)) (basis : List (Mat 3)) (length : ℝ) (hn : points.length = basis.length) :
    ∃ r g b, plotBasis3d points basis length = .ok [⟨.red, r⟩, ⟨.green, g⟩, ⟨.blue, b⟩] ∧
      ∀ k, ∀ fan, [r, g, b][k]? = some fan → fan.length = points.length ∧
        ∀ (i : Nat) (p : Vec 3) (B : Mat 3), points[i]? = some p → basis[i]? = some B → ∃ stop : Vec 3, fan[i]? = some (p, stop) ∧
          ∀ (hk : k < 3), stop - p = length • B.mulVec (Pi.single ⟨k, hk⟩ 1) := by
  have key : ∀ c : Fin 3, (List.zipWith (fun p B => (p, fun a => p a + length * B a c)) points basis : List (Vec 3 × Vec 3)).length = points.length ∧
      ∀ (i : Nat) (p : Vec 3) (B : Mat 3), points[i]? = some p → basis[i]? = some B →
        ∃ stop : Vec 3, (List.zipWith (fun p B => (p, fun a => p a + length * B a c)) points basis : List (Vec 3 × Vec 3))[i]? = some (p, stop) ∧
          stop - p = length • B.mulVec (Pi.single c 1) := by
    intro c
    refine ⟨by simp [hn], fun i p B hp hB => ⟨fun a => p a + length * B a c, ?_, ?_⟩⟩
    · simp [List.getElem?_zipWith, hp, hB]
    · ext a
      simp
  refine ⟨_, _, _, if_pos hn, ?_⟩
  intro k fan hf
  match k with
  | 0 =>
    simp only [List.getElem?_cons_zero, Option.some.injEq] at hf
    subst hf
    exact ⟨(key 0).1, fun i p B hp hB => (key 0).2 i p B hp hB |>.imp fun _ h => ⟨h.1, fun _ => h.2⟩⟩
  | 1 =>
    simp only [List.getElem?_cons_succ, List.getElem?_cons_zero, Option.some.injEq] at hf
    subst hf
    exact ⟨(key 1).1, fun i p B hp hB => (key 1).2 i p B hp hB |>.imp fun _ h => ⟨h.1, fun _ => h.2⟩⟩
  | 2 =>
    simp only [List.getElem?_cons_succ, List.getElem?_cons_zero, Option.some.injEq] at hf
    subst hf
    exact ⟨(key 2).1, fun i p B hp hB => (key 2).2 i p B hp hB |>.imp fun _ h => ⟨h.1, fun _ => h.2⟩⟩
  | k + 3 => simp at hf

/-- Numbers of points and of bases that differ raise, unless one of them is one. -/
theorem C118_basis_refused (points : List (Vec 3)) (basis : List (Mat 3)) (length : ℝ) (hn : points.length ≠ basis.length)
    (h1 : points.length ≠ 1) (h2 : basis.length ≠ 1) : plotBasis3d points basis length = .error .value := by
  rw [plotBasis3d, if_neg hn, if_neg (by tauto)]

/-- The standard basis at one point of space: arrows of length a tenth along the axes. -/
example : ([![1, 2, 3]] : List (Vec 3)).length = ([1] : List (Mat 3)).length := rfl

end
end Imodal
