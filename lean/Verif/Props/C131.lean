import Verif.Model.ForwardImage
import Verif.Props.C76
/-!
# C131: deforming an image forward finds where its pixels come from

With `backward=False` the points of an image are carried along, and each pixel is read at an estimate
of the place that is carried to it. For square pixels and affine deformations of the plane the
estimate is exact at every inner pixel whose nearest point is an inner one, whichever of several
nearest points is chosen. An image that is not deformed is read at its own pixels.

The border is not corrected, and pixels that are not square make the estimate wrong.
-/
set_option autoImplicit false
namespace Imodal
open Matrix

namespace Spec

/-- A grid with columns `sx` and rows `sy` apart. -/
def RegularGrid (P : PointGrid) (h w : Nat) (x0 y0 sx sy : ℝ) : Prop :=
  ∀ i j, i < h → j < w → P i j = ![x0 + j * sx, y0 + i * sy]

/-- The nearest of the carried points, or one of them. -/
def IsNearest (h w : Nat) (P gd : PointGrid) (near : Nat → Nat → Nat × Nat) : Prop :=
  ∀ i j, i < h → j < w → (near i j).1 < h ∧ (near i j).2 < w ∧
    ∀ k l, k < h → l < w → ∑ a, (gd (near i j).1 (near i j).2 a - P i j a) ^ 2 ≤ ∑ a, (gd k l a - P i j a) ^ 2

/-- The grid carried by the affine map `x ↦ A x + c`. -/
def Carried (P gd : PointGrid) (h w : Nat) (A : Matrix (Fin 2) (Fin 2) ℝ) (c : Fin 2 → ℝ) : Prop :=
  ∀ i j, i < h → j < w → gd i j = A.mulVec (P i j) + c

/-- Neither in the first or last row nor in the first or last column. -/
def InnerPixel (h w i j : Nat) : Prop := 0 < i ∧ i < h - 1 ∧ 0 < j ∧ j < w - 1

end Spec

theorem inner_iff (h w i j : Nat) : Inner h w i j ↔ Spec.InnerPixel h w i j := by
  unfold Inner Spec.InnerPixel
  omega

variable {h w : Nat} {P gd : PointGrid} {x0 y0 sx sy : ℝ} {A : Matrix (Fin 2) (Fin 2) ℝ} {c : Fin 2 → ℝ} {near : Nat → Nat → Nat × Nat}

theorem step_regular (hP : Spec.RegularGrid P h w x0 y0 sx sy) (hh : 0 < h) (hw : 2 ≤ w) (hs : 0 < sx) : gridStep w P = sx := by
  unfold gridStep
  dsimp only
  rw [if_pos hw, hP 0 0 hh (by omega), hP 0 1 hh (by omega)]
  simp only [Fin.sum_univ_two, Matrix.cons_val_zero, Matrix.cons_val_one]
  have e : (x0 + ((0 : ℕ) : ℝ) * sx - (x0 + ((1 : ℕ) : ℝ) * sx)) ^ 2 + (y0 + ((0 : ℕ) : ℝ) * sy - (y0 + ((0 : ℕ) : ℝ) * sy)) ^ 2 = sx ^ 2 := by
    push_cast; ring
  rw [e, Real.sqrt_sq hs.le]

/-- The differences of an affine map are its matrix, the second column scaled by the shape of the pixels. -/
theorem diff_carried (hP : Spec.RegularGrid P h w x0 y0 sx sy) (hg : Spec.Carried P gd h w A c) (hs : sx ≠ 0) {i j : Nat}
    (hi : i + 1 < h) (hj : j + 1 < w) : gridDiff h w sx gd i j = A * Matrix.diagonal ![1, sy / sx] := by
  have e0 := hg i j (by omega) (by omega)
  have e1 := hg i (j + 1) (by omega) hj
  have e2 := hg (i + 1) j hi (by omega)
  rw [hP i j (by omega) (by omega)] at e0
  rw [hP i (j + 1) (by omega) hj] at e1
  rw [hP (i + 1) j hi (by omega)] at e2
  ext a b
  rw [Matrix.mul_diagonal]
  unfold gridDiff
  fin_cases b
  · simp only [Fin.zero_eta, if_true, if_pos hj, e1, e0]
    simp only [Pi.add_apply, Matrix.mulVec, dotProduct, Fin.sum_univ_two, Matrix.cons_val_zero, Matrix.cons_val_one]
    push_cast
    field_simp
    ring
  · simp only [Fin.mk_one, one_ne_zero, if_false, if_pos hi, e2, e0]
    simp only [Pi.add_apply, Matrix.mulVec, dotProduct, Fin.sum_univ_two, Matrix.cons_val_zero, Matrix.cons_val_one]
    push_cast
    field_simp
    ring

theorem diag_inv {r : ℝ} (hr : r ≠ 0) : (Matrix.diagonal ![1, r] : Matrix (Fin 2) (Fin 2) ℝ)⁻¹ = Matrix.diagonal ![1, r⁻¹] := by
  refine Matrix.inv_eq_right_inv ?_
  rw [Matrix.diagonal_mul_diagonal, ← Matrix.diagonal_one]
  congr 1
  ext k
  fin_cases k
  · simp
  · simp [hr]

/-- The estimate for an affine map, for pixels of any shape. -/
theorem invert_affine (hP : Spec.RegularGrid P h w x0 y0 sx sy) (hg : Spec.Carried P gd h w A c) (hh : 0 < h) (hw : 2 ≤ w)
    (hsx : 0 < sx) (hsy : 0 < sy) (hA : A.det ≠ 0) :
    ∃ g, invertGrid h w near P gd = .ok g ∧
      (∀ i j, ¬ Spec.InnerPixel h w i j ∨ ¬ Spec.InnerPixel h w (near i j).1 (near i j).2 → g i j = P (near i j).1 (near i j).2) ∧
      ∀ i j, Spec.InnerPixel h w i j → Spec.InnerPixel h w (near i j).1 (near i j).2 →
        g i j = P (near i j).1 (near i j).2 + (Matrix.diagonal ![1, sx / sy] * A⁻¹).mulVec (P i j - gd (near i j).1 (near i j).2) := by
  have hst := step_regular hP hh hw hsx
  have hr : sy / sx ≠ 0 := (div_pos hsy hsx).ne'
  unfold invertGrid
  rw [if_neg (by have := Nat.mul_le_mul hh hw; omega), hst, if_neg hsx.ne', if_neg ?_]
  · refine ⟨_, rfl, ?_, ?_⟩
    · intro i j hn
      dsimp only
      by_cases hi : Inner h w i j
      · rw [if_pos hi, gridDiffInv, if_neg (fun e => hn.elim (fun q => q ((inner_iff _ _ _ _).1 hi)) fun q => q ((inner_iff _ _ _ _).1 e)), Matrix.zero_mulVec, add_zero]
      · rw [if_neg hi]
    · intro i j hi hn
      dsimp only
      rw [if_pos ((inner_iff _ _ _ _).2 hi), gridDiffInv, if_pos ((inner_iff _ _ _ _).2 hn)]
      have hn' := (inner_iff _ _ _ _).2 hn
      rw [diff_carried hP hg hsx.ne' hn'.2.1 hn'.2.2.2, Matrix.mul_inv_rev, diag_inv hr, inv_div]
  · rintro ⟨i, j, hi, hd⟩
    rw [diff_carried hP hg hsx.ne' hi.2.1 hi.2.2.2, Matrix.det_mul, Matrix.det_diagonal] at hd
    simp only [Fin.prod_univ_two, Matrix.cons_val_zero, Matrix.cons_val_one, one_mul] at hd
    rcases mul_eq_zero.1 hd with h | h
    · exact hA h
    · exact hr h

theorem undo_affine (hA : A.det ≠ 0) (x y : Fin 2 → ℝ) : x + A⁻¹.mulVec (y - (A.mulVec x + c)) = A⁻¹.mulVec (y - c) := by
  have hu : IsUnit A.det := isUnit_iff_ne_zero.2 hA
  have e : y - (A.mulVec x + c) = (y - c) - A.mulVec x := by abel
  rw [e, Matrix.mulVec_sub, Matrix.mulVec_mulVec, Matrix.nonsing_inv_mul A hu, Matrix.one_mulVec]
  abel

/-- **C131.** For square pixels and an invertible affine map of the plane, the estimate at an inner pixel whose
nearest point is inner is the place the map carries to that pixel. -/
theorem C131_affine_partial (hP : Spec.RegularGrid P h w x0 y0 sx sx) (hg : Spec.Carried P gd h w A c) (hh : 0 < h) (hw : 2 ≤ w)
    (hsx : 0 < sx) (hA : A.det ≠ 0) (hn : Spec.IsNearest h w P gd near) :
    ∃ g, invertGrid h w near P gd = .ok g ∧
      ∀ i j, Spec.InnerPixel h w i j → Spec.InnerPixel h w (near i j).1 (near i j).2 → A.mulVec (g i j) + c = P i j := by
  obtain ⟨g, h1, -, h3⟩ := invert_affine (near := near) hP hg hh hw hsx hsx hA
  refine ⟨g, h1, fun i j hi hk => ?_⟩
  have hu : IsUnit A.det := isUnit_iff_ne_zero.2 hA
  have hlt := hn i j (by have := hi.2.1; omega) (by have := hi.2.2.2; omega)
  have hd : (Matrix.diagonal ![1, sx / sx] : Matrix (Fin 2) (Fin 2) ℝ) = 1 := by
    rw [div_self hsx.ne', ← Matrix.diagonal_one]
    congr 1
    ext k
    fin_cases k <;> rfl
  rw [h3 i j hi hk, hd, one_mul, hg _ _ hlt.1 hlt.2.1, undo_affine hA, Matrix.mulVec_mulVec, Matrix.mul_nonsing_inv A hu, Matrix.one_mulVec]
  abel

theorem dist_similar {μ : ℝ} (hs : A.transpose * A = μ • (1 : Matrix (Fin 2) (Fin 2) ℝ)) (v : Fin 2 → ℝ) : ∑ a, (A.mulVec v a) ^ 2 = μ * ∑ a, v a ^ 2 := by
  have h00 := congrFun (congrFun hs 0) 0
  have h01 := congrFun (congrFun hs 0) 1
  have h11 := congrFun (congrFun hs 1) 1
  simp [Matrix.mul_apply, Fin.sum_univ_two] at h00 h01 h11
  simp only [Matrix.mulVec, dotProduct, Fin.sum_univ_two]
  linear_combination v 0 ^ 2 * h00 + 2 * v 0 * v 1 * h01 + v 1 ^ 2 * h11

/-- **C131.** Square pixels and a rigid motion with a change of scale, reflections included: if the place carried to an
inner pixel lies in the rectangle of the inner pixels, it is found, whichever nearest point is chosen. -/
theorem C131_similarity_partial (hP : Spec.RegularGrid P h w x0 y0 sx sx) (hg : Spec.Carried P gd h w A c) (hh : 0 < h) (hw : 2 ≤ w)
    (hsx : 0 < sx) {μ : ℝ} (hμ : 0 < μ) (hs : A.transpose * A = μ • (1 : Matrix (Fin 2) (Fin 2) ℝ)) (hn : Spec.IsNearest h w P gd near) :
    ∃ g, invertGrid h w near P gd = .ok g ∧
      ∀ i j, Spec.InnerPixel h w i j → ∀ q : Fin 2 → ℝ, A.mulVec q + c = P i j →
        x0 + sx ≤ q 0 → q 0 ≤ x0 + ((w : ℝ) - 2) * sx → y0 + sx ≤ q 1 → q 1 ≤ y0 + ((h : ℝ) - 2) * sx → g i j = q := by
  have hA : A.det ≠ 0 := by
    intro h0
    have := congrArg Matrix.det hs
    rw [Matrix.det_mul, h0, mul_zero, Matrix.det_smul, Matrix.det_one] at this
    have : (0 : ℝ) < μ ^ 2 * 1 := by positivity
    simp_all
  have hu : IsUnit A.det := isUnit_iff_ne_zero.2 hA
  obtain ⟨g, h1, h2⟩ := C131_affine_partial hP hg hh hw hsx hA hn
  refine ⟨g, h1, fun i j hi q hq b1 b2 b3 b4 => ?_⟩
  obtain ⟨i1, i2, j1, j2⟩ := hi
  obtain ⟨k1, k2, k3⟩ := hn i j (by omega) (by omega)
  have hd : ∀ k l, k < h → l < w → ∑ a, (gd k l a - P i j a) ^ 2 = μ * ((x0 + l * sx - q 0) ^ 2 + (y0 + k * sx - q 1) ^ 2) := by
    intro k l hk hl
    have e : ∀ a, gd k l a - P i j a = A.mulVec (P k l - q) a := by
      intro a
      rw [hg k l hk hl, ← hq, Matrix.mulVec_sub]
      simp only [Pi.add_apply, Pi.sub_apply]
      ring
    rw [Finset.sum_congr rfl fun a _ => by rw [e a], dist_similar hs, hP k l hk hl]
    simp only [Fin.sum_univ_two, Pi.sub_apply, Matrix.cons_val_zero, Matrix.cons_val_one, Matrix.cons_val_fin_one]
  have key : ∀ k l, k < h → l < w → (x0 + ((near i j).2 : ℝ) * sx - q 0) ^ 2 + (y0 + ((near i j).1 : ℝ) * sx - q 1) ^ 2 ≤
      (x0 + (l : ℝ) * sx - q 0) ^ 2 + (y0 + (k : ℝ) * sx - q 1) ^ 2 := by
    intro k l hk hl
    have := k3 k l hk hl
    rw [hd _ _ k1 k2, hd _ _ hk hl] at this
    exact le_of_mul_le_mul_left this hμ
  have hin : Spec.InnerPixel h w (near i j).1 (near i j).2 := by
    generalize near i j = n at *
    obtain ⟨n1, n2⟩ := n
    dsimp only at *
    refine ⟨?_, ?_, ?_, ?_⟩
    · by_contra hcon
      have hz : n1 = 0 := by omega
      subst hz
      have := key 1 n2 (by omega) k2
      push_cast at this
      nlinarith
    · by_contra hcon
      have hz : n1 = h - 1 := by omega
      have e1 : (n1 : ℝ) = h - 1 := by rw [hz]; push_cast [Nat.cast_sub (show 1 ≤ h by omega)]; ring
      have e2 : ((h - 2 : ℕ) : ℝ) = h - 2 := by push_cast [Nat.cast_sub (show 2 ≤ h by omega)]; ring
      have := key (h - 2) n2 (by omega) k2
      rw [e1, e2] at this
      nlinarith
    · by_contra hcon
      have hz : n2 = 0 := by omega
      subst hz
      have := key n1 1 k1 (by omega)
      push_cast at this
      nlinarith
    · by_contra hcon
      have hz : n2 = w - 1 := by omega
      have e1 : (n2 : ℝ) = w - 1 := by rw [hz]; push_cast [Nat.cast_sub (show 1 ≤ w by omega)]; ring
      have e2 : ((w - 2 : ℕ) : ℝ) = w - 2 := by push_cast [Nat.cast_sub (show 2 ≤ w by omega)]; ring
      have := key n1 (w - 2) k1 (by omega)
      rw [e1, e2] at this
      nlinarith
  have hfin := h2 i j ⟨i1, i2, j1, j2⟩ hin
  rw [← hq] at hfin
  have hm : A.mulVec (g i j) = A.mulVec q := add_right_cancel hfin
  have := congrArg (A⁻¹.mulVec ·) hm
  simpa [Matrix.mulVec_mulVec, Matrix.nonsing_inv_mul A hu] using this

/-- **C131, where the code disagrees.** Pixels that are not square: for a translation the estimate at an inner
pixel is right exactly if the nearest point is carried to the height of the pixel. -/
theorem C131_oblong_disagreement (hP : Spec.RegularGrid P h w x0 y0 sx sy) (hg : Spec.Carried P gd h w 1 c) (hh : 0 < h) (hw : 2 ≤ w)
    (hsx : 0 < sx) (hsy : 0 < sy) (hne : sx ≠ sy) (hn : Spec.IsNearest h w P gd near) :
    ∃ g, invertGrid h w near P gd = .ok g ∧
      ∀ i j, Spec.InnerPixel h w i j → Spec.InnerPixel h w (near i j).1 (near i j).2 →
        (g i j + c = P i j ↔ gd (near i j).1 (near i j).2 1 = P i j 1) := by
  obtain ⟨g, h1, -, h3⟩ := invert_affine (near := near) hP hg hh hw hsx hsy (by simp)
  refine ⟨g, h1, fun i j hi hk => ?_⟩
  have hlt := hn i j (by have := hi.2.1; omega) (by have := hi.2.2.2; omega)
  have e := hg _ _ hlt.1 hlt.2.1
  rw [Matrix.one_mulVec] at e
  have e0 := congrFun e 0
  have e1 := congrFun e 1
  simp only [Pi.add_apply] at e0 e1
  have hr : sx / sy - 1 ≠ 0 := by
    intro h
    exact hne (by have := sub_eq_zero.1 h; rwa [div_eq_one_iff_eq hsy.ne'] at this)
  rw [h3 i j hi hk, inv_one, mul_one]
  constructor
  · intro h
    have h' := congrFun h 1
    simp only [Pi.add_apply, Matrix.mulVec_diagonal, Matrix.cons_val_one, Matrix.cons_val_fin_one, Pi.sub_apply] at h'
    have : (sx / sy - 1) * (P i j 1 - gd (near i j).1 (near i j).2 1) = 0 := by
      rw [e1] at h' ⊢
      linarith
    rcases mul_eq_zero.1 this with h | h
    · exact absurd h hr
    · linarith
  · intro h
    ext a
    fin_cases a
    · simp only [Fin.zero_eta, Pi.add_apply, Matrix.mulVec_diagonal, Matrix.cons_val_zero, Pi.sub_apply]
      rw [e0]
      ring
    · simp only [Fin.mk_one, Pi.add_apply, Matrix.mulVec_diagonal, Matrix.cons_val_one, Matrix.cons_val_fin_one, Pi.sub_apply]
      rw [h, sub_self, mul_zero, add_zero, ← h, e1]

/-- **C131, where the code disagrees.** The border: for a translation by less than a pixel, other than none, the
estimate is the nearest point, and wrong, at every pixel of the border. -/
theorem C131_border_disagreement (hP : Spec.RegularGrid P h w x0 y0 sx sx) (hg : Spec.Carried P gd h w 1 c) (hh : 0 < h) (hw : 2 ≤ w)
    (hsx : 0 < sx) (hc : c ≠ 0) (hlt : ∀ a, |c a| < sx) (hn : Spec.IsNearest h w P gd near) :
    ∃ g, invertGrid h w near P gd = .ok g ∧ ∀ i j, i < h → j < w → ¬ Spec.InnerPixel h w i j →
      g i j = P (near i j).1 (near i j).2 ∧ g i j + c ≠ P i j := by
  obtain ⟨g, h1, h2, -⟩ := invert_affine (near := near) hP hg hh hw hsx hsx (by simp)
  refine ⟨g, h1, fun i j hi hj hb => ⟨h2 i j (.inl hb), fun he => hc ?_⟩⟩
  obtain ⟨k1, k2, -⟩ := hn i j hi hj
  rw [h2 i j (.inl hb), hP i j hi hj, hP _ _ k1 k2] at he
  have int : ∀ (z : ℤ) (a : Fin 2), c a = (z : ℝ) * sx → c a = 0 := by
    intro z a hz
    have := hlt a
    rw [hz, abs_mul, abs_of_pos hsx] at this
    have hz1 : |(z : ℝ)| < 1 := by
      by_contra hcon
      have : sx ≤ |(z : ℝ)| * sx := le_mul_of_one_le_left hsx.le (not_lt.1 hcon)
      linarith
    have hz0 : z = 0 := Int.abs_lt_one_iff.1 (by exact_mod_cast hz1)
    rw [hz, hz0]
    simp
  ext a
  fin_cases a
  · have := congrFun he 0
    simp only [Pi.add_apply, Matrix.cons_val_zero] at this
    refine int ((j : ℤ) - ((near i j).2 : ℤ)) 0 ?_
    push_cast
    linarith
  · have := congrFun he 1
    simp only [Pi.add_apply, Matrix.cons_val_one, Matrix.cons_val_fin_one] at this
    refine int ((i : ℤ) - ((near i j).1 : ℤ)) 1 ?_
    push_cast
    linarith

/-- The differences at an inner pixel are not singular exactly if the map is not: a map that flattens the plane
raises. -/
theorem C131_flat (hP : Spec.RegularGrid P h w x0 y0 sx sy) (hg : Spec.Carried P gd h w A c) (hh : 3 ≤ h) (hw : 3 ≤ w)
    (hsx : 0 < sx) (hA : A.det = 0) : invertGrid h w near P gd = .error .linalg := by
  have hst := step_regular hP (by omega) (by omega) hsx
  unfold invertGrid
  rw [if_neg (by have := Nat.mul_le_mul hh hw; omega), hst, if_neg hsx.ne', if_pos]
  refine ⟨1, 1, ⟨by omega, by omega, by omega, by omega⟩, ?_⟩
  rw [diff_carried hP hg hsx.ne' (by omega) (by omega), Matrix.det_mul, hA, zero_mul]

/-! ## Images that are not deformed -/

/-- The nearest point of a regular grid to one of its points is that point. -/
theorem near_self (hP : Spec.RegularGrid P h w x0 y0 sx sy) (hsx : 0 < sx) (hsy : 0 < sy) (hn : Spec.IsNearest h w P P near) {i j : Nat}
    (hi : i < h) (hj : j < w) : near i j = (i, j) := by
  obtain ⟨k1, k2, k3⟩ := hn i j hi hj
  have h0 := k3 i j hi hj
  rw [hP i j hi hj, hP _ _ k1 k2] at h0
  simp only [Fin.sum_univ_two, Matrix.cons_val_zero, Matrix.cons_val_one, sub_self] at h0
  have a1 : x0 + ((near i j).2 : ℝ) * sx - (x0 + (j : ℝ) * sx) = 0 := by
    refine pow_eq_zero_iff (two_ne_zero) |>.1 (le_antisymm ?_ (sq_nonneg _))
    nlinarith [sq_nonneg (y0 + ((near i j).1 : ℝ) * sy - (y0 + (i : ℝ) * sy))]
  have a2 : y0 + ((near i j).1 : ℝ) * sy - (y0 + (i : ℝ) * sy) = 0 := by
    refine pow_eq_zero_iff (two_ne_zero) |>.1 (le_antisymm ?_ (sq_nonneg _))
    nlinarith [sq_nonneg (x0 + ((near i j).2 : ℝ) * sx - (x0 + (j : ℝ) * sx))]
  have b1 : ((near i j).2 : ℝ) = j := by
    have : ((near i j).2 - j : ℝ) * sx = 0 := by linarith
    rcases mul_eq_zero.1 this with h | h
    · linarith
    · exact absurd h hsx.ne'
  have b2 : ((near i j).1 : ℝ) = i := by
    have : ((near i j).1 - i : ℝ) * sy = 0 := by linarith
    rcases mul_eq_zero.1 this with h | h
    · linarith
    · exact absurd h hsy.ne'
  exact Prod.ext (by exact_mod_cast b2) (by exact_mod_cast b1)

/-- **C131.** If the points have not moved, every pixel is read at itself, at the border too and for pixels of
any shape. -/
theorem C131_still (hP : Spec.RegularGrid P h w x0 y0 sx sy) (hh : 0 < h) (hw : 2 ≤ w) (hsx : 0 < sx) (hsy : 0 < sy)
    (hn : Spec.IsNearest h w P P near) : ∃ g, invertGrid h w near P P = .ok g ∧ ∀ i j, i < h → j < w → g i j = P i j := by
  have hg : Spec.Carried P P h w 1 0 := fun i j _ _ => by rw [Matrix.one_mulVec, add_zero]
  obtain ⟨g, h1, h2, h3⟩ := invert_affine (near := near) hP hg hh hw hsx hsy (by simp)
  refine ⟨g, h1, fun i j hi hj => ?_⟩
  have hk := near_self hP hsx hsy hn hi hj
  by_cases hb : Spec.InnerPixel h w i j
  · rw [h3 i j hb (by rw [hk]; exact hb), hk]
    simp
  · rw [h2 i j (.inl hb), hk]

theorem gridOf_flat (h w : Nat) (f : Nat → Nat → ℝ × ℝ) {i j : Nat} (hi : i < h) (hj : j < w) :
    gridOf w (Spec.flat h w f) i j = ![(f i j).1, (f i j).2] := by
  unfold gridOf
  rw [List.getD_eq_getElem?_getD, specFlat_get _ hi hj]
  rfl

/-- **C131.** An image of at least two rows and columns, in any frame, whose points are those of its pixels gives
forward what it gives backward, as a bitmap and as points; a square bitmap is given back. -/
theorem C131_image (h w : Nat) (hh : 2 ≤ h) (hw : 2 ≤ w) (I : Nat → Nat → ℝ) (ext : ExtentArg) (x0 x1 y0 y1 : ℝ)
    (hf : Spec.Frame h w ext x0 x1 y0 y1) :
    ∃ D pixels, DefImage.mk' h w I ext = .ok D ∧ D.backwardPoints = .ok pixels ∧
      ∀ near, Spec.IsNearest h w (gridOf w pixels) (gridOf w pixels) near →
        (∀ output, D.forwardGeometry near pixels output = D.deformedGeometry pixels output) ∧
        (h = w → D.forwardGeometry near pixels .bitmap = .ok (.bitmap (Spec.flat h w I))) := by
  obtain ⟨D, hD, e1, e2, e3, e4, e5⟩ := mkImage_ok h w hh hw I ext x0 x1 y0 y1 hf
  obtain ⟨hx, hy⟩ := frame_lt hh hw hf
  have ph : (0 : ℝ) < (h : ℝ) - 1 := sub_pos.2 (by exact_mod_cast hh)
  have pw : (0 : ℝ) < (w : ℝ) - 1 := sub_pos.2 (by exact_mod_cast hw)
  let f : Nat → Nat → ℝ × ℝ := fun i j =>
    ((x1 - x0) / ((w : ℝ) - 1) * ((j : ℝ) * (((h : ℝ) - 1) / ((w : ℝ) - 1))) + x0, (y1 - y0) / ((h : ℝ) - 1) * ((i : ℝ) * (((w : ℝ) - 1) / ((h : ℝ) - 1))) + y0)
  have hb : D.backwardPoints = .ok (Spec.flat h w f) := by
    rw [DefImage.backwardPoints, e1, e2, e4, e5, imageGrid_eq h w hh hw]
  have hreg : Spec.RegularGrid (gridOf w (Spec.flat h w f)) h w x0 y0 ((x1 - x0) / ((w : ℝ) - 1) * (((h : ℝ) - 1) / ((w : ℝ) - 1)))
      ((y1 - y0) / ((h : ℝ) - 1) * (((w : ℝ) - 1) / ((h : ℝ) - 1))) := by
    intro i j hi hj
    rw [gridOf_flat h w f hi hj]
    ext a
    fin_cases a
    · simp only [f, Fin.zero_eta, Matrix.cons_val_zero]; ring
    · simp only [f, Fin.mk_one, Matrix.cons_val_one]; ring
  refine ⟨D, _, hD, hb, ?_⟩
  intro near hn
  obtain ⟨g, g1, g2⟩ := C131_still hreg (by omega) hw (mul_pos (div_pos (by linarith) pw) (div_pos ph pw))
    (mul_pos (div_pos (by linarith) ph) (div_pos pw ph)) hn
  have hrows : gridRows h w g = Spec.flat h w f := by
    change Spec.flat h w (fun i j => (g i j 0, g i j 1)) = _
    refine specFlat_congr fun i j hi hj => ?_
    rw [g2 i j hi hj, gridOf_flat h w f hi hj]
    rfl
  have key : ∀ output, D.forwardGeometry near (Spec.flat h w f) output = D.deformedGeometry (Spec.flat h w f) output := by
    intro output
    unfold DefImage.forwardGeometry
    rw [hb]
    dsimp only
    rw [e1, e2, if_neg (by rw [specFlat_length]; simp), g1]
    dsimp only
    rw [hrows]
  refine ⟨key, fun hsq => ?_⟩
  subst hsq
  obtain ⟨D', gd', a1, a2, a3⟩ := C55_partial h hh I ext x0 x1 y0 y1 hf
  rw [hD] at a1
  have hDD : D = D' := Except.ok.inj a1
  subst hDD
  rw [hb] at a2
  have hgg : Spec.flat h h f = gd' := Except.ok.inj a2
  rw [key, hgg]
  have a3' : deformedIntensities D.h D.w D.bitmap D.extent gd' = .ok (Spec.flat h h I) := a3
  simp only [DefImage.deformedGeometry, a3', bind, Except.bind, pure, Except.pure]

/-- **C131.** A square image in a square frame, its points carried by an invertible affine map: what is given out is
read at places of which every one that belongs to an inner pixel with an inner nearest point is carried to that pixel. -/
theorem C131_image_affine_partial (n : Nat) (hn2 : 2 ≤ n) (I : Nat → Nat → ℝ) (ext : ExtentArg) (x0 x1 y0 y1 : ℝ)
    (hf : Spec.Frame n n ext x0 x1 y0 y1) (hsq : x1 - x0 = y1 - y0) :
    ∃ D pixels, DefImage.mk' n n I ext = .ok D ∧ D.backwardPoints = .ok pixels ∧
      ∀ (A : Matrix (Fin 2) (Fin 2) ℝ) (c : Fin 2 → ℝ) (gd : List (ℝ × ℝ)) near, A.det ≠ 0 →
        gd = pixels.map (fun p => (A 0 0 * p.1 + A 0 1 * p.2 + c 0, A 1 0 * p.1 + A 1 1 * p.2 + c 1)) →
        Spec.IsNearest n n (gridOf n pixels) (gridOf n gd) near →
        ∃ places : Nat → Nat → ℝ × ℝ, (∀ output, D.forwardGeometry near gd output = D.deformedGeometry (Spec.flat n n places) output) ∧
          ∀ i j, Spec.InnerPixel n n i j → Spec.InnerPixel n n (near i j).1 (near i j).2 →
            pixels[i * n + j]? = some (A 0 0 * (places i j).1 + A 0 1 * (places i j).2 + c 0, A 1 0 * (places i j).1 + A 1 1 * (places i j).2 + c 1) := by
  obtain ⟨D, hD, e1, e2, e3, e4, e5⟩ := mkImage_ok n n hn2 hn2 I ext x0 x1 y0 y1 hf
  obtain ⟨hx, hy⟩ := frame_lt hn2 hn2 hf
  have pw : (0 : ℝ) < (n : ℝ) - 1 := sub_pos.2 (by exact_mod_cast hn2)
  let f : Nat → Nat → ℝ × ℝ := fun i j =>
    ((x1 - x0) / ((n : ℝ) - 1) * ((j : ℝ) * (((n : ℝ) - 1) / ((n : ℝ) - 1))) + x0, (y1 - y0) / ((n : ℝ) - 1) * ((i : ℝ) * (((n : ℝ) - 1) / ((n : ℝ) - 1))) + y0)
  have hb : D.backwardPoints = .ok (Spec.flat n n f) := by
    rw [DefImage.backwardPoints, e1, e2, e4, e5, imageGrid_eq n n hn2 hn2]
  have hreg : Spec.RegularGrid (gridOf n (Spec.flat n n f)) n n x0 y0 ((x1 - x0) / ((n : ℝ) - 1)) ((x1 - x0) / ((n : ℝ) - 1)) := by
    intro i j hi hj
    rw [gridOf_flat n n f hi hj]
    ext a
    fin_cases a
    · simp only [f, Fin.zero_eta, Matrix.cons_val_zero, div_self pw.ne']; ring
    · simp only [f, Fin.mk_one, Matrix.cons_val_one, Matrix.cons_val_fin_one, div_self pw.ne', hsq]; ring
  refine ⟨D, _, hD, hb, ?_⟩
  intro A c gd near hA hgd hn
  let f' : Nat → Nat → ℝ × ℝ := fun i j => (A 0 0 * (f i j).1 + A 0 1 * (f i j).2 + c 0, A 1 0 * (f i j).1 + A 1 1 * (f i j).2 + c 1)
  have hgd' : gd = Spec.flat n n f' := by
    rw [hgd]
    simp only [Spec.flat, List.map_flatMap, List.map_map]
    rfl
  have hcar : Spec.Carried (gridOf n (Spec.flat n n f)) (gridOf n gd) n n A c := by
    intro i j hi hj
    rw [hgd', gridOf_flat n n f hi hj, gridOf_flat n n f' hi hj]
    ext a
    fin_cases a
    · simp [f', Matrix.mulVec, dotProduct, Fin.sum_univ_two]
    · simp [f', Matrix.mulVec, dotProduct, Fin.sum_univ_two]
  obtain ⟨g, g1, g2⟩ := C131_affine_partial hreg hcar (by omega) hn2 (div_pos (by linarith) pw) hA hn
  refine ⟨fun i j => (g i j 0, g i j 1), ?_, ?_⟩
  · intro output
    unfold DefImage.forwardGeometry
    rw [hb]
    dsimp only
    rw [e1, e2, if_neg (by rw [hgd', specFlat_length]; simp), g1]
    rfl
  · intro i j hi hk
    have hi' : i < n := by have := hi.2.1; omega
    have hj' : j < n := by have := hi.2.2.2; omega
    have := g2 i j hi hk
    rw [gridOf_flat n n f hi' hj'] at this
    rw [specFlat_get _ hi' hj']
    have t0 := congrFun this 0
    have t1 := congrFun this 1
    simp only [Pi.add_apply, Matrix.mulVec, dotProduct, Fin.sum_univ_two, Matrix.cons_val_zero, Matrix.cons_val_one, Matrix.cons_val_fin_one] at t0 t1
    rw [t0, t1]

/-! ## Whole images, from the points they start with -/

/-- **C131.** A square image whose extent matches its pixels, not deformed, gives itself forward. -/
theorem C131_matched (n : Nat) (hn2 : 2 ≤ n) (I : Nat → Nat → ℝ) :
    ∃ D pixels, DefImage.mk' n n I .isMatch = .ok D ∧ D.backwardPoints = .ok pixels ∧
      ∀ near, Spec.IsNearest n n (gridOf n pixels) (gridOf n D.points) near →
        D.forwardGeometry near D.points .bitmap = .ok (.bitmap (Spec.flat n n I)) := by
  have pw : (n : ℝ) - 1 ≠ 0 := nat_sub_one_ne hn2
  obtain ⟨D, pixels, h1, h2, h3⟩ := C131_image n n hn2 hn2 I .isMatch _ _ _ _ .isMatch
  obtain ⟨D', h1', e1, e2, e3, e4, e5⟩ := mkImage_ok n n hn2 hn2 I .isMatch _ _ _ _ .isMatch
  obtain ⟨D'', h1'', -, -, -, e6⟩ := image_points n n hn2 hn2 I .isMatch _ _ _ _ .isMatch
  have hD1 : D' = D := Except.ok.inj (h1'.symm.trans h1)
  have hD2 : D'' = D := Except.ok.inj (h1''.symm.trans h1)
  subst hD1
  subst hD2
  have hpix : D''.points = pixels := by
    rw [DefImage.backwardPoints, e1, e2, e4, e5, imageGrid_eq n n hn2 hn2] at h2
    rw [e6, ← Except.ok.inj h2]
    refine specFlat_congr fun i j _ _ => ?_
    simp only [sub_zero, div_self pw, zero_add]
  refine ⟨_, pixels, h1, h2, fun near hn => ?_⟩
  rw [hpix] at hn ⊢
  exact (h3 near hn).2 rfl

/-- The last row or column, except for the first. -/
def cornerOf (n i : Nat) : Nat := if i = 0 then 0 else n - 1

theorem corner_nearest {n : Nat} (hn : 2 ≤ n) {s : ℝ} (hs : ((n : ℝ) - 1) * s = 1) {l : Nat} (hl : l < n) (j : Nat) :
    ((cornerOf n j : ℝ) * s * s - j * s) ^ 2 ≤ ((l : ℝ) * s * s - j * s) ^ 2 ∧
    (((l : ℝ) * s * s - j * s) ^ 2 ≤ ((cornerOf n j : ℝ) * s * s - j * s) ^ 2 → l = cornerOf n j) := by
  have pw : (0 : ℝ) < (n : ℝ) - 1 := sub_pos.2 (by exact_mod_cast hn)
  have sp : 0 < s := by
    by_contra hcon
    nlinarith
  have hss : 0 < s * s := mul_pos sp sp
  unfold cornerOf
  by_cases hj : j = 0
  · subst hj
    simp only [if_true, Nat.cast_zero, zero_mul, sub_zero]
    refine ⟨by simpa using sq_nonneg ((l : ℝ) * s * s), fun h => ?_⟩
    have h0 : (l : ℝ) * s * s = 0 := by
      have : ((l : ℝ) * s * s) ^ 2 = 0 := le_antisymm (by simpa using h) (sq_nonneg _)
      exact pow_eq_zero_iff two_ne_zero |>.1 this
    have : (l : ℝ) = 0 := by
      rcases mul_eq_zero.1 (by rw [← mul_assoc]; exact h0 : (l : ℝ) * (s * s) = 0) with h | h
      · exact h
      · exact absurd h hss.ne'
    exact_mod_cast this
  · rw [if_neg hj]
    have e : ((n - 1 : ℕ) : ℝ) = (n : ℝ) - 1 := by push_cast [Nat.cast_sub (show 1 ≤ n by omega)]; ring
    rw [e, hs, one_mul]
    have hj1 : (1 : ℝ) ≤ j := by exact_mod_cast Nat.one_le_iff_ne_zero.2 hj
    have hl1 : (l : ℝ) ≤ (n : ℝ) - 1 := by
      have : (l : ℝ) + 1 ≤ n := by exact_mod_cast hl
      linarith
    have hb : s ≤ j * s := le_mul_of_one_le_left sp.le hj1
    have ha : (l : ℝ) * s * s ≤ s := by
      have : (l : ℝ) * (s * s) ≤ ((n : ℝ) - 1) * (s * s) := mul_le_mul_of_nonneg_right hl1 hss.le
      nlinarith
    refine ⟨by nlinarith, fun h => ?_⟩
    have h0 : (l : ℝ) * s * s = s := by
      by_contra hne
      have : (l : ℝ) * s * s < s := lt_of_le_of_ne ha hne
      nlinarith
    have h1 : (l : ℝ) * s = 1 := by
      have : ((l : ℝ) * s - 1) * s = 0 := by linarith
      rcases mul_eq_zero.1 this with h | h
      · linarith
      · exact absurd h sp.ne'
    have h2 : ((l : ℝ) - ((n : ℝ) - 1)) * s = 0 := by linarith
    have h3 : (l : ℝ) = (n : ℝ) - 1 := by
      rcases mul_eq_zero.1 h2 with h | h
      · linarith
      · exact absurd h sp.ne'
    rw [← e] at h3
    exact_mod_cast h3

/-- **C131, where the code disagrees.** A square image with the default extent, not deformed, gives forward only the
values of its four corners: every pixel outside the first row and column has the value of the last corner. -/
theorem C131_default_disagreement (n : Nat) (hn2 : 2 ≤ n) (I : Nat → Nat → ℝ) :
    ∃ D pixels, DefImage.mk' n n I .none = .ok D ∧ D.backwardPoints = .ok pixels ∧
      ∀ near, Spec.IsNearest n n (gridOf n pixels) (gridOf n D.points) near →
        D.forwardGeometry near D.points .bitmap =
          .ok (.bitmap (Spec.flat n n fun i j => I (if i = 0 then 0 else n - 1) (if j = 0 then 0 else n - 1))) := by
  have pw : (0 : ℝ) < (n : ℝ) - 1 := sub_pos.2 (by exact_mod_cast hn2)
  obtain ⟨D, hD, e1, e2, e3, e4, e5⟩ := mkImage_ok n n hn2 hn2 I .none _ _ _ _ .none
  obtain ⟨D', hD', -, -, -, e6⟩ := image_points n n hn2 hn2 I .none _ _ _ _ .none
  have hDD : D' = D := Except.ok.inj (hD'.symm.trans hD)
  subst hDD
  obtain ⟨s, hs⟩ : ∃ s : ℝ, ((n : ℝ) - 1) * s = 1 := ⟨1 / ((n : ℝ) - 1), by field_simp⟩
  have hsd : 1 / ((n : ℝ) - 1) = s := by field_simp; linarith
  have sp : 0 < s := by rw [← hsd]; positivity
  let f : Nat → Nat → ℝ × ℝ := fun i j => ((j : ℝ) * s, (i : ℝ) * s)
  let f' : Nat → Nat → ℝ × ℝ := fun i j => ((j : ℝ) * s * s, (i : ℝ) * s * s)
  have hb : D'.backwardPoints = .ok (Spec.flat n n f) := by
    rw [DefImage.backwardPoints, e1, e2, e4, e5, imageGrid_eq n n hn2 hn2]
    congr 1
    refine specFlat_congr fun i j _ _ => ?_
    simp only [f, sub_zero, add_zero, div_self pw.ne', mul_one, hsd, mul_comm s]
  have hp : D'.points = Spec.flat n n f' := by
    rw [e6]
    refine specFlat_congr fun i j _ _ => ?_
    simp only [f', sub_zero, add_zero, zero_add, hsd, mul_comm s]
  refine ⟨D', _, hD, hb, fun near hn => ?_⟩
  rw [hp] at hn ⊢
  have hreg : Spec.RegularGrid (gridOf n (Spec.flat n n f)) n n 0 0 s s := by
    intro i j hi hj
    rw [gridOf_flat n n f hi hj]
    simp only [f, zero_add]
  have hcar : Spec.Carried (gridOf n (Spec.flat n n f)) (gridOf n (Spec.flat n n f')) n n (s • 1) 0 := by
    intro i j hi hj
    rw [gridOf_flat n n f hi hj, gridOf_flat n n f' hi hj, Matrix.smul_mulVec, Matrix.one_mulVec, add_zero]
    ext a
    fin_cases a
    · simp [f, f', mul_comm]
    · simp [f, f', mul_comm]
  have hnear : ∀ i j, i < n → j < n → near i j = (cornerOf n i, cornerOf n j) := by
    intro i j hi hj
    obtain ⟨k1, k2, k3⟩ := hn i j hi hj
    have c1 : cornerOf n i < n := by unfold cornerOf; split <;> omega
    have c2 : cornerOf n j < n := by unfold cornerOf; split <;> omega
    have k := k3 _ _ c1 c2
    rw [gridOf_flat n n f' k1 k2, gridOf_flat n n f' c1 c2, gridOf_flat n n f hi hj] at k
    simp only [f, f', Fin.sum_univ_two, Matrix.cons_val_zero, Matrix.cons_val_one, Matrix.cons_val_fin_one] at k
    obtain ⟨a1, a2⟩ := corner_nearest hn2 hs k2 j
    obtain ⟨b1, b2⟩ := corner_nearest hn2 hs k1 i
    exact Prod.ext (b2 (by linarith)) (a2 (by linarith))
  obtain ⟨g, g1, g2, -⟩ := invert_affine (near := near) hreg hcar (by omega) hn2 sp sp (by rw [Matrix.det_smul, Matrix.det_one]; simp [sp.ne'])
  have hg : ∀ i j, i < n → j < n → g i j = ![(cornerOf n j : ℝ) * s, (cornerOf n i : ℝ) * s] := by
    intro i j hi hj
    have c1 : cornerOf n i < n := by unfold cornerOf; split <;> omega
    have c2 : cornerOf n j < n := by unfold cornerOf; split <;> omega
    rw [g2 i j (.inr ?_), hnear i j hi hj, gridOf_flat n n f c1 c2]
    rw [hnear i j hi hj]
    rintro ⟨r1, r2, -, -⟩
    dsimp only at r1 r2
    unfold cornerOf at r1 r2
    split at r1 <;> simp_all
  have hrows : gridRows n n g = Spec.flat n n fun i j => ((cornerOf n j : ℝ) * s, (cornerOf n i : ℝ) * s) := by
    change Spec.flat n n (fun i j => (g i j 0, g i j 1)) = _
    refine specFlat_congr fun i j hi hj => ?_
    rw [hg i j hi hj]
    rfl
  unfold DefImage.forwardGeometry
  rw [hb]
  dsimp only
  rw [e1, e2, if_neg (by rw [specFlat_length]; simp), g1]
  dsimp only
  rw [hrows]
  simp only [DefImage.deformedGeometry]
  rw [e1, e2, e3, e4, deformedIntensities_run n n I 0 1 0 1 one_pos one_pos (by omega) (by omega) _ (specFlat_length _ _ _), specFlat_map]
  simp only [bind, Except.bind, pure, Except.pure]
  congr 2
  refine specFlat_congr fun i j _ _ => ?_
  have c1 : cornerOf n i < n := by unfold cornerOf; split <;> omega
  have c2 : cornerOf n j < n := by unfold cornerOf; split <;> omega
  change _ = I (cornerOf n i) (cornerOf n j)
  rw [← bilinear_at I c1 c2]
  congr 1
  · linear_combination (cornerOf n i : ℝ) * hs
  · linear_combination (cornerOf n j : ℝ) * hs

/-! ## Concrete cases -/

/-- There is always a nearest point to choose. -/
theorem C131_nearest_exists (h w : Nat) (P gd : PointGrid) : ∃ near, Spec.IsNearest h w P gd near := by
  have hex : ∀ i j, ∃ n : Nat × Nat, i < h → j < w → n.1 < h ∧ n.2 < w ∧ ∀ k l, k < h → l < w → ∑ a, (gd n.1 n.2 a - P i j a) ^ 2 ≤ ∑ a, (gd k l a - P i j a) ^ 2 := by
    intro i j
    by_cases hij : i < h ∧ j < w
    · obtain ⟨n, hn, hmin⟩ := Finset.exists_min_image (Finset.range h ×ˢ Finset.range w) (fun n => ∑ a, (gd n.1 n.2 a - P i j a) ^ 2)
        ⟨(i, j), by simp [hij.1, hij.2]⟩
      simp only [Finset.mem_product, Finset.mem_range] at hn hmin
      exact ⟨n, fun _ _ => ⟨hn.1, hn.2, fun k l hk hl => hmin (k, l) ⟨hk, hl⟩⟩⟩
    · exact ⟨(0, 0), fun hi hj => absurd ⟨hi, hj⟩ hij⟩
  choose f hf using hex
  exact ⟨f, hf⟩

/-- The points with whole coordinates, moved a quarter to the right. -/
noncomputable def wholeGrid : PointGrid := fun i j => ![(0 : ℝ) + j * 1, 0 + i * 1]
noncomputable def quarterShift : Fin 2 → ℝ := ![1 / 4, 0]

example : Spec.RegularGrid wholeGrid 5 5 0 0 1 1 := fun _ _ _ _ => rfl

example : Spec.Carried wholeGrid (fun i j => wholeGrid i j + quarterShift) 5 5 1 quarterShift := fun i j _ _ => by rw [Matrix.one_mulVec]

example : quarterShift ≠ 0 ∧ ∀ a, |quarterShift a| < 1 := by
  constructor
  · intro h
    have := congrFun h 0
    norm_num [quarterShift] at this
  · intro a
    fin_cases a
    · simp only [quarterShift, Fin.zero_eta, Matrix.cons_val_zero]
      rw [abs_of_pos] <;> norm_num
    · simp [quarterShift]

/-- A quarter turn that doubles lengths. -/
example : (!![0, -2; 2, 0] : Matrix (Fin 2) (Fin 2) ℝ).transpose * !![0, -2; 2, 0] = (4 : ℝ) • (1 : Matrix (Fin 2) (Fin 2) ℝ) := by
  ext a b
  fin_cases a <;> fin_cases b <;> norm_num [Matrix.mul_apply, Fin.sum_univ_two]

/-- Each pixel is nearest to its own point. -/
example : Spec.IsNearest 5 5 wholeGrid (fun i j => wholeGrid i j + quarterShift) fun i j => (i, j) := by
  intro i j hi hj
  refine ⟨hi, hj, fun k l _ _ => ?_⟩
  simp only [wholeGrid, quarterShift, Fin.sum_univ_two, Pi.add_apply, Matrix.cons_val_zero, Matrix.cons_val_one]
  have h : (0 : ℝ) ≤ ((l : ℝ) - j) ^ 2 + 1 / 2 * ((l : ℝ) - j) := by
    rcases lt_trichotomy (l : ℤ) j with h | h | h
    · have : (l : ℝ) ≤ j - 1 := by
        have : (l : ℤ) ≤ j - 1 := by omega
        exact_mod_cast this
      nlinarith
    · have : (l : ℝ) = j := by exact_mod_cast h
      rw [this]; simp
    · have : (j : ℝ) + 1 ≤ l := by
        have : (j : ℤ) + 1 ≤ l := by omega
        exact_mod_cast this
      nlinarith
  nlinarith [sq_nonneg ((k : ℝ) - i)]

end Imodal
