import Verif.Props.C131
/-!
# C132: an image deformed forward does not depend on the place of its frame or on the unit of length

Moving the frame of an image, the image's points and the points carried by the deformation, and
measuring all of them in another unit, gives the same bitmap; as points, the moved points with the same
weights. What raises goes on raising the same. The same points are nearest.

What is read is linear in the bitmap.

The points an image starts from do not move along with its frame.
-/
set_option autoImplicit false
namespace Imodal
open Matrix

namespace Spec

/-- The grid in another unit of length and at another place. -/
def Moved (h w : Nat) (r : ℝ) (t : Fin 2 → ℝ) (P P' : PointGrid) : Prop := ∀ i j, i < h → j < w → P' i j = r • P i j + t

/-- The choice stays in the grid. -/
def InGrid (h w : Nat) (near : Nat → Nat → Nat × Nat) : Prop := ∀ i j, i < h → j < w → (near i j).1 < h ∧ (near i j).2 < w

/-- A point in another unit of length and at another place. -/
def movePoint (r tx ty : ℝ) (p : ℝ × ℝ) : ℝ × ℝ := (r * p.1 + tx, r * p.2 + ty)

/-- Outputs that are the same up to the unit and the place. -/
inductive SameOutput (r tx ty : ℝ) : ImgGeometry → ImgGeometry → Prop
  | bitmap (values : List ℝ) : SameOutput r tx ty (.bitmap values) (.bitmap values)
  | points (positions : List (ℝ × ℝ)) (weights : List ℝ) : SameOutput r tx ty (.points positions weights) (.points (positions.map (movePoint r tx ty)) weights)

/-- Both raise the same, or both return and the results are related. -/
inductive SameRun {α β : Type} (R : α → β → Prop) : Py α → Py β → Prop
  | error (e : PyErr) : SameRun R (.error e) (.error e)
  | ok (a : α) (b : β) (h : R a b) : SameRun R (.ok a) (.ok b)

end Spec

variable {h w : Nat} {P gd P' gd' : PointGrid} {near : Nat → Nat → Nat × Nat} {r : ℝ} {t : Fin 2 → ℝ}

/-- **C132.** The same points are nearest. -/
theorem C132_nearest (hr : 0 < r) (hP : Spec.Moved h w r t P P') (hg : Spec.Moved h w r t gd gd') : Spec.IsNearest h w P' gd' near ↔ Spec.IsNearest h w P gd near := by
  have hd : ∀ k l i j, k < h → l < w → i < h → j < w → ∑ a, (gd' k l a - P' i j a) ^ 2 = r ^ 2 * ∑ a, (gd k l a - P i j a) ^ 2 := by
    intro k l i j hk hl hi hj
    rw [hP i j hi hj, hg k l hk hl, Finset.mul_sum]
    refine Finset.sum_congr rfl fun a _ => ?_
    simp only [Pi.add_apply, Pi.smul_apply, smul_eq_mul]
    ring
  have r2 : 0 < r ^ 2 := by positivity
  constructor
  · intro hn i j hi hj
    obtain ⟨k1, k2, k3⟩ := hn i j hi hj
    refine ⟨k1, k2, fun k l hk hl => ?_⟩
    have := k3 k l hk hl
    rw [hd _ _ _ _ k1 k2 hi hj, hd _ _ _ _ hk hl hi hj] at this
    exact le_of_mul_le_mul_left this r2
  · intro hn i j hi hj
    obtain ⟨k1, k2, k3⟩ := hn i j hi hj
    refine ⟨k1, k2, fun k l hk hl => ?_⟩
    rw [hd _ _ _ _ k1 k2 hi hj, hd _ _ _ _ hk hl hi hj]
    exact mul_le_mul_of_nonneg_left (k3 k l hk hl) r2.le

theorem step_moved (hr : 0 < r) (h2 : 2 ≤ h * w) (hP : Spec.Moved h w r t P P') : gridStep w P' = r * gridStep w P := by
  have hw0 : 0 < w := Nat.pos_of_ne_zero fun e => by subst e; omega
  have hh0 : 0 < h := Nat.pos_of_ne_zero fun e => by subst e; omega
  unfold gridStep
  have e0 := hP 0 0 hh0 hw0
  have eq : (if 2 ≤ w then P' 0 1 else P' 1 0) = r • (if 2 ≤ w then P 0 1 else P 1 0) + t := by
    by_cases hw : 2 ≤ w
    · rw [if_pos hw, if_pos hw, hP 0 1 hh0 (by omega)]
    · have hw1 : w = 1 := by omega
      rw [if_neg hw, if_neg hw, hP 1 0 (by subst hw1; omega) hw0]
  dsimp only
  rw [e0, eq]
  generalize (if 2 ≤ w then P 0 1 else P 1 0) = q
  have : ∑ a, ((r • P 0 0 + t) a - (r • q + t) a) ^ 2 = r ^ 2 * ∑ a, (P 0 0 a - q a) ^ 2 := by
    rw [Finset.mul_sum]
    refine Finset.sum_congr rfl fun a _ => ?_
    simp only [Pi.add_apply, Pi.smul_apply, smul_eq_mul]
    ring
  rw [this, Real.sqrt_mul (by positivity), Real.sqrt_sq hr.le]

theorem diff_moved (hr : 0 < r) (s : ℝ) (hg : Spec.Moved h w r t gd gd') {i j : Nat} (hi : i < h) (hj : j < w) :
    gridDiff h w (r * s) gd' i j = gridDiff h w s gd i j := by
  ext a b
  unfold gridDiff
  have key : ∀ x y : Fin 2 → ℝ, ((r • x + t) a - (r • y + t) a) / (r * s) = (x a - y a) / s := by
    intro x y
    simp only [Pi.add_apply, Pi.smul_apply, smul_eq_mul]
    rw [show r * x a + t a - (r * y a + t a) = r * (x a - y a) by ring, mul_div_mul_left _ _ hr.ne']
  by_cases hb : b = 0
  · rw [if_pos hb, if_pos hb]
    by_cases hj1 : j + 1 < w
    · rw [if_pos hj1, if_pos hj1, hg i j hi hj, hg i (j + 1) hi hj1, key]
    · rw [if_neg hj1, if_neg hj1]
  · rw [if_neg hb, if_neg hb]
    by_cases hi1 : i + 1 < h
    · rw [if_pos hi1, if_pos hi1, hg i j hi hj, hg (i + 1) j hi1 hj, key]
    · rw [if_neg hi1, if_neg hi1]

/-- **C132.** The estimated grid moves along, and raises the same. -/
theorem C132_grid (hr : 0 < r) (hP : Spec.Moved h w r t P P') (hg : Spec.Moved h w r t gd gd') (hn : Spec.InGrid h w near) :
    Spec.SameRun (Spec.Moved h w r t) (invertGrid h w near P gd) (invertGrid h w near P' gd') := by
  unfold invertGrid
  by_cases h2 : h * w < 2
  · rw [if_pos h2, if_pos h2]
    exact .error _
  rw [if_neg h2, if_neg h2, step_moved hr (not_lt.1 h2) hP]
  by_cases hs : gridStep w P = 0
  · rw [if_pos hs, if_pos (by rw [hs, mul_zero])]
    exact .error _
  rw [if_neg hs, if_neg (mul_ne_zero hr.ne' hs)]
  have hdet : (∃ i j, Inner h w i j ∧ (gridDiff h w (r * gridStep w P) gd' i j).det = 0) ↔
      ∃ i j, Inner h w i j ∧ (gridDiff h w (gridStep w P) gd i j).det = 0 := by
    refine exists_congr fun i => exists_congr fun j => and_congr_right fun hi => ?_
    rw [diff_moved hr _ hg (by have := hi.2.1; omega) (by have := hi.2.2.2; omega)]
  by_cases hd : ∃ i j, Inner h w i j ∧ (gridDiff h w (gridStep w P) gd i j).det = 0
  · rw [if_pos hd, if_pos (hdet.2 hd)]
    exact .error _
  rw [if_neg hd, if_neg (fun e => hd (hdet.1 e))]
  refine .ok _ _ fun i j hi hj => ?_
  obtain ⟨k1, k2⟩ := hn i j hi hj
  dsimp only
  rw [hP _ _ k1 k2, hg _ _ k1 k2, hP i j hi hj]
  by_cases hin : Inner h w i j
  · rw [if_pos hin, if_pos hin]
    have e : gridDiffInv h w (r * gridStep w P) gd' (near i j).1 (near i j).2 = gridDiffInv h w (gridStep w P) gd (near i j).1 (near i j).2 := by
      unfold gridDiffInv
      rw [diff_moved hr _ hg k1 k2]
    rw [e, show r • P i j + t - (r • gd (near i j).1 (near i j).2 + t) = r • (P i j - gd (near i j).1 (near i j).2) by rw [smul_sub]; abel,
      Matrix.mulVec_smul, smul_add]
    abel
  · rw [if_neg hin, if_neg hin]

theorem gridOf_moved (r tx ty : ℝ) {h w : Nat} {l : List (ℝ × ℝ)} (hl : l.length = h * w) :
    Spec.Moved h w r ![tx, ty] (gridOf w l) (gridOf w (l.map (Spec.movePoint r tx ty))) := by
  intro i j hi hj
  have hlt : i * w + j < l.length := by
    rw [hl]
    calc i * w + j < i * w + w := by omega
      _ = (i + 1) * w := by ring
      _ ≤ h * w := Nat.mul_le_mul_right _ hi
  unfold gridOf
  rw [List.getD_eq_getElem?_getD, List.getD_eq_getElem?_getD, List.getElem?_map, List.getElem?_eq_getElem hlt]
  ext a
  fin_cases a <;> simp [Spec.movePoint]

theorem gridRows_moved {r tx ty : ℝ} {h w : Nat} {g g' : PointGrid} (hm : Spec.Moved h w r ![tx, ty] g g') :
    gridRows h w g' = (gridRows h w g).map (Spec.movePoint r tx ty) := by
  change Spec.flat h w (fun i j => (g' i j 0, g' i j 1)) = (Spec.flat h w fun i j => (g i j 0, g i j 1)).map _
  rw [specFlat_map]
  refine specFlat_congr fun i j hi hj => ?_
  rw [hm i j hi hj]
  simp [Spec.movePoint]

/-- Reading an image in a moved frame at moved points. -/
theorem intensities_moved {r : ℝ} (hr : 0 < r) (tx ty : ℝ) (h w : Nat) (hh : 0 < h) (hw : 0 < w) (I : Nat → Nat → ℝ) (x0 x1 y0 y1 : ℝ) (hx : x0 < x1) (hy : y0 < y1)
    (l : List (ℝ × ℝ)) (hl : l.length = h * w) :
    deformedIntensities h w I (extent2 (r * x0 + tx) (r * x1 + tx) (r * y0 + ty) (r * y1 + ty)) (l.map (Spec.movePoint r tx ty)) =
      deformedIntensities h w I (extent2 x0 x1 y0 y1) l := by
  have hx' : x1 - x0 ≠ 0 := by linarith
  have hy' : y1 - y0 ≠ 0 := by linarith
  rw [deformedIntensities_run h w I _ _ _ _ (by nlinarith) (by nlinarith) hh hw _ (by rw [List.length_map, hl]),
    deformedIntensities_run h w I _ _ _ _ hx hy hh hw _ hl, List.map_map]
  congr 1
  refine List.map_congr_left fun p _ => ?_
  simp only [Function.comp, Spec.movePoint]
  have e1 : ((h : ℝ) - 1) / (r * y1 + ty - (r * y0 + ty)) * (r * p.2 + ty - (r * y0 + ty)) = ((h : ℝ) - 1) / (y1 - y0) * (p.2 - y0) := by
    rw [show r * y1 + ty - (r * y0 + ty) = r * (y1 - y0) by ring, show r * p.2 + ty - (r * y0 + ty) = r * (p.2 - y0) by ring]
    field_simp
  have e2 : ((w : ℝ) - 1) / (r * x1 + tx - (r * x0 + tx)) * (r * p.1 + tx - (r * x0 + tx)) = ((w : ℝ) - 1) / (x1 - x0) * (p.1 - x0) := by
    rw [show r * x1 + tx - (r * x0 + tx) = r * (x1 - x0) by ring, show r * p.1 + tx - (r * x0 + tx) = r * (p.1 - x0) by ring]
    field_simp
  rw [e1, e2]

/-- **C132.** Two images with the same bitmap, one in a moved frame and measured in another unit: for points of the
one and the moved points of the other both raise the same or give the same output, up to the place and the unit. -/
theorem C132_image_partial (h w : Nat) (hh : 2 ≤ h) (hw : 2 ≤ w) (I : Nat → Nat → ℝ) (x0 x1 y0 y1 : ℝ) (hx : x0 < x1) (hy : y0 < y1) (r tx ty : ℝ) (hr : 0 < r) :
    ∃ D D' pixels, DefImage.mk' h w I (.box (extent2 x0 x1 y0 y1)) = .ok D ∧
      DefImage.mk' h w I (.box (extent2 (r * x0 + tx) (r * x1 + tx) (r * y0 + ty) (r * y1 + ty))) = .ok D' ∧
      D.backwardPoints = .ok pixels ∧ D'.backwardPoints = .ok (pixels.map (Spec.movePoint r tx ty)) ∧
      ∀ (gd : List (ℝ × ℝ)) near output, Spec.IsNearest h w (gridOf w pixels) (gridOf w gd) near →
        Spec.SameRun (Spec.SameOutput r tx ty) (D.forwardGeometry near gd output) (D'.forwardGeometry near (gd.map (Spec.movePoint r tx ty)) output) := by
  have hx' : r * x0 + tx < r * x1 + tx := by nlinarith
  have hy' : r * y0 + ty < r * y1 + ty := by nlinarith
  obtain ⟨D, hD, e1, e2, e3, e4, e5⟩ := mkImage_ok h w hh hw I (.box (extent2 x0 x1 y0 y1)) x0 x1 y0 y1 (.box _ _ _ _ hx hy)
  obtain ⟨D', hD', e1', e2', e3', e4', e5'⟩ := mkImage_ok h w hh hw I (.box (extent2 (r * x0 + tx) (r * x1 + tx) (r * y0 + ty) (r * y1 + ty)))
    _ _ _ _ (.box _ _ _ _ hx' hy')
  have hb1 : D.backwardPoints = .ok (Spec.flat h w fun i j =>
      ((x1 - x0) / ((w : ℝ) - 1) * ((j : ℝ) * (((h : ℝ) - 1) / ((w : ℝ) - 1))) + x0, (y1 - y0) / ((h : ℝ) - 1) * ((i : ℝ) * (((w : ℝ) - 1) / ((h : ℝ) - 1))) + y0)) := by
    rw [DefImage.backwardPoints, e1, e2, e4, e5, imageGrid_eq h w hh hw]
  have hb2 : D'.backwardPoints = .ok ((Spec.flat h w fun i j =>
      ((x1 - x0) / ((w : ℝ) - 1) * ((j : ℝ) * (((h : ℝ) - 1) / ((w : ℝ) - 1))) + x0, (y1 - y0) / ((h : ℝ) - 1) * ((i : ℝ) * (((w : ℝ) - 1) / ((h : ℝ) - 1))) + y0)).map (Spec.movePoint r tx ty)) := by
    rw [DefImage.backwardPoints, e1', e2', e4', e5', imageGrid_eq h w hh hw, specFlat_map]
    congr 1
    refine specFlat_congr fun i j _ _ => ?_
    simp only [Spec.movePoint]
    refine Prod.ext ?_ ?_ <;> dsimp only <;> ring
  refine ⟨D, D', _, hD, hD', hb1, hb2, ?_⟩
  intro gd near output hn
  unfold DefImage.forwardGeometry
  rw [hb1, hb2]
  dsimp only
  rw [e1, e2, e1', e2', List.length_map]
  by_cases hl : gd.length = h * w
  swap
  · rw [if_pos hl, if_pos hl]
    exact .error _
  rw [if_neg (not_not.2 hl), if_neg (not_not.2 hl)]
  have hrun := C132_grid (near := near) hr (gridOf_moved r tx ty (h := h) (w := w) (l := Spec.flat h w fun i j =>
      ((x1 - x0) / ((w : ℝ) - 1) * ((j : ℝ) * (((h : ℝ) - 1) / ((w : ℝ) - 1))) + x0, (y1 - y0) / ((h : ℝ) - 1) * ((i : ℝ) * (((w : ℝ) - 1) / ((h : ℝ) - 1))) + y0)) (specFlat_length _ _ _))
    (gridOf_moved r tx ty hl) (fun i j hi hj => ⟨(hn i j hi hj).1, (hn i j hi hj).2.1⟩)
  generalize invertGrid h w near (gridOf w (Spec.flat h w _)) (gridOf w gd) = a at hrun ⊢
  generalize invertGrid h w near _ _ = b at hrun ⊢
  cases hrun with
  | error e => exact .error e
  | ok g g' hm =>
    dsimp only
    rw [gridRows_moved hm]
    have hlen : (gridRows h w g).length = h * w := specFlat_length h w fun i j => (g i j 0, g i j 1)
    have hi := intensities_moved hr tx ty h w (by omega) (by omega) I x0 x1 y0 y1 hx hy _ hlen
    cases output with
    | bitmap =>
      simp only [DefImage.deformedGeometry, e1, e2, e3, e4, e1', e2', e3', e4', hi]
      rw [deformedIntensities_run h w I _ _ _ _ hx hy (by omega) (by omega) _ hlen]
      exact .ok _ _ (.bitmap _)
    | points =>
      simp only [DefImage.deformedGeometry, e1, e2, e3, e4, e1', e2', e3', e4', hi]
      rw [deformedIntensities_run h w I _ _ _ _ hx hy (by omega) (by omega) _ hlen]
      simp only [bind, Except.bind]
      generalize normaliseWeights _ = n
      cases n with
      | error e => exact .error e
      | ok ws => exact .ok _ _ (.points _ _)
    | other => exact .error _

/-- Another number of points than of pixels raises. -/
theorem C132_wrong_number (h w : Nat) (hh : 2 ≤ h) (hw : 2 ≤ w) (I : Nat → Nat → ℝ) (ext : ExtentArg) (x0 x1 y0 y1 : ℝ) (hf : Spec.Frame h w ext x0 x1 y0 y1) :
    ∃ D, DefImage.mk' h w I ext = .ok D ∧ ∀ (gd : List (ℝ × ℝ)) near output, gd.length ≠ h * w → D.forwardGeometry near gd output = .error .runtime := by
  obtain ⟨D, hD, e1, e2, e3, e4, e5⟩ := mkImage_ok h w hh hw I ext x0 x1 y0 y1 hf
  refine ⟨D, hD, fun gd near output hl => ?_⟩
  unfold DefImage.forwardGeometry DefImage.backwardPoints
  rw [e1, e2, e4, e5, imageGrid_eq h w hh hw]
  dsimp only
  rw [if_pos hl]

/-! ## The bitmap -/

theorem bilinear_linear (h w : Nat) (I J : Nat → Nat → ℝ) (a b u v : ℝ) :
    bilinear h w (fun i j => a * I i j + b * J i j) u v = a * bilinear h w I u v + b * bilinear h w J u v := by
  simp only [bilinear, pix]
  ring

/-- **C132.** What is read is linear in the bitmap: of the same points a combination of bitmaps
gives the combination of what the bitmaps give. -/
theorem C132_linear (h w : Nat) (hh : 2 ≤ h) (hw : 2 ≤ w) (I J : Nat → Nat → ℝ) (a b : ℝ) (ext : ExtentArg) (x0 x1 y0 y1 : ℝ)
    (hf : Spec.Frame h w ext x0 x1 y0 y1) :
    ∃ D E F, DefImage.mk' h w I ext = .ok D ∧ DefImage.mk' h w J ext = .ok E ∧ DefImage.mk' h w (fun i j => a * I i j + b * J i j) ext = .ok F ∧
      ∀ gd near u, D.forwardGeometry near gd .bitmap = .ok (.bitmap u) →
        ∃ v, E.forwardGeometry near gd .bitmap = .ok (.bitmap v) ∧
          F.forwardGeometry near gd .bitmap = .ok (.bitmap (List.zipWith (fun x y => a * x + b * y) u v)) := by
  obtain ⟨D, hD, d1, d2, d3, d4, d5⟩ := mkImage_ok h w hh hw I ext x0 x1 y0 y1 hf
  obtain ⟨E, hE, e1, e2, e3, e4, e5⟩ := mkImage_ok h w hh hw J ext x0 x1 y0 y1 hf
  obtain ⟨F, hF, f1, f2, f3, f4, f5⟩ := mkImage_ok h w hh hw (fun i j => a * I i j + b * J i j) ext x0 x1 y0 y1 hf
  obtain ⟨hx, hy⟩ := frame_lt hh hw hf
  refine ⟨D, E, F, hD, hE, hF, fun gd near u hu => ?_⟩
  unfold DefImage.forwardGeometry DefImage.backwardPoints at hu ⊢
  rw [d1, d2, d4, d5] at hu
  rw [e1, e2, e4, e5, f1, f2, f4, f5]
  rw [imageGrid_eq h w hh hw] at hu ⊢
  dsimp only at hu ⊢
  by_cases hl : gd.length ≠ h * w
  · rw [if_pos hl] at hu
    simp at hu
  rw [if_neg hl] at hu ⊢
  generalize invertGrid h w near _ _ = x at hu ⊢
  cases x with
  | error e => simp at hu
  | ok g =>
    dsimp only at hu ⊢
    have hlen : (gridRows h w g).length = h * w := specFlat_length h w fun i j => (g i j 0, g i j 1)
    simp only [DefImage.deformedGeometry, d1, d2, d3, d4, deformedIntensities_run h w I _ _ _ _ hx hy (by omega : 0 < h) (by omega : 0 < w) _ hlen,
      bind, Except.bind, pure, Except.pure, Except.ok.injEq, ImgGeometry.bitmap.injEq] at hu
    subst hu
    simp only [DefImage.deformedGeometry, e1, e2, e3, e4, f1, f2, f3, f4, deformedIntensities_run h w _ _ _ _ _ hx hy (by omega : 0 < h) (by omega : 0 < w) _ hlen,
      bind, Except.bind, pure, Except.pure]
    refine ⟨_, rfl, ?_⟩
    rw [if_neg hl]
    congr 2
    rw [List.zipWith_map, List.zipWith_self]
    exact List.map_congr_left fun p _ => bilinear_linear h w I J a b _ _

/-- **C132, where the code disagrees.** The points an image starts from: if its frame is moved, they are moved alike only
if it is moved by nothing. -/
theorem C132_start_disagreement (h w : Nat) (hh : 2 ≤ h) (hw : 2 ≤ w) (I : Nat → Nat → ℝ) (x0 x1 y0 y1 : ℝ) (hx : x0 < x1) (hy : y0 < y1) (tx ty : ℝ) :
    ∃ D D', DefImage.mk' h w I (.box (extent2 x0 x1 y0 y1)) = .ok D ∧ DefImage.mk' h w I (.box (extent2 (x0 + tx) (x1 + tx) (y0 + ty) (y1 + ty))) = .ok D' ∧
      (D'.points = D.points.map (fun p => (p.1 + tx, p.2 + ty)) ↔ tx = 0 ∧ ty = 0) := by
  obtain ⟨D, hD, -, -, -, hp⟩ := image_points h w hh hw I (.box (extent2 x0 x1 y0 y1)) x0 x1 y0 y1 (.box _ _ _ _ hx hy)
  obtain ⟨D', hD', -, -, -, hp'⟩ := image_points h w hh hw I (.box (extent2 (x0 + tx) (x1 + tx) (y0 + ty) (y1 + ty))) _ _ _ _
    (.box _ _ _ _ (by linarith) (by linarith))
  have ph : (0 : ℝ) < (h : ℝ) - 1 := sub_pos.2 (by exact_mod_cast hh)
  have pw : (0 : ℝ) < (w : ℝ) - 1 := sub_pos.2 (by exact_mod_cast hw)
  refine ⟨D, D', hD, hD', ?_⟩
  rw [hp, hp', specFlat_map]
  constructor
  · intro e
    have := congrArg (fun l => l[0 * w + 0]?) e
    simp only [specFlat_get _ (by omega : 0 < h) (by omega : 0 < w), Option.some.injEq, Prod.mk.injEq] at this
    obtain ⟨a, b⟩ := this
    constructor
    · have : (y1 - y0) / ((h : ℝ) - 1) * tx = 0 := by
        rw [show y1 + ty - (y0 + ty) = y1 - y0 by ring] at b
        linarith
      rcases mul_eq_zero.1 this with q | q
      · exact absurd q (div_pos (by linarith) ph).ne'
      · exact q
    · have : (x1 - x0) / ((w : ℝ) - 1) * ty = 0 := by
        rw [show x1 + tx - (x0 + tx) = x1 - x0 by ring] at a
        linarith
      rcases mul_eq_zero.1 this with q | q
      · exact absurd q (div_pos (by linarith) pw).ne'
      · exact q
  · rintro ⟨rfl, rfl⟩
    simp only [add_zero]

/-! ## Concrete cases -/

/-- The whole numbers doubled and moved, and the choice of its own point for every pixel. -/
example : Spec.Moved 3 4 2 ![1, 5] wholeGrid (fun i j => (2 : ℝ) • wholeGrid i j + ![1, 5]) ∧ Spec.InGrid 3 4 fun i j => (i, j) :=
  ⟨fun _ _ _ _ => rfl, fun _ _ hi hj => ⟨hi, hj⟩⟩

end Imodal
