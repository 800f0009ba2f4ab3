import Verif.Props.C55
/-!
# C76 An image deformable places its points at its pixels

The points an image hands out should be the positions of its pixels in its extent, in the order of
the pixels, and their weights the pixel values divided by their sum.
-/
set_option autoImplicit false
namespace Imodal
noncomputable section

/-- The positions of the pixels of an `h × w` image spread over a frame, row by row. -/
def Spec.pixelPositions (h w : Nat) (x0 x1 y0 y1 : ℝ) : List (ℝ × ℝ) :=
  Spec.flat h w fun i j => (x0 + (j : ℝ) / ((w : ℝ) - 1) * (x1 - x0), y0 + (i : ℝ) / ((h : ℝ) - 1) * (y1 - y0))

theorem linspace_eq (a b : ℝ) (n : Nat) (hn : 2 ≤ n) : linspace a b n = (List.range n).map fun i : Nat => a + (i : ℝ) * ((b - a) / ((n : ℝ) - 1)) := by
  obtain ⟨m, rfl⟩ : ∃ m, n = m + 2 := ⟨n - 2, by omega⟩
  rw [linspace]
  refine List.map_congr_left fun i _ => ?_
  push_cast
  congr 3
  ring

/-- The grid that the constructor uses, for every box. -/
theorem imageGrid_box (h w : Nat) (hh : 2 ≤ h) (hw : 2 ≤ w) (a b c e x0 x1 y0 y1 : ℝ) :
    imageGrid h w (extent2 a b c e) (extent2 x0 x1 y0 y1) = .ok (Spec.flat h w fun i j =>
      ((x1 - x0) / ((w : ℝ) - 1) * (c + (j : ℝ) * ((e - c) / ((w : ℝ) - 1))) + x0, (y1 - y0) / ((h : ℝ) - 1) * (a + (i : ℝ) * ((b - a) / ((h : ℝ) - 1))) + y0)) := by
  have hfill : (extent2 a b c e : AABB ℝ).fillCount [h, w] =
      .ok (Spec.flat h w fun i j => [a + (i : ℝ) * ((b - a) / ((h : ℝ) - 1)), c + (j : ℝ) * ((e - c) / ((w : ℝ) - 1))]) := by
    unfold AABB.fillCount
    rw [if_neg (by simp [extent2])]
    rw [grid2vec_meshgrid _ (by simp [extent2, linspaces])]
    congr 1
    simp only [extent2, linspaces, cart, linspace_eq _ _ _ hh, linspace_eq _ _ _ hw, Spec.flat, List.flatMap_map, List.map_flatMap]
    refine List.flatMap_congr fun i _ => ?_
    simp [List.flatMap_def, List.map_map, Function.comp_def]
    induction List.range w with
    | nil => rfl
    | cons a l ih => simp [ih]
  unfold imageGrid
  rw [hfill, pixels2points_eq h w hh hw]
  simp only [bind, Except.bind]
  rw [mapM_ok (g := fun r => ((x1 - x0) / ((w : ℝ) - 1) * r.getD 1 0 + x0, (y1 - y0) / ((h : ℝ) - 1) * r.getD 0 0 + y0))]
  · rw [specFlat_map]; rfl
  · intro r hr
    simp only [Spec.flat, List.mem_flatMap, List.mem_map] at hr
    obtain ⟨i, _, j, _, rfl⟩ := hr
    simp only [pairOf]
    rw [pixels2points_eq h w hh hw]
    rfl

/-- The points of an image, for every shape and frame. -/
theorem image_points (h w : Nat) (hh : 2 ≤ h) (hw : 2 ≤ w) (I : Nat → Nat → ℝ) (ext : ExtentArg) (x0 x1 y0 y1 : ℝ) (hf : Spec.Frame h w ext x0 x1 y0 y1) :
    ∃ D, DefImage.mk' h w I ext = .ok D ∧ D.h = h ∧ D.w = w ∧ D.bitmap = I ∧ D.points = Spec.flat h w fun i j =>
      ((x1 - x0) / ((w : ℝ) - 1) * (y0 + (j : ℝ) * ((y1 - y0) / ((w : ℝ) - 1))) + x0, (y1 - y0) / ((h : ℝ) - 1) * (x0 + (i : ℝ) * ((x1 - x0) / ((h : ℝ) - 1))) + y0) := by
  have hp := ofArgs_eq (one_le_cast (by omega : 1 ≤ w)) (one_le_cast (by omega : 1 ≤ h))
  have hu : AABB.ofArgs [.num (0 : ℝ), .num 1, .num 0, .num 1] = .ok (extent2 0 1 0 1) := ofArgs_eq zero_le_one zero_le_one
  cases hf with
  | none =>
    simp only [DefImage.mk', hp, hu, imageGrid_box h w hh hw, bind, Except.bind, pure, Except.pure]
    exact ⟨_, rfl, rfl, rfl, rfl, rfl⟩
  | isMatch =>
    simp only [DefImage.mk', hp, imageGrid_box h w hh hw, bind, Except.bind, pure, Except.pure]
    exact ⟨_, rfl, rfl, rfl, rfl, rfl⟩
  | box _ _ _ _ hx hy =>
    have hd : (extent2 x0 x1 y0 y1 : AABB ℝ).dim = 2 := rfl
    simp only [DefImage.mk', hp, imageGrid_box h w hh hw, bind, Except.bind, pure, Except.pure, hd, ne_eq, not_true_eq_false, if_false]
    exact ⟨_, rfl, rfl, rfl, rfl, rfl⟩

/-- **Disagreement.** The points are the pixel positions exactly when the frame is `[0, h-1] × [0, w-1]`. -/
theorem C76_points_disagreement (h w : Nat) (hh : 2 ≤ h) (hw : 2 ≤ w) (I : Nat → Nat → ℝ) (ext : ExtentArg) (x0 x1 y0 y1 : ℝ)
    (hf : Spec.Frame h w ext x0 x1 y0 y1) :
    ∃ D, DefImage.mk' h w I ext = .ok D ∧
      (D.points = Spec.pixelPositions h w x0 x1 y0 y1 ↔ x0 = 0 ∧ x1 = (h : ℝ) - 1 ∧ y0 = 0 ∧ y1 = (w : ℝ) - 1) := by
  obtain ⟨D, hD, _, _, _, hp⟩ := image_points h w hh hw I ext x0 x1 y0 y1 hf
  obtain ⟨hx, hy⟩ := frame_lt hh hw hf
  have ph : (0 : ℝ) < (h : ℝ) - 1 := sub_pos.2 (by exact_mod_cast hh)
  have pw : (0 : ℝ) < (w : ℝ) - 1 := sub_pos.2 (by exact_mod_cast hw)
  refine ⟨D, hD, ?_⟩
  rw [hp, Spec.pixelPositions]
  constructor
  · intro e
    have get : ∀ i j, i < h → j < w → _ := fun i j hi hj => by
      have := congrArg (fun l => l[i * w + j]?) e
      simp only [specFlat_get _ hi hj, Option.some.injEq, Prod.mk.injEq] at this
      exact this
    have e0 := get 0 0 (by omega) (by omega)
    have e1 := get 1 1 (by omega) (by omega)
    simp only [Nat.cast_zero, Nat.cast_one, zero_mul, zero_div, add_zero, one_mul, add_eq_right, mul_eq_zero, div_eq_zero_iff] at e0 e1
    have hy0 : y0 = 0 := by
      rcases e0.1 with (h | h) | h
      · linarith
      · linarith
      · exact h
    have hx0 : x0 = 0 := by
      rcases e0.2 with (h | h) | h
      · linarith
      · linarith
      · exact h
    subst hx0 hy0
    have a1 := e1.1
    have a2 := e1.2
    field_simp at a1 a2
    refine ⟨rfl, ?_, rfl, ?_⟩
    · nlinarith
    · nlinarith
  · rintro ⟨rfl, rfl, rfl, rfl⟩
    refine specFlat_congr fun i j _ _ => ?_
    simp only [Prod.mk.injEq]
    constructor <;> field_simp <;> ring

/-- With the default extent this leaves only images of two by two pixels. -/
theorem C76_default_disagreement (h w : Nat) (hh : 2 ≤ h) (hw : 2 ≤ w) (hne : 2 < h ∨ 2 < w) (I : Nat → Nat → ℝ) :
    ∃ D, DefImage.mk' h w I .none = .ok D ∧ D.points ≠ Spec.pixelPositions h w 0 1 0 1 := by
  obtain ⟨D, hD, hiff⟩ := C76_points_disagreement h w hh hw I .none 0 1 0 1 .none
  refine ⟨D, hD, fun e => ?_⟩
  obtain ⟨_, h1, _, h2⟩ := hiff.1 e
  rcases hne with h' | h'
  · have : (2 : ℝ) < h := by exact_mod_cast h'
    linarith
  · have : (2 : ℝ) < w := by exact_mod_cast h'
    linarith

/-- With the extent matching the pixels, square images are placed right. -/
theorem C76_square_partial (n : Nat) (hn : 2 ≤ n) (I : Nat → Nat → ℝ) :
    ∃ D, DefImage.mk' n n I .isMatch = .ok D ∧ D.points = Spec.pixelPositions n n 0 ((n : ℝ) - 1) 0 ((n : ℝ) - 1) := by
  obtain ⟨D, hD, hiff⟩ := C76_points_disagreement n n hn hn I .isMatch _ _ _ _ .isMatch
  exact ⟨D, hD, hiff.2 ⟨rfl, rfl, rfl, rfl⟩⟩

/-- As weighted points, an image gives its points with weights that sum to one and are proportional
to the pixel values, row by row. -/
theorem C76_weights (D : DefImage) (hs : (Spec.flat D.h D.w D.bitmap).sum ≠ 0) :
    ∃ ws, D.geometry .points = .ok (.points D.points ws) ∧ ws.sum = 1 ∧ ws.length = D.h * D.w ∧
      ∀ i j, i < D.h → j < D.w → ∃ x, ws[i * D.w + j]? = some x ∧ x * (Spec.flat D.h D.w D.bitmap).sum = D.bitmap i j := by
  have hs' : (flattenBitmap D.h D.w D.bitmap).sum ≠ 0 := hs
  refine ⟨(Spec.flat D.h D.w D.bitmap).map fun x => x / (Spec.flat D.h D.w D.bitmap).sum, ?_, ?_, ?_, ?_⟩
  · simp only [DefImage.geometry, normaliseWeights, if_neg hs']
    rfl
  · simp only [div_eq_mul_inv]
    rw [List.sum_map_mul_right, List.map_id']
    exact mul_inv_cancel₀ hs
  · rw [List.length_map, specFlat_length]
  · intro i j hi hj
    refine ⟨D.bitmap i j / (Spec.flat D.h D.w D.bitmap).sum, ?_, div_mul_cancel₀ _ hs⟩
    rw [List.getElem?_map, specFlat_get _ hi hj]; rfl

theorem mapM_length {α β : Type} (f : α → Py β) : ∀ (l : List α) (r : List β), l.mapM f = .ok r → r.length = l.length
  | [], r, h => by simp [pure, Except.pure] at h; subst h; rfl
  | a :: l, r, h => by
    rw [List.mapM_cons] at h
    simp only [bind, Except.bind, pure, Except.pure] at h
    split at h
    · simp at h
    · split at h
      · simp at h
      · rename_i r' h'
        simp only [Except.ok.injEq] at h
        subst h
        simp [mapM_length f l r' h']

/-- So does the deformed image: the positions are the deformed points, the weights sum to one. -/
theorem C76_deformed_weights (D : DefImage) (gd : List (ℝ × ℝ)) (values : List ℝ) (hv : D.deformedGeometry gd .bitmap = .ok (.bitmap values))
    (hs : values.sum ≠ 0) :
    ∃ ws, D.deformedGeometry gd .points = .ok (.points gd ws) ∧ ws.sum = 1 ∧ ws.length = gd.length ∧ ws.map (fun x => x * values.sum) = values := by
  simp only [DefImage.deformedGeometry] at hv ⊢
  cases hd : deformedIntensities D.h D.w D.bitmap D.extent gd with
  | error e => rw [hd] at hv; simp [bind, Except.bind] at hv
  | ok v =>
    rw [hd] at hv
    simp only [bind, Except.bind, pure, Except.pure, Except.ok.injEq, ImgGeometry.bitmap.injEq] at hv
    subst hv
    refine ⟨v.map fun x => x / v.sum, ?_, ?_, ?_, ?_⟩
    · simp only [bind, Except.bind, normaliseWeights, if_neg hs]
      rfl
    · simp only [div_eq_mul_inv]
      rw [List.sum_map_mul_right, List.map_id']
      exact mul_inv_cancel₀ hs
    · rw [List.length_map]
      simp only [deformedIntensities, bind, Except.bind, pure, Except.pure] at hd
      split at hd
      · simp at hd
      · split at hd
        · simp at hd
        · rename_i uv huv
          split_ifs at hd with h1 h2
          simp only [Except.ok.injEq] at hd
          subst hd
          rw [List.length_map]
          exact mapM_length _ _ _ huv
    · rw [List.map_map]
      conv_rhs => rw [← List.map_id v]
      exact List.map_congr_left fun x _ => div_mul_cancel₀ _ hs

/-- Other outputs are rejected: at construction, and when the geometry is asked for. -/
theorem C76_output (h w : Nat) (I : Nat → Nat → ℝ) (ext : ExtentArg) (D : DefImage) (gd : List (ℝ × ℝ)) :
    DefImage.mkOutput h w I .other ext = .error .assertion ∧ D.geometry .other = .error .value ∧ D.deformedGeometry gd .other = .error .value ∧
    ∀ o, o ≠ .other → DefImage.mkOutput h w I o ext = DefImage.mk' h w I ext :=
  ⟨rfl, rfl, rfl, fun o ho => by rw [DefImage.mkOutput, if_neg ho]⟩

/-- A two by two image with values one to four: the weights are a tenth of the values. -/
example : (⟨2, 2, fun i j => 2 * i + j + 1, extent2 0 1 0 1, extent2 0 1 0 1, []⟩ : DefImage).geometry .points
    = .ok (.points [] [1 / 10, 1 / 5, 3 / 10, 2 / 5]) := by
  simp [DefImage.geometry, normaliseWeights, flattenBitmap, List.range_succ]
  norm_num

end
end Imodal
