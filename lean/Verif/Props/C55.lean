import Verif.Props.C54
import Verif.Props.C49
/-!
# C55: the undeformed image
-/
set_option autoImplicit false
namespace Imodal
noncomputable section

/-- A bitmap as a flattened tensor, row by row. -/
def Spec.flat {β : Type} (h w : Nat) (I : Nat → Nat → β) : List β := (List.range h).flatMap fun i => (List.range w).map fun j => I i j

theorem flatMap_range_length {β : Type} {m : Nat} (f : Nat → List β) (hf : ∀ i, (f i).length = m) (n : Nat) : ((List.range n).flatMap f).length = n * m := by
  rw [List.length_flatMap]
  simp [hf]

/-- Entry `i * m + r` of a concatenation of pieces of length `m`. -/
theorem flatMap_range_get {β : Type} {m : Nat} (f : Nat → List β) (hf : ∀ i, (f i).length = m) : ∀ (n i r : Nat), i < n → r < m →
    ((List.range n).flatMap f)[i * m + r]? = (f i)[r]?
  | 0, _, _, h, _ => absurd h (Nat.not_lt_zero _)
  | n + 1, i, r, h, hr => by
    rw [List.range_succ, List.flatMap_append, List.flatMap_singleton]
    have hl := flatMap_range_length f hf n
    rcases Nat.lt_succ_iff_lt_or_eq.1 h with hi | rfl
    · have hb : i * m + r < ((List.range n).flatMap f).length := by
        rw [hl]
        calc i * m + r < i * m + m := by omega
          _ = (i + 1) * m := by ring
          _ ≤ n * m := Nat.mul_le_mul_right m hi
      rw [List.getElem?_append_left hb]
      exact flatMap_range_get f hf n i r hi hr
    · rw [List.getElem?_append_right (by rw [hl]; omega), hl]
      congr 1
      omega

theorem specFlat_get {β : Type} {h w i j : Nat} (I : Nat → Nat → β) (hi : i < h) (hj : j < w) : (Spec.flat h w I)[i * w + j]? = some (I i j) := by
  unfold Spec.flat
  rw [flatMap_range_get (m := w) _ (fun i => by simp) h i j hi hj]
  simp [hj]

theorem specFlat_length {β : Type} (h w : Nat) (I : Nat → Nat → β) : (Spec.flat h w I).length = h * w :=
  flatMap_range_length _ (fun i => by simp) h

theorem specFlat_map {β γ : Type} (h w : Nat) (I : Nat → Nat → β) (f : β → γ) : (Spec.flat h w I).map f = Spec.flat h w fun i j => f (I i j) := by
  simp [Spec.flat, List.map_flatMap, List.map_map, Function.comp_def]

theorem specFlat_congr {β : Type} {h w : Nat} {I J : Nat → Nat → β} (e : ∀ i j, i < h → j < w → I i j = J i j) : Spec.flat h w I = Spec.flat h w J := by
  unfold Spec.flat
  refine List.flatMap_congr fun i hi => List.map_congr_left fun j hj => e i j (List.mem_range.1 hi) (List.mem_range.1 hj)

theorem linspace_zero (b : ℝ) (n : Nat) (hn : 2 ≤ n) : linspace 0 b n = (List.range n).map fun i : Nat => (i : ℝ) * (b / ((n : ℝ) - 1)) := by
  obtain ⟨m, rfl⟩ : ∃ m, n = m + 2 := ⟨n - 2, by omega⟩
  rw [linspace]
  refine List.map_congr_left fun i _ => ?_
  push_cast
  rw [zero_add, sub_zero]
  congr 2
  ring

/-- The grid of pixel positions that the constructor and the backward module use, for a box that
starts at the origin. -/
theorem imageGrid_eq (h w : Nat) (hh : 2 ≤ h) (hw : 2 ≤ w) (bx by' x0 x1 y0 y1 : ℝ) :
    imageGrid h w (extent2 0 bx 0 by') (extent2 x0 x1 y0 y1) = .ok (Spec.flat h w fun i j =>
      ((x1 - x0) / ((w : ℝ) - 1) * ((j : ℝ) * (by' / ((w : ℝ) - 1))) + x0, (y1 - y0) / ((h : ℝ) - 1) * ((i : ℝ) * (bx / ((h : ℝ) - 1))) + y0)) := by
  have hfill : (extent2 0 bx 0 by' : AABB ℝ).fillCount [h, w] =
      .ok (Spec.flat h w fun i j => [(i : ℝ) * (bx / ((h : ℝ) - 1)), (j : ℝ) * (by' / ((w : ℝ) - 1))]) := by
    unfold AABB.fillCount
    rw [if_neg (by simp [extent2])]
    rw [grid2vec_meshgrid _ (by simp [extent2, linspaces])]
    congr 1
    simp only [extent2, linspaces, cart, linspace_zero _ _ hh, linspace_zero _ _ hw, Spec.flat, List.flatMap_map, List.map_flatMap]
    refine List.flatMap_congr fun i _ => ?_
    simp [List.flatMap_def, List.map_map, Function.comp_def]
    induction List.range w with
    | nil => rfl
    | cons a l ih => simp [ih]
  unfold imageGrid
  rw [hfill, pixels2points_eq h w hh hw]
  simp only [bind, Except.bind]
  rw [mapM_ok (g := fun r => ((x1 - x0) / ((w : ℝ) - 1) * r.getD 1 0 + x0, (y1 - y0) / ((h : ℝ) - 1) * r.getD 0 0 + y0))]
  · rw [specFlat_map]; rfl
  · intro r hr
    simp only [Spec.flat, List.mem_flatMap, List.mem_map] at hr
    obtain ⟨i, _, j, _, rfl⟩ := hr
    simp only [pairOf]
    rw [pixels2points_eq h w hh hw]
    rfl

/-- The frame of the plane that an `extent` argument stands for. -/
inductive Spec.Frame (h w : Nat) : ExtentArg → ℝ → ℝ → ℝ → ℝ → Prop
  | none : Frame h w .none 0 1 0 1
  | isMatch : Frame h w .isMatch 0 ((w : ℝ) - 1) 0 ((h : ℝ) - 1)
  | box (x0 x1 y0 y1 : ℝ) (hx : x0 < x1) (hy : y0 < y1) : Frame h w (.box (extent2 x0 x1 y0 y1)) x0 x1 y0 y1

theorem one_le_cast {n : Nat} (hn : 1 ≤ n) : (0 : ℝ) ≤ (n : ℝ) - 1 := sub_nonneg.2 (by exact_mod_cast hn)

theorem ofArgs_eq {a b c e : ℝ} (h1 : a ≤ b) (h2 : c ≤ e) : AABB.ofArgs [.num a, .num b, .num c, .num e] = .ok (extent2 a b c e) := by
  simp [AABB.ofArgs, BoxArg.nums, AABB.ofFlat, evens, odds, checkOrder, not_lt.2 h1, not_lt.2 h2, extent2]

/-- The image grid succeeds for every box with two axes. -/
theorem imageGrid_ok (h w : Nat) (hh : 2 ≤ h) (hw : 2 ≤ w) (a b c e x0 x1 y0 y1 : ℝ) : ∃ g, imageGrid h w (extent2 a b c e) (extent2 x0 x1 y0 y1) = .ok g := by
  unfold imageGrid AABB.fillCount
  rw [if_neg (by simp [extent2]), grid2vec_meshgrid _ (by simp [extent2, linspaces]), pixels2points_eq h w hh hw]
  simp only [bind, Except.bind]
  rw [mapM_ok (g := fun r => ((x1 - x0) / ((w : ℝ) - 1) * r.getD 1 0 + x0, (y1 - y0) / ((h : ℝ) - 1) * r.getD 0 0 + y0))]
  · exact ⟨_, rfl⟩
  · intro r hr
    rw [mem_cart] at hr
    simp only [extent2, linspaces] at hr
    cases hr with
    | cons _ hr =>
      cases hr with
      | cons _ hr =>
        cases hr
        simp only [pairOf]
        rw [pixels2points_eq h w hh hw]
        rfl

/-- Construction, for images of at least two rows and columns. -/
theorem mkImage_ok (h w : Nat) (hh : 2 ≤ h) (hw : 2 ≤ w) (I : Nat → Nat → ℝ) (ext : ExtentArg) (x0 x1 y0 y1 : ℝ) (hf : Spec.Frame h w ext x0 x1 y0 y1) :
    ∃ D, DefImage.mk' h w I ext = .ok D ∧ D.h = h ∧ D.w = w ∧ D.bitmap = I ∧ D.extent = extent2 x0 x1 y0 y1 ∧
      D.pixelExtent = extent2 0 ((w : ℝ) - 1) 0 ((h : ℝ) - 1) := by
  have hp := ofArgs_eq (one_le_cast (by omega : 1 ≤ w)) (one_le_cast (by omega : 1 ≤ h))
  have hu : AABB.ofArgs [.num (0 : ℝ), .num 1, .num 0, .num 1] = .ok (extent2 0 1 0 1) := ofArgs_eq zero_le_one zero_le_one
  cases hf with
  | none =>
    obtain ⟨g, hg⟩ := imageGrid_ok h w hh hw 0 1 0 1 0 1 0 1
    simp only [DefImage.mk', hp, hu, hg, bind, Except.bind, pure, Except.pure]
    exact ⟨_, rfl, rfl, rfl, rfl, rfl, rfl⟩
  | isMatch =>
    obtain ⟨g, hg⟩ := imageGrid_ok h w hh hw 0 ((w : ℝ) - 1) 0 ((h : ℝ) - 1) 0 ((w : ℝ) - 1) 0 ((h : ℝ) - 1)
    simp only [DefImage.mk', hp, hg, bind, Except.bind, pure, Except.pure]
    exact ⟨_, rfl, rfl, rfl, rfl, rfl, rfl⟩
  | box _ _ _ _ hx hy =>
    obtain ⟨g, hg⟩ := imageGrid_ok h w hh hw x0 x1 y0 y1 x0 x1 y0 y1
    have hd : ¬ ((extent2 x0 x1 y0 y1).dim ≠ 2) := by simp [extent2]
    simp only [DefImage.mk', hp, hg, if_neg hd, bind, Except.bind, pure, Except.pure]
    exact ⟨_, rfl, rfl, rfl, rfl, rfl, rfl⟩

theorem frame_lt {h w : Nat} (hh : 2 ≤ h) (hw : 2 ≤ w) {ext : ExtentArg} {x0 x1 y0 y1 : ℝ} (hf : Spec.Frame h w ext x0 x1 y0 y1) : x0 < x1 ∧ y0 < y1 := by
  have h1 : (1 : ℝ) < h := by exact_mod_cast hh
  have h2 : (1 : ℝ) < w := by exact_mod_cast hw
  cases hf with
  | none => exact ⟨one_pos, one_pos⟩
  | isMatch => exact ⟨by linarith, by linarith⟩
  | box _ _ _ _ hx hy => exact ⟨hx, hy⟩

/-- The image that the identity flow gives, for every shape and frame. -/
theorem identity_image (h w : Nat) (hh : 2 ≤ h) (hw : 2 ≤ w) (I : Nat → Nat → ℝ) (ext : ExtentArg) (x0 x1 y0 y1 : ℝ) (hf : Spec.Frame h w ext x0 x1 y0 y1) :
    ∃ D gd, DefImage.mk' h w I ext = .ok D ∧ D.backwardPoints = .ok gd ∧ D.toDeformed gd = .ok (Spec.flat h w fun i j =>
      bilinear h w I ((i : ℝ) * (((w : ℝ) - 1) / ((h : ℝ) - 1))) ((j : ℝ) * (((h : ℝ) - 1) / ((w : ℝ) - 1)))) := by
  obtain ⟨D, hD, e1, e2, e3, e4, e5⟩ := mkImage_ok h w hh hw I ext x0 x1 y0 y1 hf
  obtain ⟨hx, hy⟩ := frame_lt hh hw hf
  have hb : D.backwardPoints = .ok (Spec.flat h w fun i j =>
      ((x1 - x0) / ((w : ℝ) - 1) * ((j : ℝ) * (((h : ℝ) - 1) / ((w : ℝ) - 1))) + x0, (y1 - y0) / ((h : ℝ) - 1) * ((i : ℝ) * (((w : ℝ) - 1) / ((h : ℝ) - 1))) + y0)) := by
    rw [DefImage.backwardPoints, e1, e2, e4, e5, imageGrid_eq h w hh hw]
  refine ⟨D, _, hD, hb, ?_⟩
  · rw [DefImage.toDeformed, e1, e2, e3, e4, deformedIntensities_run h w I x0 x1 y0 y1 hx hy (by omega) (by omega) _ (specFlat_length _ _ _), specFlat_map]
    have h1 : (h : ℝ) - 1 ≠ 0 := nat_sub_one_ne hh
    have h2 : (w : ℝ) - 1 ≠ 0 := nat_sub_one_ne hw
    have hx' : x1 - x0 ≠ 0 := by linarith
    have hy' : y1 - y0 ≠ 0 := by linarith
    congr 1
    refine specFlat_congr fun i j _ _ => ?_
    congr 1
    · field_simp; ring
    · field_simp; ring

/-- What holds: square images of at least two by two pixels are reproduced exactly by the identity
flow, for every bitmap and every frame. Missing: other shapes, for which it is false. -/
theorem C55_partial (n : Nat) (hn : 2 ≤ n) (I : Nat → Nat → ℝ) (ext : ExtentArg) (x0 x1 y0 y1 : ℝ) (hf : Spec.Frame n n ext x0 x1 y0 y1) :
    ∃ D gd, DefImage.mk' n n I ext = .ok D ∧ D.backwardPoints = .ok gd ∧ D.toDeformed gd = .ok (Spec.flat n n I) := by
  obtain ⟨D, gd, h1, h2, h3⟩ := identity_image n n hn hn I ext x0 x1 y0 y1 hf
  refine ⟨D, gd, h1, h2, ?_⟩
  rw [h3]
  congr 1
  refine specFlat_congr fun i j hi hj => ?_
  rw [div_self (nat_sub_one_ne hn), mul_one, mul_one, bilinear_at I hi hj]

/-- For every shape that is not square, with at least two rows and columns, some bitmap is
changed by the identity flow, whatever the frame. -/
theorem C55_disagreement (h w : Nat) (hh : 2 ≤ h) (hw : 2 ≤ w) (hne : h ≠ w) (ext : ExtentArg) (x0 x1 y0 y1 : ℝ) (hf : Spec.Frame h w ext x0 x1 y0 y1) :
    ∃ I D gd out, DefImage.mk' h w I ext = .ok D ∧ D.backwardPoints = .ok gd ∧ D.toDeformed gd = .ok out ∧ out ≠ Spec.flat h w I := by
  have p1 : (0 : ℝ) < (h : ℝ) - 1 := sub_pos.2 (by exact_mod_cast hh)
  have p2 : (0 : ℝ) < (w : ℝ) - 1 := sub_pos.2 (by exact_mod_cast hw)
  rcases Nat.lt_or_gt_of_ne hne with hlt | hlt
  · -- wider than high: the pixel in row 0, column 1
    obtain ⟨D, gd, a1, a2, a3⟩ := identity_image h w hh hw (fun _ j => if j = 1 then 1 else 0) ext x0 x1 y0 y1 hf
    refine ⟨_, D, gd, _, a1, a2, a3, fun e => ?_⟩
    have e' := congrArg (fun l => l[0 * w + 1]?) e
    rw [specFlat_get _ (by omega) (by omega), specFlat_get _ (by omega) (by omega)] at e'
    have hlt' : (h : ℝ) < w := by exact_mod_cast hlt
    have v0 : 0 < ((h : ℝ) - 1) / ((w : ℝ) - 1) := div_pos p1 p2
    have v1 : ((h : ℝ) - 1) / ((w : ℝ) - 1) < 1 := (div_lt_one p2).2 (by linarith)
    rw [bilinear_eq] at e'
    have hfl : ⌊((1 : Nat) : ℝ) * (((h : ℝ) - 1) / ((w : ℝ) - 1))⌋ = 0 := by
      rw [Int.floor_eq_zero_iff]; constructor <;> push_cast <;> linarith
    have hin : ∀ i : ℤ, lerp w (pix (fun _ j => if j = 1 then (1 : ℝ) else 0) i) (((1 : Nat) : ℝ) * (((h : ℝ) - 1) / ((w : ℝ) - 1))) =
        ((h : ℝ) - 1) / ((w : ℝ) - 1) := by
      intro i
      unfold lerp
      have c1 : clampIdx w 0 = 0 := clampIdx_id (by omega) (by omega)
      have c2 : clampIdx w (0 + 1) = 1 := clampIdx_id (by omega) (by omega)
      rw [hfl, c1, c2]
      simp [pix]
    rw [lerp_const (c := ((h : ℝ) - 1) / ((w : ℝ) - 1)) (by omega) (fun i _ _ => hin i)] at e'
    simp at e'
    linarith
  · obtain ⟨D, gd, a1, a2, a3⟩ := identity_image h w hh hw (fun i _ => if i = 1 then 1 else 0) ext x0 x1 y0 y1 hf
    refine ⟨_, D, gd, _, a1, a2, a3, fun e => ?_⟩
    have e' := congrArg (fun l => l[1 * w + 0]?) e
    rw [specFlat_get _ (by omega) (by omega), specFlat_get _ (by omega) (by omega)] at e'
    have hlt' : (w : ℝ) < h := by exact_mod_cast hlt
    have v0 : 0 < ((w : ℝ) - 1) / ((h : ℝ) - 1) := div_pos p2 p1
    have v1 : ((w : ℝ) - 1) / ((h : ℝ) - 1) < 1 := (div_lt_one p1).2 (by linarith)
    rw [bilinear_eq] at e'
    have hfl : ⌊((1 : Nat) : ℝ) * (((w : ℝ) - 1) / ((h : ℝ) - 1))⌋ = 0 := by
      rw [Int.floor_eq_zero_iff]; constructor <;> push_cast <;> linarith
    have c1 : clampIdx h 0 = 0 := clampIdx_id (by omega) (by omega)
    have c2 : clampIdx h (0 + 1) = 1 := clampIdx_id (by omega) (by omega)
    have k0 : ∀ v, lerp w (pix (fun i _ => if i = 1 then (1 : ℝ) else 0) 0) v = 0 := fun v => lerp_const (by omega) (fun j _ _ => by simp [pix]) v
    have k1 : ∀ v, lerp w (pix (fun i _ => if i = 1 then (1 : ℝ) else 0) 1) v = 1 := fun v => lerp_const (by omega) (fun j _ _ => by simp [pix]) v
    have hout : ∀ v, lerp h (fun i => lerp w (pix (fun i _ => if i = 1 then (1 : ℝ) else 0) i) v) (((1 : Nat) : ℝ) * (((w : ℝ) - 1) / ((h : ℝ) - 1))) =
        ((w : ℝ) - 1) / ((h : ℝ) - 1) := by
      intro v
      rw [lerp, hfl, c1, c2]
      simp only [k0, k1]
      simp
    rw [hout] at e'
    simp at e'
    linarith

/-- Images with one row or one column cannot be made deformable: the constructor raises. -/
theorem C55_line_disagreement (h w : Nat) (hh : 1 ≤ h) (hw : 1 ≤ w) (h1 : h = 1 ∨ w = 1) (I : Nat → Nat → ℝ) (ext : ExtentArg) (x0 x1 y0 y1 : ℝ)
    (hf : Spec.Frame h w ext x0 x1 y0 y1) : DefImage.mk' h w I ext = .error .zeroDivision := by
  have hp := ofArgs_eq (one_le_cast hw) (one_le_cast hh)
  have hu : AABB.ofArgs [.num (0 : ℝ), .num 1, .num 0, .num 1] = .ok (extent2 0 1 0 1) := ofArgs_eq zero_le_one zero_le_one
  have hz : ∀ a b c e : ℝ, imageGrid h w (extent2 a b c e) (extent2 a b c e) = .error .zeroDivision := by
    intro a b c e
    unfold imageGrid AABB.fillCount
    rw [if_neg (by simp [extent2]), grid2vec_meshgrid _ (by simp [extent2, linspaces])]
    have : pixels2points h w (extent2 a b c e) (0, 0) = .error .zeroDivision := by
      by_cases hw1 : w = 1
      · subst hw1
        simp [pixels2points, AABB.side, extent2, pyDiv, bind, Except.bind]
      · have hh1 : h = 1 := h1.resolve_right hw1
        subst hh1
        have : (w : ℝ) - 1 ≠ 0 := nat_sub_one_ne (by omega)
        simp [pixels2points, AABB.side, extent2, pyDiv, bind, Except.bind, this]
    simp only [bind, Except.bind, this]
  cases hf with
  | none => simp only [DefImage.mk', hp, hu, hz, bind, Except.bind]
  | isMatch => simp only [DefImage.mk', hp, hz, bind, Except.bind]
  | box _ _ _ _ hx hy =>
    have hd : ¬ ((extent2 x0 x1 y0 y1).dim ≠ 2) := by simp [extent2]
    simp only [DefImage.mk', hp, hz, if_neg hd, bind, Except.bind]

example : Spec.Frame 3 3 (.box (extent2 (-1) 1 0 5)) (-1) 1 0 5 := .box _ _ _ _ (by norm_num) (by norm_num)

end
end Imodal
