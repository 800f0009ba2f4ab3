import Verif.Model.Image
import Verif.Props.C51
/-!
# C54: image interpolation
-/
set_option autoImplicit false
namespace Imodal
noncomputable section

/-! ## One axis -/

/-- Interpolation along one axis, as both formulas do it. -/
def lerp (n : Nat) (f : ℤ → ℝ) (u : ℝ) : ℝ :=
  f (clampIdx n ⌊u⌋) * (((clampIdx n ⌊u⌋ + 1 : ℤ) : ℝ) - u) + f (clampIdx n (clampIdx n ⌊u⌋ + 1)) * (u - (clampIdx n ⌊u⌋ : ℝ))

theorem bilinear_eq (h w : Nat) (I : Nat → Nat → ℝ) (u v : ℝ) : bilinear h w I u v = lerp h (fun i => lerp w (pix I i) v) u := by
  unfold bilinear lerp; ring

theorem trilinear_eq (n0 n1 n2 : Nat) (I : Nat → Nat → Nat → ℝ) (u v w : ℝ) :
    trilinear n0 n1 n2 I u v w = lerp n0 (fun i => lerp n1 (fun j => lerp n2 (vox I i j) w) v) u := by
  unfold trilinear lerp; ring

theorem clampIdx_mem {n : Nat} (hn : 0 < n) (z : ℤ) : 0 ≤ clampIdx n z ∧ clampIdx n z < n := by unfold clampIdx; omega

theorem clampIdx_id {n : Nat} {z : ℤ} (h0 : 0 ≤ z) (h1 : z < n) : clampIdx n z = z := by unfold clampIdx; omega

/-- At an index the value there. -/
theorem lerp_at {n i : Nat} (hi : i < n) (f : ℤ → ℝ) : lerp n f i = f i := by
  unfold lerp
  rw [Int.floor_natCast, clampIdx_id (by omega) (by omega)]
  push_cast
  ring

/-- Constant data: the constant. -/
theorem lerp_const {n : Nat} (hn : 0 < n) {f : ℤ → ℝ} {c : ℝ} (hf : ∀ i : ℤ, 0 ≤ i → i < n → f i = c) (u : ℝ) : lerp n f u = c := by
  have h1 := clampIdx_mem hn ⌊u⌋
  have h2 := clampIdx_mem hn (clampIdx n ⌊u⌋ + 1)
  unfold lerp
  rw [hf _ h1.1 h1.2, hf _ h2.1 h2.2]
  push_cast
  ring

/-- From index zero on the value is between the data, also beyond the last index. -/
theorem lerp_range {n : Nat} (hn : 0 < n) {f : ℤ → ℝ} {lo hi : ℝ} (hf : ∀ i : ℤ, 0 ≤ i → i < n → lo ≤ f i ∧ f i ≤ hi) {u : ℝ} (hu : 0 ≤ u) :
    lo ≤ lerp n f u ∧ lerp n f u ≤ hi := by
  have h1 := clampIdx_mem hn ⌊u⌋
  have h2 := clampIdx_mem hn (clampIdx n ⌊u⌋ + 1)
  have a := hf _ h1.1 h1.2
  have b := hf _ h2.1 h2.2
  have hfl : 0 ≤ ⌊u⌋ := Int.floor_nonneg.2 hu
  unfold lerp
  by_cases h : ⌊u⌋ < n
  · have e : clampIdx n ⌊u⌋ = ⌊u⌋ := clampIdx_id hfl h
    rw [e] at a b ⊢
    have g1 := Int.floor_le u
    have g2 := Int.lt_floor_add_one u
    push_cast
    constructor <;> nlinarith
  · have e : clampIdx n (clampIdx n ⌊u⌋ + 1) = clampIdx n ⌊u⌋ := by unfold clampIdx; omega
    rw [e]
    push_cast
    have : ∀ x y : ℝ, x * (y + 1 - u) + x * (u - y) = x := fun x y => by ring
    rw [this]
    exact a

/-! ## Two and three axes -/

/-- At pixel positions the pixel values. -/
theorem bilinear_at {h w i j : Nat} (I : Nat → Nat → ℝ) (hi : i < h) (hj : j < w) : bilinear h w I i j = I i j := by
  rw [bilinear_eq, lerp_at hi, lerp_at hj]; simp [pix]

theorem bilinear_const {h w : Nat} (hh : 0 < h) (hw : 0 < w) (I : Nat → Nat → ℝ) (c : ℝ) (hI : ∀ i j, i < h → j < w → I i j = c) (u v : ℝ) :
    bilinear h w I u v = c := by
  rw [bilinear_eq]
  exact lerp_const hh (fun i h0 h1 => lerp_const hw (fun j k0 k1 => hI _ _ (by omega) (by omega)) v) u

theorem bilinear_range {h w : Nat} (hh : 0 < h) (hw : 0 < w) (I : Nat → Nat → ℝ) (lo hi : ℝ) (hI : ∀ i j, i < h → j < w → lo ≤ I i j ∧ I i j ≤ hi)
    {u v : ℝ} (hu : 0 ≤ u) (hv : 0 ≤ v) : lo ≤ bilinear h w I u v ∧ bilinear h w I u v ≤ hi := by
  rw [bilinear_eq]
  exact lerp_range hh (fun i h0 h1 => lerp_range hw (fun j k0 k1 => hI _ _ (by omega) (by omega)) hv) hu

theorem trilinear_at {n0 n1 n2 i j k : Nat} (I : Nat → Nat → Nat → ℝ) (hi : i < n0) (hj : j < n1) (hk : k < n2) : trilinear n0 n1 n2 I i j k = I i j k := by
  rw [trilinear_eq, lerp_at hi, lerp_at hj, lerp_at hk]; simp [vox]

theorem trilinear_const {n0 n1 n2 : Nat} (h0 : 0 < n0) (h1 : 0 < n1) (h2 : 0 < n2) (I : Nat → Nat → Nat → ℝ) (c : ℝ)
    (hI : ∀ i j k, i < n0 → j < n1 → k < n2 → I i j k = c) (u v w : ℝ) : trilinear n0 n1 n2 I u v w = c := by
  rw [trilinear_eq]
  exact lerp_const h0 (fun i a b => lerp_const h1 (fun j a' b' => lerp_const h2 (fun k a'' b'' => hI _ _ _ (by omega) (by omega) (by omega)) w) v) u

theorem trilinear_range {n0 n1 n2 : Nat} (h0 : 0 < n0) (h1 : 0 < n1) (h2 : 0 < n2) (I : Nat → Nat → Nat → ℝ) (lo hi : ℝ)
    (hI : ∀ i j k, i < n0 → j < n1 → k < n2 → lo ≤ I i j k ∧ I i j k ≤ hi) {u v w : ℝ} (hu : 0 ≤ u) (hv : 0 ≤ v) (hw : 0 ≤ w) :
    lo ≤ trilinear n0 n1 n2 I u v w ∧ trilinear n0 n1 n2 I u v w ≤ hi := by
  rw [trilinear_eq]
  exact lerp_range h0 (fun i a b => lerp_range h1 (fun j a' b' => lerp_range h2 (fun k a'' b'' => hI _ _ _ (by omega) (by omega) (by omega)) hw) hv) hu

/-! ## The functions -/

theorem mapM_ok {α β : Type} (f : α → Py β) (g : α → β) : ∀ (l : List α), (∀ a ∈ l, f a = .ok (g a)) → l.mapM f = .ok (l.map g)
  | [], _ => rfl
  | a :: l, h => by
    rw [List.mapM_cons, h a (by simp), mapM_ok f g l fun b hb => h b (by simp [hb])]; rfl

theorem deformedIntensities_run (h w : Nat) (I : Nat → Nat → ℝ) (x0 x1 y0 y1 : ℝ) (hx : x0 < x1) (hy : y0 < y1) (hh : 0 < h) (hw : 0 < w)
    (points : List (ℝ × ℝ)) (hn : points.length = h * w) :
    deformedIntensities h w I (extent2 x0 x1 y0 y1) points =
      .ok (points.map fun p => bilinear h w I (((h : ℝ) - 1) / (y1 - y0) * (p.2 - y0)) (((w : ℝ) - 1) / (x1 - x0) * (p.1 - x0))) := by
  have hx' : x1 - x0 ≠ 0 := by linarith
  have hy' : y1 - y0 ≠ 0 := by linarith
  have hm := mapM_ok (points2pixels h w (extent2 x0 x1 y0 y1)) _ points fun p _ => points2pixels_eq h w x0 x1 y0 y1 hx' hy' p
  unfold deformedIntensities
  rw [points2pixels_eq h w x0 x1 y0 y1 hx' hy' (0, 0), hm]
  simp only [bind, Except.bind, pure, Except.pure]
  rw [if_neg (by omega), if_neg (by omega), List.map_map]
  rfl

/-- The point of the plane at which pixel `(i, j)` sits: the corners of the frame are the corner
pixels. -/
def Spec.pixelPoint (h w : Nat) (x0 x1 y0 y1 : ℝ) (i j : Nat) : ℝ × ℝ :=
  (x0 + (j : ℝ) / ((w : ℝ) - 1) * (x1 - x0), y0 + (i : ℝ) / ((h : ℝ) - 1) * (y1 - y0))

/-- What holds of the claim, for proper frames and one point per pixel. At the position of a pixel
the result is the pixel's value; a constant image stays constant wherever the points are; and
at points right of and above the lower corner, even beyond the upper one, the result is
between the bounds of the image. Missing: points left of or below the frame, where it is false. -/
theorem C54_partial (h w : Nat) (I : Nat → Nat → ℝ) (x0 x1 y0 y1 : ℝ) (hx : x0 < x1) (hy : y0 < y1) (hh : 0 < h) (hw : 0 < w)
    (points : List (ℝ × ℝ)) (hn : points.length = h * w) :
    ∃ out, deformedIntensities h w I (extent2 x0 x1 y0 y1) points = .ok out ∧
      List.Forall₂ (fun p z =>
        (∀ i j : Nat, 2 ≤ h → 2 ≤ w → i < h → j < w → p = Spec.pixelPoint h w x0 x1 y0 y1 i j → z = I i j) ∧
        (∀ c, (∀ i j, i < h → j < w → I i j = c) → z = c) ∧
        (∀ lo hi, (∀ i j, i < h → j < w → lo ≤ I i j ∧ I i j ≤ hi) → x0 ≤ p.1 → y0 ≤ p.2 → lo ≤ z ∧ z ≤ hi)) points out := by
  refine ⟨_, deformedIntensities_run h w I x0 x1 y0 y1 hx hy hh hw points hn, ?_⟩
  rw [List.forall₂_map_right_iff, List.forall₂_same]
  intro p _
  have hx' : x1 - x0 ≠ 0 := by linarith
  have hy' : y1 - y0 ≠ 0 := by linarith
  refine ⟨?_, fun c hc => bilinear_const hh hw I c hc _ _, fun lo hi hI h1 h2 => ?_⟩
  · rintro i j hh2 hw2 hi hj rfl
    have h1 : (h : ℝ) - 1 ≠ 0 := nat_sub_one_ne hh2
    have h2 : (w : ℝ) - 1 ≠ 0 := nat_sub_one_ne hw2
    have e1 : ((h : ℝ) - 1) / (y1 - y0) * (y0 + (i : ℝ) / ((h : ℝ) - 1) * (y1 - y0) - y0) = i := by field_simp; ring
    have e2 : ((w : ℝ) - 1) / (x1 - x0) * (x0 + (j : ℝ) / ((w : ℝ) - 1) * (x1 - x0) - x0) = j := by field_simp; ring
    simp only [Spec.pixelPoint]
    rw [e1, e2]
    exact bilinear_at I hi hj
  · have g1 : (0 : ℝ) ≤ (h : ℝ) - 1 := sub_nonneg.2 (by exact_mod_cast hh)
    have g2 : (0 : ℝ) ≤ (w : ℝ) - 1 := sub_nonneg.2 (by exact_mod_cast hw)
    exact bilinear_range hh hw I lo hi hI (mul_nonneg (div_nonneg g1 (by linarith)) (by linarith)) (mul_nonneg (div_nonneg g2 (by linarith)) (by linarith))

/-- Below the frame values are extrapolated: for every image of at least two rows and every point
there, some image with values in `[0, 1]` gets a value above one. -/
theorem C54_disagreement (h w : Nat) (hh : 2 ≤ h) (hw : 0 < w) (u v : ℝ) (hu : u < 0) :
    ∃ I : Nat → Nat → ℝ, (∀ i j, 0 ≤ I i j ∧ I i j ≤ 1) ∧ 1 < bilinear h w I u v := by
  refine ⟨fun i _ => if i = 0 then 1 else 0, fun i j => by dsimp only; split_ifs <;> norm_num, ?_⟩
  rw [bilinear_eq]
  have hfl : ⌊u⌋ < 0 := Int.floor_lt.2 (by simpa using hu)
  have e1 : clampIdx h ⌊u⌋ = 0 := by unfold clampIdx; omega
  have e2 : clampIdx h (0 + 1) = 1 := by unfold clampIdx; omega
  unfold lerp
  rw [e1, e2]
  have k1 := lerp_const (f := pix (fun i _ => if i = 0 then (1 : ℝ) else 0) 0) (c := 1) hw (fun j _ _ => by simp [pix]) v
  have k2 := lerp_const (f := pix (fun i _ => if i = 0 then (1 : ℝ) else 0) 1) (c := 0) hw (fun j _ _ => by simp [pix]) v
  unfold lerp at k1 k2
  dsimp only
  rw [k1, k2]
  push_cast
  linarith

/-- The same at the level of the function: a point below the frame of a two by one image. -/
theorem C54_extrapolates_disagreement (x0 x1 y0 y1 : ℝ) (hx : x0 < x1) (hy : y0 < y1) (p q : ℝ × ℝ) (hp : p.2 < y0) :
    ∃ I : Nat → Nat → ℝ, (∀ i j, 0 ≤ I i j ∧ I i j ≤ 1) ∧ ∃ a b, deformedIntensities 2 1 I (extent2 x0 x1 y0 y1) [p, q] = .ok [a, b] ∧ 1 < a := by
  have hneg : (((2 : Nat) : ℝ) - 1) / (y1 - y0) * (p.2 - y0) < 0 := by
    have : 0 < (((2 : Nat) : ℝ) - 1) / (y1 - y0) := div_pos (by norm_num) (by linarith)
    exact mul_neg_of_pos_of_neg this (by linarith)
  obtain ⟨I, h1, h2⟩ := C54_disagreement 2 1 le_rfl one_pos _ ((((1 : Nat) : ℝ) - 1) / (x1 - x0) * (p.1 - x0)) hneg
  exact ⟨I, h1, _, _, deformedIntensities_run 2 1 I x0 x1 y0 y1 hx hy two_pos one_pos [p, q] rfl, h2⟩

/-- Volumes: the three statements for the position `applyLinear3d affine p` of a point. -/
theorem C54_volume (n0 n1 n2 : Nat) (I : Nat → Nat → Nat → ℝ) (A : Matrix (Fin 4) (Fin 4) ℝ) (h0 : 0 < n0) (h1 : 0 < n1) (h2 : 0 < n2)
    (points : List (Fin 3 → ℝ)) (hn : points.length = n0 * n1 * n2) :
    ∃ out, deformedIntensities3d n0 n1 n2 I A points = .ok out ∧
      List.Forall₂ (fun p z =>
        (∀ i j k : Nat, i < n0 → j < n1 → k < n2 → applyLinear3d A p = ![(i : ℝ), j, k] → z = I i j k) ∧
        (∀ c, (∀ i j k, i < n0 → j < n1 → k < n2 → I i j k = c) → z = c) ∧
        (∀ lo hi, (∀ i j k, i < n0 → j < n1 → k < n2 → lo ≤ I i j k ∧ I i j k ≤ hi) → (∀ c, 0 ≤ applyLinear3d A p c) → lo ≤ z ∧ z ≤ hi)) points out := by
  refine ⟨points.map fun p => trilinear n0 n1 n2 I (applyLinear3d A p 0) (applyLinear3d A p 1) (applyLinear3d A p 2), ?_, ?_⟩
  · unfold deformedIntensities3d
    rw [if_neg (by omega), if_neg (by omega)]
  · rw [List.forall₂_map_right_iff, List.forall₂_same]
    intro p _
    refine ⟨fun i j k hi hj hk e => ?_, fun c hc => trilinear_const h0 h1 h2 I c hc _ _ _, fun lo hi hI hp => ?_⟩
    · rw [e]
      exact trilinear_at I hi hj hk
    · exact trilinear_range h0 h1 h2 I lo hi hI (hp 0) (hp 1) (hp 2)

/-- A wrong number of points is rejected. -/
theorem C54_count (h w : Nat) (I : Nat → Nat → ℝ) (x0 x1 y0 y1 : ℝ) (hx : x0 < x1) (hy : y0 < y1) (hh : 0 < h) (hw : 0 < w)
    (points : List (ℝ × ℝ)) (hn : points.length ≠ h * w) : deformedIntensities h w I (extent2 x0 x1 y0 y1) points = .error .runtime := by
  have hx' : x1 - x0 ≠ 0 := by linarith
  have hy' : y1 - y0 ≠ 0 := by linarith
  have hm := mapM_ok (points2pixels h w (extent2 x0 x1 y0 y1)) _ points fun p _ => points2pixels_eq h w x0 x1 y0 y1 hx' hy' p
  unfold deformedIntensities
  rw [points2pixels_eq h w x0 x1 y0 y1 hx' hy' (0, 0), hm]
  simp only [bind, Except.bind]
  rw [if_neg (by omega), if_pos hn]

/-- A frame, an image that is not constant and two points of the frame. -/
example : ∃ out, deformedIntensities 2 1 (fun i _ => (i : ℝ)) (extent2 0 1 0 1) [(0, 0), (0.5, 1)] = .ok out ∧ out.length = 2 := by
  obtain ⟨out, h1, h2⟩ := C54_partial 2 1 (fun i _ => (i : ℝ)) 0 1 0 1 one_pos one_pos two_pos one_pos [(0, 0), (0.5, 1)] rfl
  exact ⟨out, h1, h2.length_eq.symm⟩

end
end Imodal
