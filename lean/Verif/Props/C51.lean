import Verif.Model.Coords
import Verif.Spec.Aabb
import Mathlib.Tactic.FieldSimp
import Mathlib.Tactic.Linarith
import Mathlib.Tactic.Positivity
/-!
# C51  Pixel and point coordinates convert without loss
-/
set_option autoImplicit false
namespace Imodal
variable {𝕜 : Type} [Field 𝕜] [LinearOrder 𝕜] [IsStrictOrderedRing 𝕜]

/-- The planar extent from `(x0, y0)` to `(x1, y1)`. -/
def extent2 (x0 x1 y0 y1 : 𝕜) : AABB 𝕜 := ⟨2, [x0, y0], [x1, y1]⟩

theorem nat_sub_one_ne {n : Nat} (h : 2 ≤ n) : (n : 𝕜) - 1 ≠ 0 := by
  have : (1 : 𝕜) < (n : 𝕜) := by exact_mod_cast h
  intro h0
  linarith

theorem points2pixels_eq (h w : Nat) (x0 x1 y0 y1 : 𝕜) (hx : x1 - x0 ≠ 0) (hy : y1 - y0 ≠ 0)
    (p : 𝕜 × 𝕜) : points2pixels h w (extent2 x0 x1 y0 y1) p =
      .ok (((h : 𝕜) - 1) / (y1 - y0) * (p.2 - y0), ((w : 𝕜) - 1) / (x1 - x0) * (p.1 - x0)) := by
  simp [points2pixels, AABB.side, AABB.lower, extent2, pyDiv, hx, hy, bind, Except.bind, pure, Except.pure]

theorem pixels2points_eq (h w : Nat) (hh : 2 ≤ h) (hw : 2 ≤ w) (x0 x1 y0 y1 : 𝕜)
    (q : 𝕜 × 𝕜) : pixels2points h w (extent2 x0 x1 y0 y1) q =
      .ok ((x1 - x0) / ((w : 𝕜) - 1) * q.2 + x0, (y1 - y0) / ((h : 𝕜) - 1) * q.1 + y0) := by
  have h1 : (h : 𝕜) - 1 ≠ 0 := nat_sub_one_ne hh
  have h2 : (w : 𝕜) - 1 ≠ 0 := nat_sub_one_ne hw
  simp [pixels2points, AABB.side, AABB.lower, extent2, pyDiv, h1, h2, bind, Except.bind, pure, Except.pure]

/-- The two conversions are inverse to each other. -/
theorem C51_pixels_inverse (h w : Nat) (hh : 2 ≤ h) (hw : 2 ≤ w) (x0 x1 y0 y1 : 𝕜)
    (hx : x0 ≠ x1) (hy : y0 ≠ y1) (p : 𝕜 × 𝕜) :
    (∃ q, points2pixels h w (extent2 x0 x1 y0 y1) p = .ok q ∧
      pixels2points h w (extent2 x0 x1 y0 y1) q = .ok p) ∧
    (∃ q, pixels2points h w (extent2 x0 x1 y0 y1) p = .ok q ∧
      points2pixels h w (extent2 x0 x1 y0 y1) q = .ok p) := by
  have hx' : x1 - x0 ≠ 0 := sub_ne_zero.2 hx.symm
  have hy' : y1 - y0 ≠ 0 := sub_ne_zero.2 hy.symm
  have h1 : (h : 𝕜) - 1 ≠ 0 := nat_sub_one_ne hh
  have h2 : (w : 𝕜) - 1 ≠ 0 := nat_sub_one_ne hw
  constructor
  · refine ⟨_, points2pixels_eq h w x0 x1 y0 y1 hx' hy' p, ?_⟩
    rw [pixels2points_eq h w hh hw]
    congr 1
    ext
    · show (x1 - x0) / ((w : 𝕜) - 1) * (((w : 𝕜) - 1) / (x1 - x0) * (p.1 - x0)) + x0 = p.1
      rw [← mul_assoc, div_mul_div_cancel₀ h2, div_self hx']; ring
    · show (y1 - y0) / ((h : 𝕜) - 1) * (((h : 𝕜) - 1) / (y1 - y0) * (p.2 - y0)) + y0 = p.2
      rw [← mul_assoc, div_mul_div_cancel₀ h1, div_self hy']; ring
  · refine ⟨_, pixels2points_eq h w hh hw x0 x1 y0 y1 p, ?_⟩
    rw [points2pixels_eq h w x0 x1 y0 y1 hx' hy']
    congr 1
    ext
    · show ((h : 𝕜) - 1) / (y1 - y0) * ((y1 - y0) / ((h : 𝕜) - 1) * p.1 + y0 - y0) = p.1
      rw [add_sub_cancel_right, ← mul_assoc, div_mul_div_cancel₀ hy', div_self h1]; ring
    · show ((w : 𝕜) - 1) / (x1 - x0) * ((x1 - x0) / ((w : 𝕜) - 1) * p.2 + x0 - x0) = p.2
      rw [add_sub_cancel_right, ← mul_assoc, div_mul_div_cancel₀ hx', div_self h2]; ring

/-- The four corners of the frame are sent to the corners of the extent. -/
theorem C51_corners (h w : Nat) (hh : 2 ≤ h) (hw : 2 ≤ w) (x0 x1 y0 y1 : 𝕜) :
    pixels2points h w (extent2 x0 x1 y0 y1) (0, 0) = .ok (x0, y0) ∧
    pixels2points h w (extent2 x0 x1 y0 y1) ((h : 𝕜) - 1, 0) = .ok (x0, y1) ∧
    pixels2points h w (extent2 x0 x1 y0 y1) (0, (w : 𝕜) - 1) = .ok (x1, y0) ∧
    pixels2points h w (extent2 x0 x1 y0 y1) ((h : 𝕜) - 1, (w : 𝕜) - 1) = .ok (x1, y1) := by
  have h1 : (h : 𝕜) - 1 ≠ 0 := nat_sub_one_ne hh
  have h2 : (w : 𝕜) - 1 ≠ 0 := nat_sub_one_ne hw
  refine ⟨?_, ?_, ?_, ?_⟩ <;> rw [pixels2points_eq h w hh hw] <;> simp [h1, h2]

/-- Points of the extent get indices inside the frame. -/
theorem C51_indices_in_frame [FloorRing 𝕜] (h w : Nat) (x0 x1 y0 y1 : 𝕜)
    (hx : x0 < x1) (hy : y0 < y1) (hh : 1 ≤ h) (hw : 1 ≤ w) (p : 𝕜 × 𝕜) (h1 : x0 ≤ p.1) (h2 : p.1 ≤ x1)
    (h3 : y0 ≤ p.2) (h4 : p.2 ≤ y1) :
    ∃ r c : Int, points2pixelsIdx h w (extent2 x0 x1 y0 y1) p = .ok (r, c) ∧
      0 ≤ r ∧ r < h ∧ 0 ≤ c ∧ c < w := by
  have hx' : 0 < x1 - x0 := sub_pos.2 hx
  have hy' : 0 < y1 - y0 := sub_pos.2 hy
  have key : ∀ (n : Nat) (d t : 𝕜), 1 ≤ n → 0 < d → 0 ≤ t → t ≤ d →
      0 ≤ ⌊((n : 𝕜) - 1) / d * t⌋ ∧ ⌊((n : 𝕜) - 1) / d * t⌋ < n := by
    intro n d t hn hd ht htd
    have hn' : (0 : 𝕜) ≤ (n : 𝕜) - 1 := by
      have : (1 : 𝕜) ≤ n := by exact_mod_cast hn
      linarith
    constructor
    · exact Int.floor_nonneg.2 (mul_nonneg (div_nonneg hn' hd.le) ht)
    · rw [Int.floor_lt]
      have : ((n : 𝕜) - 1) / d * t ≤ (n : 𝕜) - 1 := by
        rw [div_mul_eq_mul_div, div_le_iff₀ hd]
        exact mul_le_mul_of_nonneg_left htd hn'
      push_cast
      linarith
  have k1 := key h (y1 - y0) (p.2 - y0) hh hy' (by linarith) (by linarith)
  have k2 := key w (x1 - x0) (p.1 - x0) hw hx' (by linarith) (by linarith)
  refine ⟨_, _, ?_, k1.1, k1.2, k2.1, k2.2⟩
  simp [points2pixelsIdx, points2pixels_eq h w x0 x1 y0 y1 hx'.ne' hy'.ne', bind, Except.bind, pure,
    Except.pure]

theorem nelScales_ok : ∀ (shape : List Nat) (ss : List 𝕜), shape.length = ss.length →
    (∀ s ∈ ss, s ≠ 0) →
    nelScales shape ss = .ok (List.zipWith (fun (n : Nat) (s : 𝕜) => ((n : 𝕜) - 1) / s) shape ss)
  | [], [], _, _ => rfl
  | n :: ns, s :: ss, h, hs => by
    simp [nelScales, pyDiv, hs s (by simp),
      nelScales_ok ns ss (by simpa using h) (fun x hx => hs x (by simp [hx])), bind, Except.bind, pure,
      Except.pure]

theorem nelScalesInv_ok : ∀ (shape : List Nat) (ss : List 𝕜), shape.length = ss.length →
    (∀ n ∈ shape, 2 ≤ n) →
    nelScalesInv shape ss = .ok (List.zipWith (fun (n : Nat) (s : 𝕜) => s / ((n : 𝕜) - 1)) shape ss)
  | [], [], _, _ => rfl
  | n :: ns, s :: ss, h, hs => by
    have : (n : 𝕜) - 1 ≠ 0 := nat_sub_one_ne (hs n (by simp))
    simp [nelScalesInv, pyDiv, this,
      nelScalesInv_ok ns ss (by simpa using h) (fun x hx => hs x (by simp [hx])), bind, Except.bind, pure,
      Except.pure]

/-- The conversions to and from element coordinates are inverse in any dimension. -/
theorem C51_nel_inverse (shape : List Nat) (e : AABB 𝕜) (he : e.WF) (hl : shape.length = e.dim)
    (hsh : ∀ n ∈ shape, 2 ≤ n) (hside : ∀ s ∈ e.shape, s ≠ 0) (p : List 𝕜) (hp : p.length = e.dim) :
    (∃ q, points2nel shape e p = .ok q ∧ nel2points shape e q = .ok p) ∧
    (∃ q, nel2points shape e p = .ok q ∧ points2nel shape e q = .ok p) := by
  have hs : e.shape.length = e.dim := by simp [AABB.shape, he.lmin, he.lmax]
  have hm := he.lmin
  have e1 := nelScales_ok shape e.shape (by omega) hside
  have e2 := nelScalesInv_ok shape e.shape (by omega) hsh
  constructor
  · refine ⟨_, by simp only [points2nel, e1]; rfl, ?_⟩
    simp only [nel2points, e2, bind, Except.bind, pure, Except.pure]
    congr 1
    apply List.ext_getElem
    · simp [hl, hs, hp, hm]
    · intro i h1 h2
      have hi : i < e.dim := by omega
      have a1 : (shape[i]'(by omega) : 𝕜) - 1 ≠ 0 := nat_sub_one_ne (hsh _ (List.getElem_mem _))
      have a2 : e.shape[i]'(by omega) ≠ 0 := hside _ (List.getElem_mem _)
      simp only [List.getElem_zipWith]
      rw [← mul_assoc, div_mul_div_cancel₀ a1, div_self a2]; ring
  · refine ⟨_, by simp only [nel2points, e2]; rfl, ?_⟩
    simp only [points2nel, e1, bind, Except.bind, pure, Except.pure]
    congr 1
    apply List.ext_getElem
    · simp [hl, hs, hp, hm]
    · intro i h1 h2
      have hi : i < e.dim := by omega
      have a1 : (shape[i]'(by omega) : 𝕜) - 1 ≠ 0 := nat_sub_one_ne (hsh _ (List.getElem_mem _))
      have a2 : e.shape[i]'(by omega) ≠ 0 := hside _ (List.getElem_mem _)
      simp only [List.getElem_zipWith]
      rw [add_sub_cancel_right, ← mul_assoc, div_mul_div_cancel₀ a2, div_self a1]; ring

/-- A degenerate extent or a frame of one pixel is rejected, not silently converted. -/
theorem C51_degenerate_raises (h w : Nat) (x0 x1 y0 y1 : 𝕜) (p : 𝕜 × 𝕜) :
    (x0 = x1 → points2pixels h w (extent2 x0 x1 y0 y1) p = .error .zeroDivision) ∧
    (pixels2points h 1 (extent2 x0 x1 y0 y1) p = .error .zeroDivision) := by
  constructor
  · rintro rfl
    simp [points2pixels, AABB.side, extent2, pyDiv, bind, Except.bind]
  · simp [pixels2points, AABB.side, extent2, pyDiv, bind, Except.bind]

example : (2 ≤ 3) ∧ (0 : ℚ) ≠ 1 ∧ ∀ n ∈ [2, 5], 2 ≤ n := by simp

end Imodal
