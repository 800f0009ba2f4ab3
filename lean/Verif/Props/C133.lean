import Verif.Props.C76
import Mathlib.Topology.Algebra.Order.LiminfLimsup
import Mathlib.Topology.Order.Lattice
import Mathlib.Topology.Algebra.Monoid
import Mathlib.Topology.Instances.Real.Lemmas
/-!
# C133: what an image shows depends continuously on where it is read

Moving the points at which an image is read changes the values continuously, over the edges of
pixels and of the frame too. If neighbouring pixels differ by at most `M`, moving a point by `a` columns
and `b` rows changes the value by at most `M (a + b)`, for points not left of or below the frame.
-/
set_option autoImplicit false
namespace Imodal

/-- How much of the last step is taken at `u`. -/
noncomputable def stepShare (n : Nat) (u : ℝ) : ℝ := if n = 1 then min u 1 else max 0 (min (u - ((n : ℝ) - 1)) 1)

theorem stepShare_mono (n : Nat) : Monotone (stepShare n) := by
  intro a b hab
  unfold stepShare
  split
  · exact min_le_min_right _ hab
  · exact max_le_max_left _ (min_le_min_right _ (by linarith))

theorem stepShare_cont (n : Nat) : Continuous (stepShare n) := by
  unfold stepShare
  split
  · exact continuous_id.min continuous_const
  · exact continuous_const.max ((continuous_id.sub continuous_const).min continuous_const)

theorem lerp_one (f : ℤ → ℝ) (u : ℝ) : lerp 1 f u = f 0 := by
  have h : ∀ z, clampIdx 1 z = 0 := fun z => by unfold clampIdx; omega
  unfold lerp
  rw [h, h]
  push_cast
  ring

theorem lerp_succ {n : Nat} (hn : 1 ≤ n) (f : ℤ → ℝ) (u : ℝ) : lerp (n + 1) f u = lerp n f u + (f n - f (n - 1)) * stepShare n u := by
  have g1 := Int.floor_le u
  have g2 := Int.lt_floor_add_one u
  have hnr : (1 : ℝ) ≤ n := by exact_mod_cast hn
  rcases lt_or_ge ⌊u⌋ ((n : ℤ) - 1) with h | h
  · -- before the last step
    have hu : u < (n : ℝ) - 1 := by
      have : ((⌊u⌋ + 1 : ℤ) : ℝ) ≤ (((n : ℤ) - 1 : ℤ) : ℝ) := by exact_mod_cast h
      push_cast at this
      linarith
    by_cases h1 : n = 1
    · subst h1
      have c1 : clampIdx (1 + 1) ⌊u⌋ = 0 := by unfold clampIdx; omega
      have c2 : clampIdx (1 + 1) (0 + 1) = 1 := by unfold clampIdx; omega
      rw [lerp_one]
      unfold lerp stepShare
      rw [c1, c2, if_pos rfl, min_eq_left (by push_cast at hu; linarith)]
      norm_num
      ring
    · have c1 : clampIdx (n + 1) ⌊u⌋ = clampIdx n ⌊u⌋ := by unfold clampIdx; omega
      have c2 : clampIdx (n + 1) (clampIdx n ⌊u⌋ + 1) = clampIdx n (clampIdx n ⌊u⌋ + 1) := by unfold clampIdx; omega
      have hz : stepShare n u = 0 := by
        unfold stepShare
        rw [if_neg h1, max_eq_left (le_trans (min_le_left _ _) (by linarith))]
      unfold lerp
      rw [c1, c2, hz, mul_zero, add_zero]
  · have hu : (n : ℝ) - 1 ≤ u := by
      have : (((n : ℤ) - 1 : ℤ) : ℝ) ≤ (⌊u⌋ : ℝ) := by exact_mod_cast h
      push_cast at this
      linarith
    have l0 : lerp n f u = f (n - 1) := by
      have c1 : clampIdx n ⌊u⌋ = n - 1 := by unfold clampIdx; omega
      have c2 : clampIdx n ((n : ℤ) - 1 + 1) = n - 1 := by unfold clampIdx; omega
      unfold lerp
      rw [c1, c2]
      push_cast
      ring
    rw [l0]
    rcases lt_or_ge ⌊u⌋ (n : ℤ) with h' | h'
    · have hu' : u < n := by
        have : ((⌊u⌋ + 1 : ℤ) : ℝ) ≤ ((n : ℤ) : ℝ) := by exact_mod_cast h'
        push_cast at this
        linarith
      have hsh : stepShare n u = u - ((n : ℝ) - 1) := by
        unfold stepShare
        split
        · rename_i e
          subst e
          rw [min_eq_left (by push_cast at hu'; linarith)]
          push_cast
          ring
        · rw [min_eq_left (by linarith), max_eq_right (by linarith)]
      have c1 : clampIdx (n + 1) ⌊u⌋ = n - 1 := by unfold clampIdx; omega
      have c2 : clampIdx (n + 1) ((n : ℤ) - 1 + 1) = n := by unfold clampIdx; omega
      unfold lerp
      rw [c1, c2, hsh]
      push_cast
      ring
    · have hu' : (n : ℝ) ≤ u := by
        have : ((n : ℤ) : ℝ) ≤ (⌊u⌋ : ℝ) := by exact_mod_cast h'
        push_cast at this
        linarith
      have hsh : stepShare n u = 1 := by
        unfold stepShare
        split
        · rw [min_eq_right (by linarith)]
        · rw [min_eq_right (by linarith), max_eq_right zero_le_one]
      have c1 : clampIdx (n + 1) ⌊u⌋ = n := by unfold clampIdx; omega
      have c2 : clampIdx (n + 1) ((n : ℤ) + 1) = n := by unfold clampIdx; omega
      unfold lerp
      rw [c1, c2, hsh]
      push_cast
      ring

theorem lerp_cont {X : Type} [TopologicalSpace X] {n : Nat} (hn : 1 ≤ n) {F : X → ℤ → ℝ} {U : X → ℝ} (hF : ∀ i, Continuous fun x => F x i) (hU : Continuous U) :
    Continuous fun x => lerp n (F x) (U x) := by
  induction n, hn using Nat.le_induction with
  | base => simpa only [lerp_one] using hF 0
  | succ n hn ih =>
    simp only [lerp_succ hn]
    exact ih.add (((hF _).sub (hF _)).mul ((stepShare_cont n).comp hU))

/-- Interpolating the whole numbers gives the place itself, up to the last one. -/
theorem lerp_self {n : Nat} (hn : 2 ≤ n) (u : ℝ) : lerp n (fun i => (i : ℝ)) u = min u ((n : ℝ) - 1) := by
  induction n, hn using Nat.le_induction with
  | base =>
    rw [lerp_succ le_rfl, lerp_one]
    unfold stepShare
    norm_num
  | succ n hn ih =>
    rw [lerp_succ (by omega), ih]
    unfold stepShare
    rw [if_neg (by omega)]
    push_cast
    rcases le_total u ((n : ℝ) - 1) with h | h
    · rw [min_eq_left h, min_eq_left (a := u) (by linarith), max_eq_left (le_trans (min_le_left _ _) (by linarith))]
      ring
    · rcases le_total u n with h' | h'
      · rw [min_eq_right h, min_eq_left (a := u) (by linarith), min_eq_left (by linarith), max_eq_right (by linarith)]
        ring
      · rw [min_eq_right h, min_eq_right (a := u) (by linarith), min_eq_right (by linarith), max_eq_right zero_le_one]
        ring

theorem lerp_step_bound {n : Nat} (hn : 1 ≤ n) {f : ℤ → ℝ} {M : ℝ} (hM : ∀ i : ℤ, 0 ≤ i → i + 1 < n → |f (i + 1) - f i| ≤ M) {u v : ℝ} (huv : u ≤ v) :
    |lerp n f v - lerp n f u| ≤ M * (lerp n (fun i => (i : ℝ)) v - lerp n (fun i => (i : ℝ)) u) := by
  induction n, hn using Nat.le_induction with
  | base => simp [lerp_one]
  | succ n hn ih =>
    have ih' := ih fun i h0 h1 => hM i h0 (by push_cast; omega)
    have hlast := hM ((n : ℤ) - 1) (by omega) (by push_cast; omega)
    rw [sub_add_cancel] at hlast
    have hs : 0 ≤ stepShare n v - stepShare n u := sub_nonneg.2 (stepShare_mono n huv)
    simp only [lerp_succ hn]
    have e1 : lerp n f v + (f n - f (n - 1)) * stepShare n v - (lerp n f u + (f n - f (n - 1)) * stepShare n u) =
        (lerp n f v - lerp n f u) + (f n - f (n - 1)) * (stepShare n v - stepShare n u) := by ring
    rw [e1]
    refine (abs_add_le _ _).trans ?_
    rw [abs_mul, abs_of_nonneg hs]
    have := mul_le_mul_of_nonneg_right hlast hs
    push_cast
    linarith

/-- Along one axis values change by at most the largest step of the data, times the way. -/
theorem lerp_lipschitz {n : Nat} (hn : 1 ≤ n) {f : ℤ → ℝ} {M : ℝ} (h0 : 0 ≤ M) (hM : ∀ i : ℤ, 0 ≤ i → i + 1 < n → |f (i + 1) - f i| ≤ M) (u v : ℝ) :
    |lerp n f v - lerp n f u| ≤ M * |v - u| := by
  have key : ∀ u v : ℝ, u ≤ v → |lerp n f v - lerp n f u| ≤ M * (v - u) := by
    intro u v huv
    rcases Nat.lt_or_ge n 2 with h | h
    · have : n = 1 := by omega
      subst this
      simp only [lerp_one, sub_self, abs_zero]
      exact mul_nonneg h0 (sub_nonneg.2 huv)
    · refine (lerp_step_bound hn hM huv).trans (mul_le_mul_of_nonneg_left ?_ h0)
      rw [lerp_self h, lerp_self h]
      rcases le_total v ((n : ℝ) - 1) with h1 | h1
      · rw [min_eq_left h1, min_eq_left (huv.trans h1)]
      · rw [min_eq_right h1]
        rcases le_total u ((n : ℝ) - 1) with h2 | h2
        · rw [min_eq_left h2]; linarith
        · rw [min_eq_right h2]; linarith
  rcases le_total u v with h | h
  · rw [abs_of_nonneg (sub_nonneg.2 h)]
    exact key u v h
  · rw [abs_sub_comm, abs_sub_comm v u, abs_of_nonneg (sub_nonneg.2 h)]
    exact key v u h

theorem lerp_sub (n : Nat) (f g : ℤ → ℝ) (u : ℝ) : lerp n f u - lerp n g u = lerp n (fun i => f i - g i) u := by
  unfold lerp
  ring

theorem lerp_abs {n : Nat} (hn : 0 < n) {f : ℤ → ℝ} {M : ℝ} (hf : ∀ i : ℤ, 0 ≤ i → i < n → |f i| ≤ M) {u : ℝ} (hu : 0 ≤ u) : |lerp n f u| ≤ M :=
  abs_le.2 (lerp_range hn (fun i h0 h1 => abs_le.1 (hf i h0 h1)) hu)

theorem bilinear_cont {X : Type} [TopologicalSpace X] {h w : Nat} (hh : 1 ≤ h) (hw : 1 ≤ w) (I : Nat → Nat → ℝ) {U V : X → ℝ} (hU : Continuous U) (hV : Continuous V) :
    Continuous fun x => bilinear h w I (U x) (V x) := by
  simp only [bilinear_eq]
  exact lerp_cont hh (fun i => lerp_cont hw (fun _ => continuous_const) hV) hU

namespace Spec

/-- Pixels next to each other in a row or a column differ by at most `M`. -/
def StepsAtMost (h w : Nat) (I : Nat → Nat → ℝ) (M : ℝ) : Prop :=
  (∀ i j, i < h → j + 1 < w → |I i (j + 1) - I i j| ≤ M) ∧ ∀ i j, i + 1 < h → j < w → |I (i + 1) j - I i j| ≤ M

end Spec

theorem bilinear_lipschitz {h w : Nat} (hh : 1 ≤ h) (hw : 1 ≤ w) {I : Nat → Nat → ℝ} {M : ℝ} (h0 : 0 ≤ M) (hM : Spec.StepsAtMost h w I M) {u v u' v' : ℝ}
    (hu : 0 ≤ u) (hv : 0 ≤ v') : |bilinear h w I u v - bilinear h w I u' v'| ≤ M * (|u - u'| + |v - v'|) := by
  have e : bilinear h w I u v - bilinear h w I u' v' = (bilinear h w I u v - bilinear h w I u v') + (bilinear h w I u v' - bilinear h w I u' v') := by ring
  rw [e, mul_add, add_comm (M * |u - u'|)]
  refine (abs_add_le _ _).trans (add_le_add ?_ ?_)
  · rw [bilinear_eq, bilinear_eq, lerp_sub]
    refine lerp_abs hh (fun i i0 i1 => ?_) hu
    refine lerp_lipschitz hw h0 (fun j j0 j1 => ?_) _ _
    have := hM.1 i.toNat j.toNat (by omega) (by omega)
    unfold pix
    rwa [show (j + 1).toNat = j.toNat + 1 by omega]
  · rw [bilinear_eq, bilinear_eq]
    refine lerp_lipschitz hh h0 (fun i i0 i1 => ?_) _ _
    rw [lerp_sub]
    refine lerp_abs hw (fun j j0 j1 => ?_) hv
    have := hM.2 i.toNat j.toNat (by omega) (by omega)
    unfold pix
    rwa [show (i + 1).toNat = i.toNat + 1 by omega]

/-! ## Images -/

/-- **C133.** Read at one point per pixel, an image gives one value per point, and every value is a continuous function
of the points, wherever they are. -/
theorem C133_continuous (h w : Nat) (hh : 2 ≤ h) (hw : 2 ≤ w) (I : Nat → Nat → ℝ) (ext : ExtentArg) (x0 x1 y0 y1 : ℝ) (hf : Spec.Frame h w ext x0 x1 y0 y1) :
    ∃ D, DefImage.mk' h w I ext = .ok D ∧ ∃ values : (Fin (h * w) → ℝ × ℝ) → Fin (h * w) → ℝ,
      Continuous values ∧ ∀ q, D.deformedGeometry (List.ofFn q) .bitmap = .ok (.bitmap (List.ofFn (values q))) := by
  obtain ⟨D, hD, e1, e2, e3, e4, e5⟩ := mkImage_ok h w hh hw I ext x0 x1 y0 y1 hf
  obtain ⟨hx, hy⟩ := frame_lt hh hw hf
  refine ⟨D, hD, fun q k => bilinear h w I (((h : ℝ) - 1) / (y1 - y0) * ((q k).2 - y0)) (((w : ℝ) - 1) / (x1 - x0) * ((q k).1 - x0)), ?_, ?_⟩
  · refine continuous_pi fun k => bilinear_cont (by omega) (by omega) I ?_ ?_
    · exact continuous_const.mul ((continuous_snd.comp (continuous_apply k)).sub continuous_const)
    · exact continuous_const.mul ((continuous_fst.comp (continuous_apply k)).sub continuous_const)
  · intro q
    simp only [DefImage.deformedGeometry, e1, e2, e3, e4]
    rw [deformedIntensities_run h w I _ _ _ _ hx hy (by omega) (by omega) _ (by simp), List.map_ofFn]
    rfl

/-- **C133.** If neighbouring pixels differ by at most `M`, the value at a point changes by at most `M` per column and
row it is moved, between points that are not left of or below the frame. -/
theorem C133_bound_partial (h w : Nat) (hh : 2 ≤ h) (hw : 2 ≤ w) (I : Nat → Nat → ℝ) (ext : ExtentArg) (x0 x1 y0 y1 : ℝ) (hf : Spec.Frame h w ext x0 x1 y0 y1)
    (M : ℝ) (hM : Spec.StepsAtMost h w I M) :
    ∃ D, DefImage.mk' h w I ext = .ok D ∧ ∀ q q' : Fin (h * w) → ℝ × ℝ,
      (∀ k, x0 ≤ (q k).1 ∧ y0 ≤ (q k).2) → (∀ k, x0 ≤ (q' k).1 ∧ y0 ≤ (q' k).2) →
      ∃ values values' : Fin (h * w) → ℝ, D.deformedGeometry (List.ofFn q) .bitmap = .ok (.bitmap (List.ofFn values)) ∧
        D.deformedGeometry (List.ofFn q') .bitmap = .ok (.bitmap (List.ofFn values')) ∧
        ∀ k, |values k - values' k| ≤ M * (((h : ℝ) - 1) * |(q k).2 - (q' k).2| / (y1 - y0) + ((w : ℝ) - 1) * |(q k).1 - (q' k).1| / (x1 - x0)) := by
  obtain ⟨D, hD, e1, e2, e3, e4, e5⟩ := mkImage_ok h w hh hw I ext x0 x1 y0 y1 hf
  obtain ⟨hx, hy⟩ := frame_lt hh hw hf
  have ph : (0 : ℝ) < (h : ℝ) - 1 := sub_pos.2 (by exact_mod_cast hh)
  have pw : (0 : ℝ) < (w : ℝ) - 1 := sub_pos.2 (by exact_mod_cast hw)
  have dx : 0 < x1 - x0 := by linarith
  have dy : 0 < y1 - y0 := by linarith
  have h0 : 0 ≤ M := (abs_nonneg _).trans (hM.1 0 0 (by omega) (by omega))
  have run : ∀ q : Fin (h * w) → ℝ × ℝ, D.deformedGeometry (List.ofFn q) .bitmap =
      .ok (.bitmap (List.ofFn fun k => bilinear h w I (((h : ℝ) - 1) / (y1 - y0) * ((q k).2 - y0)) (((w : ℝ) - 1) / (x1 - x0) * ((q k).1 - x0)))) := by
    intro q
    simp only [DefImage.deformedGeometry, e1, e2, e3, e4]
    rw [deformedIntensities_run h w I _ _ _ _ hx hy (by omega) (by omega) _ (by simp), List.map_ofFn]
    rfl
  refine ⟨D, hD, fun q q' hq hq' => ⟨_, _, run q, run q', fun k => ?_⟩⟩
  refine (bilinear_lipschitz (by omega) (by omega) h0 hM (mul_nonneg (div_pos ph dy).le (by linarith [(hq k).2]))
    (mul_nonneg (div_pos pw dx).le (by linarith [(hq' k).1]))).trans (le_of_eq ?_)
  congr 2
  · rw [← mul_sub, abs_mul, abs_of_pos (div_pos ph dy), show (q k).2 - y0 - ((q' k).2 - y0) = (q k).2 - (q' k).2 by ring]
    ring
  · rw [← mul_sub, abs_mul, abs_of_pos (div_pos pw dx), show (q k).1 - x0 - ((q' k).1 - x0) = (q k).1 - (q' k).1 by ring]
    ring

/-- **C133, where the bound ends.** Left of and below the frame: pixels that differ by at most one, and values that
change by more than any bound over one column. -/
theorem C133_outside_disagreement (B : ℝ) : ∃ u v v' : ℝ, |v - v'| = 1 ∧
    Spec.StepsAtMost 2 2 (fun i j => if i = 0 ∧ j = 1 then 1 else 0) 1 ∧
    B < |bilinear 2 2 (fun i j => if i = 0 ∧ j = 1 then 1 else 0) u v - bilinear 2 2 (fun i j => if i = 0 ∧ j = 1 then 1 else 0) u v'| := by
  refine ⟨-|B|, 1, 0, by norm_num, ⟨fun i j hi hj => ?_, fun i j hi hj => ?_⟩, ?_⟩
  · dsimp only
    split_ifs <;> norm_num
  · dsimp only
    split_ifs <;> norm_num
  · have hb : ∀ v : ℝ, bilinear 2 2 (fun i j => if i = 0 ∧ j = 1 then 1 else 0) (-|B|) v = (1 + |B|) * min v 1 := by
      intro v
      have hm : min (-|B|) (1 : ℝ) = -|B| := min_eq_left (by linarith [abs_nonneg B])
      have l2 : ∀ (f : ℤ → ℝ) (u : ℝ), lerp 2 f u = f 0 + (f 1 - f 0) * min u 1 := by
        intro f u
        rw [lerp_succ le_rfl, lerp_one]
        simp [stepShare]
      simp only [bilinear_eq, l2, pix, hm]
      norm_num
      ring
    rw [hb, hb]
    norm_num
    rw [abs_of_pos (by linarith [abs_nonneg B])]
    linarith [le_abs_self B]

/-! ## Volumes -/

namespace Spec

/-- Voxels next to each other along one of the three axes differ by at most `M`. -/
def VoxelStepsAtMost (n0 n1 n2 : Nat) (I : Nat → Nat → Nat → ℝ) (M : ℝ) : Prop :=
  (∀ i j k, i + 1 < n0 → j < n1 → k < n2 → |I (i + 1) j k - I i j k| ≤ M) ∧
  (∀ i j k, i < n0 → j + 1 < n1 → k < n2 → |I i (j + 1) k - I i j k| ≤ M) ∧
  ∀ i j k, i < n0 → j < n1 → k + 1 < n2 → |I i j (k + 1) - I i j k| ≤ M

/-- Coordinate `c` of where the affine map `A` takes a point. -/
def affineCoord (A : Matrix (Fin 4) (Fin 4) ℝ) (p : Fin 3 → ℝ) (c : Fin 3) : ℝ :=
  A c.castSucc 0 * p 0 + A c.castSucc 1 * p 1 + A c.castSucc 2 * p 2 + A c.castSucc 3

end Spec

theorem applyLinear3d_coord (A : Matrix (Fin 4) (Fin 4) ℝ) (p : Fin 3 → ℝ) (c : Fin 3) : applyLinear3d A p c = Spec.affineCoord A p c := by
  fin_cases c <;> simp [applyLinear3d, Spec.affineCoord, Matrix.mulVec, dotProduct, Fin.sum_univ_succ] <;> ring

theorem volume_run (n0 n1 n2 : Nat) (I : Nat → Nat → Nat → ℝ) (A : Matrix (Fin 4) (Fin 4) ℝ) (h0 : 0 < n0) (h1 : 0 < n1) (h2 : 0 < n2)
    (q : Fin (n0 * n1 * n2) → Fin 3 → ℝ) : deformedIntensities3d n0 n1 n2 I A (List.ofFn q) =
      .ok (List.ofFn fun k => trilinear n0 n1 n2 I (Spec.affineCoord A (q k) 0) (Spec.affineCoord A (q k) 1) (Spec.affineCoord A (q k) 2)) := by
  unfold deformedIntensities3d
  rw [if_neg (by omega), if_neg (by simp), List.map_ofFn]
  simp only [applyLinear3d_coord]
  rfl

theorem trilinear_lipschitz {n0 n1 n2 : Nat} (h0 : 1 ≤ n0) (h1 : 1 ≤ n1) (h2 : 1 ≤ n2) {I : Nat → Nat → Nat → ℝ} {M : ℝ} (hp : 0 ≤ M)
    (hM : Spec.VoxelStepsAtMost n0 n1 n2 I M) {u v w u' v' w' : ℝ} (hu : 0 ≤ u) (hv : 0 ≤ v) (hv' : 0 ≤ v') (hw' : 0 ≤ w') :
    |trilinear n0 n1 n2 I u v w - trilinear n0 n1 n2 I u' v' w'| ≤ M * (|u - u'| + |v - v'| + |w - w'|) := by
  have a1 : |trilinear n0 n1 n2 I u v w - trilinear n0 n1 n2 I u v w'| ≤ M * |w - w'| := by
    rw [trilinear_eq, trilinear_eq, lerp_sub]
    refine lerp_abs h0 (fun i i0 i1 => ?_) hu
    rw [lerp_sub]
    refine lerp_abs h1 (fun j j0 j1 => ?_) hv
    refine lerp_lipschitz h2 hp (fun k k0 k1 => ?_) _ _
    have := hM.2.2 i.toNat j.toNat k.toNat (by omega) (by omega) (by omega)
    unfold vox
    rwa [show (k + 1).toNat = k.toNat + 1 by omega]
  have a2 : |trilinear n0 n1 n2 I u v w' - trilinear n0 n1 n2 I u v' w'| ≤ M * |v - v'| := by
    rw [trilinear_eq, trilinear_eq, lerp_sub]
    refine lerp_abs h0 (fun i i0 i1 => ?_) hu
    refine lerp_lipschitz h1 hp (fun j j0 j1 => ?_) _ _
    rw [lerp_sub]
    refine lerp_abs h2 (fun k k0 k1 => ?_) hw'
    have := hM.2.1 i.toNat j.toNat k.toNat (by omega) (by omega) (by omega)
    unfold vox
    rwa [show (j + 1).toNat = j.toNat + 1 by omega]
  have a3 : |trilinear n0 n1 n2 I u v' w' - trilinear n0 n1 n2 I u' v' w'| ≤ M * |u - u'| := by
    rw [trilinear_eq, trilinear_eq]
    refine lerp_lipschitz h0 hp (fun i i0 i1 => ?_) _ _
    rw [lerp_sub]
    refine lerp_abs h1 (fun j j0 j1 => ?_) hv'
    rw [lerp_sub]
    refine lerp_abs h2 (fun k k0 k1 => ?_) hw'
    have := hM.1 i.toNat j.toNat k.toNat (by omega) (by omega) (by omega)
    unfold vox
    rwa [show (i + 1).toNat = i.toNat + 1 by omega]
  have t1 := abs_sub_le (trilinear n0 n1 n2 I u v w) (trilinear n0 n1 n2 I u v w') (trilinear n0 n1 n2 I u' v' w')
  have t2 := abs_sub_le (trilinear n0 n1 n2 I u v w') (trilinear n0 n1 n2 I u v' w') (trilinear n0 n1 n2 I u' v' w')
  linarith

/-- **C133, volumes.** Read at one point per voxel, through any affine map, a volume gives values that are continuous
functions of the points. -/
theorem C133_volume_continuous (n0 n1 n2 : Nat) (h0 : 0 < n0) (h1 : 0 < n1) (h2 : 0 < n2) (I : Nat → Nat → Nat → ℝ) (A : Matrix (Fin 4) (Fin 4) ℝ) :
    ∃ values : (Fin (n0 * n1 * n2) → Fin 3 → ℝ) → Fin (n0 * n1 * n2) → ℝ,
      Continuous values ∧ ∀ q, deformedIntensities3d n0 n1 n2 I A (List.ofFn q) = .ok (List.ofFn (values q)) := by
  refine ⟨_, ?_, fun q => volume_run n0 n1 n2 I A h0 h1 h2 q⟩
  refine continuous_pi fun k => ?_
  have hc : ∀ c, Continuous fun q : Fin (n0 * n1 * n2) → Fin 3 → ℝ => Spec.affineCoord A (q k) c := by
    intro c
    have hq : ∀ d : Fin 3, Continuous fun q : Fin (n0 * n1 * n2) → Fin 3 → ℝ => q k d := fun d => (continuous_apply d).comp (continuous_apply k)
    unfold Spec.affineCoord
    exact (((continuous_const.mul (hq 0)).add (continuous_const.mul (hq 1))).add (continuous_const.mul (hq 2))).add continuous_const
  simp only [trilinear_eq]
  exact lerp_cont h0 (fun i => lerp_cont h1 (fun j => lerp_cont h2 (fun _ => continuous_const) (hc 2)) (hc 1)) (hc 0)

/-- **C133, volumes.** If neighbouring voxels differ by at most `M`, moving a point changes its value by at most `M` for
each voxel it is moved along the three axes, between points whose voxel coordinates are not negative. -/
theorem C133_volume_bound_partial (n0 n1 n2 : Nat) (h0 : 0 < n0) (h1 : 0 < n1) (h2 : 0 < n2) (I : Nat → Nat → Nat → ℝ) (A : Matrix (Fin 4) (Fin 4) ℝ)
    (M : ℝ) (hp : 0 ≤ M) (hM : Spec.VoxelStepsAtMost n0 n1 n2 I M) (q q' : Fin (n0 * n1 * n2) → Fin 3 → ℝ)
    (hq : ∀ k c, 0 ≤ Spec.affineCoord A (q k) c) (hq' : ∀ k c, 0 ≤ Spec.affineCoord A (q' k) c) :
    ∃ values values' : Fin (n0 * n1 * n2) → ℝ, deformedIntensities3d n0 n1 n2 I A (List.ofFn q) = .ok (List.ofFn values) ∧
      deformedIntensities3d n0 n1 n2 I A (List.ofFn q') = .ok (List.ofFn values') ∧
      ∀ k, |values k - values' k| ≤ M * (|Spec.affineCoord A (q k) 0 - Spec.affineCoord A (q' k) 0| +
        |Spec.affineCoord A (q k) 1 - Spec.affineCoord A (q' k) 1| + |Spec.affineCoord A (q k) 2 - Spec.affineCoord A (q' k) 2|) :=
  ⟨_, _, volume_run n0 n1 n2 I A h0 h1 h2 q, volume_run n0 n1 n2 I A h0 h1 h2 q', fun k =>
    trilinear_lipschitz h0 h1 h2 hp hM (hq k 0) (hq k 1) (hq' k 1) (hq' k 2)⟩

/-! ## Concrete cases -/

/-- A volume rising by one along its last axis, read through the identity at a point inside. -/
example : Spec.VoxelStepsAtMost 2 3 4 (fun _ _ k => (k : ℝ)) 1 ∧ ∀ c, 0 ≤ Spec.affineCoord 1 ![1 / 2, 1, 5 / 2] c := by
  refine ⟨⟨fun i j k _ _ _ => ?_, fun i j k _ _ _ => ?_, fun i j k _ _ _ => ?_⟩, fun c => ?_⟩
  · rw [sub_self, abs_zero]
    exact zero_le_one
  · rw [sub_self, abs_zero]
    exact zero_le_one
  · push_cast
    rw [add_sub_cancel_left, abs_one]
  · fin_cases c <;> simp [Spec.affineCoord, Matrix.one_apply] <;> norm_num

/-- A ramp of slope one along the rows. -/
example : Spec.StepsAtMost 3 4 (fun _ j => (j : ℝ)) 1 := by
  refine ⟨fun i j _ _ => ?_, fun i j _ _ => ?_⟩
  · push_cast
    rw [add_sub_cancel_left, abs_one]
  · rw [sub_self, abs_zero]
    exact zero_le_one

end Imodal
