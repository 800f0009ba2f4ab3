import Verif.Model.Greyscale
import Verif.Props.C63
import Verif.Props.C76
/-!
# C107: greyscale images from files
-/
set_option autoImplicit false
namespace Imodal
noncomputable section

namespace Spec
/-- The greyscale picture in a file: rows, columns and the grey value at each row (from the top) and
column, which for a picture with channels is the first one. -/
inductive Shows : ImageArray → Nat → Nat → (Nat → Nat → ℝ) → Prop
  | grey (h w : Nat) (I : Nat → Nat → ℝ) : Shows (.grey h w I) h w I
  | colour (h w c : Nat) (hc : 0 < c) (I : Nat → Nat → Nat → ℝ) : Shows (.colour h w c I) h w fun i j => I i j 0
end Spec

theorem loadGreyscale_shows {a : ImageArray} {h w : Nat} {I : Nat → Nat → ℝ} (ha : Spec.Shows a h w I) {origin : String} (ho : origin = "upper" ∨ origin = "lower") :
    loadGreyscale origin (.ok a) = .ok (h, w, setOrigin origin h fun i j => 1 - I i j) := by
  rw [loadGreyscale.eq_def, if_neg (by rcases ho with rfl | rfl <;> simp)]
  cases ha with
  | grey => rfl
  | colour _ _ c hc => exact if_neg hc.ne'

/-- Both origins give the picture inverted, of the same size, the first row being the top one for
`'upper'` and the bottom one for `'lower'`. If the grey values lie between zero and one, so do the
values of the image. -/
theorem C107_partial {a : ImageArray} {h w : Nat} {I : Nat → Nat → ℝ} (ha : Spec.Shows a h w I) :
    (∃ J, loadGreyscale "upper" (.ok a) = .ok (h, w, J) ∧ ∀ i j, i < h → j < w → J i j = 1 - I i j) ∧
    (∃ J, loadGreyscale "lower" (.ok a) = .ok (h, w, J) ∧ ∀ i j, i < h → j < w → J i j = 1 - I (h - 1 - i) j) ∧
    ((∀ i j, i < h → j < w → 0 ≤ I i j ∧ I i j ≤ 1) → ∀ origin J, loadGreyscale origin (.ok a) = .ok (h, w, J) → ∀ i j, i < h → j < w → 0 ≤ J i j ∧ J i j ≤ 1) := by
  refine ⟨⟨_, loadGreyscale_shows ha (.inl rfl), fun i j _ _ => rfl⟩, ⟨_, loadGreyscale_shows ha (.inr rfl), fun i j _ _ => rfl⟩, fun hI origin J hJ i j hi hj => ?_⟩
  have ho : origin = "upper" ∨ origin = "lower" := by
    by_contra hc
    rw [not_or] at hc
    rw [loadGreyscale.eq_def, if_pos hc] at hJ
    cases hJ
  rw [loadGreyscale_shows ha ho] at hJ
  cases hJ
  rw [setOrigin]
  split
  · have := hI i j hi hj
    constructor <;> linarith
  · have := hI (h - 1 - i) j (by omega) hj
    constructor <;> linarith

/-- Reading upside down twice is reading once. -/
theorem C107_origins {a : ImageArray} {h w : Nat} {J K : Nat → Nat → ℝ} (hJ : loadGreyscale "upper" (.ok a) = .ok (h, w, J))
    (hK : loadGreyscale "lower" (.ok a) = .ok (h, w, K)) {i j : Nat} (hi : i < h) : K i j = J (h - 1 - i) j ∧ J i j = K (h - 1 - i) j := by
  have e : h - 1 - (h - 1 - i) = i := by omega
  rw [loadGreyscale.eq_def, if_neg (by simp)] at hJ hK
  cases a with
  | grey h' w' I =>
    cases hJ; cases hK
    simp [setOrigin, e]
  | colour h' w' c I =>
    dsimp only at hJ hK
    by_cases hc : c = 0
    · rw [if_pos hc] at hJ; cases hJ
    · rw [if_neg hc] at hJ hK
      cases hJ; cases hK
      simp [setOrigin, e]
  | other => cases hJ

/-- Other channels than the first do not matter. -/
theorem C107_channel {h w c c' : Nat} (hc : 0 < c) (hc' : 0 < c') (I I' : Nat → Nat → Nat → ℝ) (hI : ∀ i j, I i j 0 = I' i j 0) (origin : String) :
    loadGreyscale origin (.ok (.colour h w c I)) = loadGreyscale origin (.ok (.colour h w c' I')) := by
  rw [loadGreyscale.eq_def, loadGreyscale.eq_def]
  simp only [if_neg hc.ne', if_neg hc'.ne', hI]

/-- An unknown origin is rejected whatever the file contains, and so are arrays of other dimensions. -/
theorem C107_rejects (file : Py ImageArray) {origin : String} (h1 : origin ≠ "upper") (h2 : origin ≠ "lower") :
    loadGreyscale origin file = .error .runtime ∧ DefImage.load origin file = .error .runtime ∧ loadGreyscale "upper" (.ok .other) = .error .notImplemented ∧
    loadGreyscale "lower" (.ok .other) = .error .notImplemented := by
  have e : loadGreyscale origin file = .error .runtime := if_pos ⟨h1, h2⟩
  refine ⟨e, by rw [DefImage.load, e], ?_, ?_⟩ <;> rw [loadGreyscale.eq_def, if_neg (by simp)]

/-- A deformable image read from a file has the picture as its bitmap, over the unit square. -/
theorem C107_deformable {a : ImageArray} {h w : Nat} {I : Nat → Nat → ℝ} (ha : Spec.Shows a h w I) (hh : 2 ≤ h) (hw : 2 ≤ w) :
    ∃ D, DefImage.load "upper" (.ok a) = .ok D ∧ D.h = h ∧ D.w = w ∧ D.extent = extent2 0 1 0 1 ∧
      D.geometry .bitmap = .ok (.bitmap (Spec.flat h w fun i j => 1 - I i j)) := by
  obtain ⟨D, hD, -⟩ := C76_points_disagreement h w hh hw (setOrigin "upper" h fun i j => 1 - I i j) .none 0 1 0 1 .none
  refine ⟨D, ?_, ?_⟩
  · rw [DefImage.load, loadGreyscale_shows ha (.inl rfl)]
    exact hD
  · have hp : AABB.ofArgs [.num 0, .num ((w : ℝ) - 1), .num 0, .num ((h : ℝ) - 1)] = .ok (extent2 0 ((w : ℝ) - 1) 0 ((h : ℝ) - 1)) :=
      ofArgs_eq (sub_nonneg.2 (by exact_mod_cast (by omega : 1 ≤ w))) (sub_nonneg.2 (by exact_mod_cast (by omega : 1 ≤ h)))
    have hu : AABB.ofArgs [.num (0 : ℝ), .num 1, .num 0, .num 1] = .ok (extent2 0 1 0 1) := ofArgs_eq zero_le_one zero_le_one
    simp only [DefImage.mk', hp, hu, imageGrid_box h w hh hw, bind, Except.bind, pure, Except.pure] at hD
    cases hD
    exact ⟨rfl, rfl, rfl, rfl⟩

/-- **Disagreement.** The values are not normalised: for a file of integers, as formats other than PNG
give, each grey value of two or more becomes negative, and white becomes `-254`. -/
theorem C107_integers_disagreement {a : ImageArray} {h w : Nat} {I : Nat → Nat → ℝ} (ha : Spec.Shows a h w I) {i j : Nat} (hi : i < h) (hj : j < w) :
    ∃ J, loadGreyscale "upper" (.ok a) = .ok (h, w, J) ∧ (2 ≤ I i j → J i j < 0) ∧ (I i j = 255 → J i j = -254) := by
  obtain ⟨⟨J, h1, h2⟩, -⟩ := C107_partial ha
  refine ⟨J, h1, fun h => ?_, fun h => ?_⟩
  · rw [h2 i j hi hj]; linarith
  · rw [h2 i j hi hj, h]; norm_num

/-- **Disagreement.** Sampling points from a file raises `IndexError` for every picture of two or more pixels. -/
theorem C107_sampling_disagreement {a : ImageArray} {h w : Nat} {I : Nat → Nat → ℝ} (ha : Spec.Shows a h w I) (hh : 1 ≤ h) (hw : 1 ≤ w) (h2 : 2 ≤ h ∨ 2 ≤ w)
    (threshold : ℝ) : loadAndSample (.ok a) threshold = .error .index := by
  rw [loadAndSample, loadGreyscale_shows ha (.inr rfl)]
  exact C63_disagreement h w hh hw h2 _ threshold true

/-- A picture with a black, a grey and two white pixels, upright and upside down. -/
example : ∃ J K, loadGreyscale "upper" (.ok (.grey 2 2 fun i j => if i = 0 then (if j = 0 then 0 else 1 / 4) else 1)) = .ok (2, 2, J) ∧
    loadGreyscale "lower" (.ok (.grey 2 2 fun i j => if i = 0 then (if j = 0 then 0 else 1 / 4) else 1)) = .ok (2, 2, K) ∧
    J 0 0 = 1 ∧ J 0 1 = 3 / 4 ∧ J 1 0 = 0 ∧ K 1 1 = 3 / 4 ∧ K 0 1 = 0 := by
  obtain ⟨⟨J, h1, h2⟩, ⟨K, h3, h4⟩, -⟩ := C107_partial (Spec.Shows.grey 2 2 fun i j => if i = 0 then (if j = 0 then 0 else 1 / 4) else 1)
  refine ⟨J, K, h1, h3, ?_, ?_, ?_, ?_, ?_⟩
  · rw [h2 0 0 (by norm_num) (by norm_num)]; norm_num
  · rw [h2 0 1 (by norm_num) (by norm_num)]; norm_num
  · rw [h2 1 0 (by norm_num) (by norm_num)]; norm_num
  · rw [h4 1 1 (by norm_num) (by norm_num)]; norm_num
  · rw [h4 0 1 (by norm_num) (by norm_num)]; norm_num

end
end Imodal
