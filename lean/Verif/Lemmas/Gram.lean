import Verif.Lemmas.Kernel
import Mathlib.Analysis.Normed.Algebra.Exponential
import Mathlib.Analysis.SpecialFunctions.Exponential
import Mathlib.Topology.Algebra.InfiniteSum.Real
import Mathlib.Algebra.BigOperators.Ring.Finset
/-! The Gaussian kernel is positive semi-definite, and definite on distinct points. -/
set_option autoImplicit false
namespace Imodal
noncomputable section
variable {d : Nat} {ι : Type*} [Fintype ι]

/-- Product of the coordinates named by a word. -/
def wordProd (w : List (Fin d)) (x : Vec d) : ℝ := (w.map x).prod

theorem dot_pow (n : Nat) (x y : Vec d) :
    (∑ c, x c * y c) ^ n = ∑ w : Fin n → Fin d, wordProd (List.ofFn w) x * wordProd (List.ofFn w) y := by
  have h := Finset.prod_univ_sum (fun _ : Fin n => (Finset.univ : Finset (Fin d))) (fun _ c => x c * y c)
  rw [Finset.prod_const, Finset.card_univ, Fintype.card_fin, Fintype.piFinset_univ] at h
  rw [h]
  refine Finset.sum_congr rfl fun w _ => ?_
  unfold wordProd
  rw [List.map_ofFn, List.map_ofFn, List.prod_ofFn, List.prod_ofFn, ← Finset.prod_mul_distrib]
  rfl

theorem quad_pow (n : Nat) (x : ι → Vec d) (b : ι → ℝ) :
    ∑ i, ∑ j, b i * b j * (∑ c, x i c * x j c) ^ n
      = ∑ w : Fin n → Fin d, (∑ i, b i * wordProd (List.ofFn w) (x i)) ^ 2 := by
  simp only [dot_pow, Finset.mul_sum, sq, Finset.sum_mul]
  rw [Finset.sum_comm' (s := Finset.univ) (t := fun _ => Finset.univ) (t' := Finset.univ) (s' := fun _ => Finset.univ) (by simp)]
  conv_lhs => enter [2, i]; rw [Finset.sum_comm]
  rw [Finset.sum_comm]
  refine Finset.sum_congr rfl fun w _ => ?_
  rw [Finset.sum_comm]
  refine Finset.sum_congr rfl fun i _ => Finset.sum_congr rfl fun j _ => by ring

theorem kXY_factor (σ : ℝ) (x y : Vec d) :
    kXY σ x y = Real.exp (-(∑ c, x c ^ 2) / (2 * σ ^ 2)) * Real.exp (-(∑ c, y c ^ 2) / (2 * σ ^ 2))
      * Real.exp ((∑ c, x c * y c) / σ ^ 2) := by
  rw [← Real.exp_add, ← Real.exp_add]
  unfold kXY sqDistance
  congr 1
  have h : ∑ c, (x c - y c) ^ 2 = ∑ c, x c ^ 2 + ∑ c, y c ^ 2 - 2 * ∑ c, x c * y c := by
    rw [Finset.mul_sum, ← Finset.sum_add_distrib, ← Finset.sum_sub_distrib]
    exact Finset.sum_congr rfl fun c _ => by ring
  rw [h]
  by_cases hσ : σ = 0
  · simp [hσ]
  · field_simp; ring

/-- The weight of point `i` after factoring out the Gaussian of its norm. -/
def scaled (σ : ℝ) (x : ι → Vec d) (a : ι → ℝ) (i : ι) : ℝ :=
  a i * Real.exp (-(∑ c, x i c ^ 2) / (2 * σ ^ 2))

theorem quad_hasSum (σ : ℝ) (x : ι → Vec d) (a : ι → ℝ) :
    HasSum (fun n : ℕ => (1 / (σ ^ 2) ^ n / (n.factorial : ℝ)) *
        ∑ w : Fin n → Fin d, (∑ i, scaled σ x a i * wordProd (List.ofFn w) (x i)) ^ 2)
      (∑ i, ∑ j, a i * a j * kXY σ (x i) (x j)) := by
  have h1 : ∀ i j, HasSum (fun n : ℕ => scaled σ x a i * scaled σ x a j *
      ((((∑ c, x i c * x j c) / σ ^ 2) ^ n) / (n.factorial : ℝ))) (a i * a j * kXY σ (x i) (x j)) := by
    intro i j
    have h := (NormedSpace.expSeries_div_hasSum_exp ((∑ c, x i c * x j c) / σ ^ 2)).mul_left
      (scaled σ x a i * scaled σ x a j)
    rw [← Real.exp_eq_exp_ℝ] at h
    have e : a i * a j * kXY σ (x i) (x j)
        = scaled σ x a i * scaled σ x a j * Real.exp ((∑ c, x i c * x j c) / σ ^ 2) := by
      rw [kXY_factor]
      unfold scaled
      ring
    rw [e]
    exact h
  have h2 := hasSum_sum (s := Finset.univ) (fun i _ => hasSum_sum (s := Finset.univ) (fun j _ => h1 i j))
  refine (congrArg (fun f => HasSum f _) (funext fun n => ?_)).mp h2
  rw [← quad_pow, Finset.mul_sum]
  refine Finset.sum_congr rfl fun i _ => ?_
  rw [Finset.mul_sum]
  refine Finset.sum_congr rfl fun j _ => ?_
  rw [div_pow]; ring

theorem gaussian_psd (σ : ℝ) (x : ι → Vec d) (a : ι → ℝ) :
    0 ≤ ∑ i, ∑ j, a i * a j * kXY σ (x i) (x j) :=
  (quad_hasSum σ x a).nonneg fun n => by positivity

/-- Product of affine functions, given as coefficients and constant. -/
def affProd (l : List (Vec d × ℝ)) (y : Vec d) : ℝ :=
  (l.map fun v => (∑ c, v.1 c * y c) + v.2).prod

/-- Weights annihilating every monomial annihilate every product of affine functions. -/
theorem affProd_annihilated (x : ι → Vec d) (b : ι → ℝ)
    (h : ∀ w : List (Fin d), ∑ i, b i * wordProd w (x i) = 0) (l : List (Vec d × ℝ)) :
    ∀ w : List (Fin d), ∑ i, b i * wordProd w (x i) * affProd l (x i) = 0 := by
  induction l with
  | nil => intro w; simpa [affProd] using h w
  | cons v l ih =>
    intro w
    have e : ∀ i, b i * wordProd w (x i) * affProd (v :: l) (x i)
        = ∑ c, v.1 c * (b i * wordProd (c :: w) (x i) * affProd l (x i))
          + v.2 * (b i * wordProd w (x i) * affProd l (x i)) := by
      intro i
      have : affProd (v :: l) (x i) = ((∑ c, v.1 c * x i c) + v.2) * affProd l (x i) := by
        simp [affProd]
      rw [this, add_mul, mul_add, Finset.sum_mul, Finset.mul_sum]
      congr 1
      · refine Finset.sum_congr rfl fun c _ => ?_
        simp only [wordProd, List.map_cons, List.prod_cons]; ring
      · ring
    simp only [e]
    rw [Finset.sum_add_distrib, Finset.sum_comm]
    simp only [← Finset.mul_sum]
    simp [ih]

theorem weights_zero_of_words (x : ι → Vec d) (hx : Function.Injective x) (b : ι → ℝ)
    (h : ∀ w : List (Fin d), ∑ i, b i * wordProd w (x i) = 0) (i₀ : ι) : b i₀ = 0 := by
  classical
  let sep : ι → Vec d × ℝ := fun j =>
    (fun c => x i₀ c - x j c, -∑ c, (x i₀ c - x j c) * x j c)
  have hsep : ∀ (j : ι) (y : Vec d), (∑ c, (sep j).1 c * y c) + (sep j).2 = ∑ c, (x i₀ c - x j c) * (y c - x j c) := by
    intro j y
    simp only [sep]
    rw [← sub_eq_add_neg, ← Finset.sum_sub_distrib]
    exact Finset.sum_congr rfl fun c _ => by ring
  let l := ((Finset.univ.erase i₀).toList).map sep
  have hl : ∀ y : Vec d, affProd l y = ∏ j ∈ Finset.univ.erase i₀, ∑ c, (x i₀ c - x j c) * (y c - x j c) := by
    intro y
    simp only [affProd, l, List.map_map]
    rw [← Finset.prod_map_toList]
    congr 1
    exact List.map_congr_left fun j _ => hsep j y
  have key := affProd_annihilated x b h l []
  rw [Finset.sum_eq_single i₀] at key
  · rw [hl] at key
    simp only [wordProd, List.map_nil, List.prod_nil, mul_one] at key
    rcases mul_eq_zero.mp key with h0 | h0
    · exact h0
    · exfalso
      obtain ⟨j, hj, h1⟩ := Finset.prod_eq_zero_iff.mp h0
      have hne : x i₀ ≠ x j := fun e => (Finset.mem_erase.mp hj).1 (hx e).symm
      apply hne
      rw [← sqDistance_eq_zero]
      unfold sqDistance
      rw [← h1]
      exact Finset.sum_congr rfl fun c _ => by ring
  · intro i _ hi
    have : affProd l (x i) = 0 := by
      rw [hl]
      apply Finset.prod_eq_zero (i := i) (Finset.mem_erase.mpr ⟨hi, Finset.mem_univ i⟩)
      simp
    rw [this, mul_zero]
  · intro h; exact absurd (Finset.mem_univ i₀) h

theorem gaussian_pd {σ : ℝ} (hσ : σ ≠ 0) (x : ι → Vec d) (hx : Function.Injective x) (a : ι → ℝ)
    (h : ∑ i, ∑ j, a i * a j * kXY σ (x i) (x j) = 0) : a = 0 := by
  have hs := quad_hasSum σ x a
  rw [h] at hs
  have hz := (hasSum_zero_iff_of_nonneg (fun n => by positivity)).mp hs
  have hw : ∀ w : List (Fin d), ∑ i, scaled σ x a i * wordProd w (x i) = 0 := by
    intro w
    have h1 := congrFun hz w.length
    simp only [Pi.zero_apply] at h1
    have hc : (1 / (σ ^ 2) ^ w.length / (w.length.factorial : ℝ)) ≠ 0 := by positivity
    have h2 := (mul_eq_zero.mp h1).resolve_left hc
    rw [Finset.sum_eq_zero_iff_of_nonneg (fun _ _ => by positivity)] at h2
    have h3 := h2 w.get (Finset.mem_univ _)
    rw [List.ofFn_get] at h3
    exact pow_eq_zero_iff (two_ne_zero) |>.mp h3
  funext i
  have := weights_zero_of_words x hx (scaled σ x a) hw i
  unfold scaled at this
  exact (mul_eq_zero.mp this).resolve_right (Real.exp_pos _).ne'

end
end Imodal
