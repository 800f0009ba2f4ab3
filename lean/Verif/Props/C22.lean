import Verif.Lemmas.Sks
import Mathlib.Tactic.FinCases
/-!
# C22 The strain basis is orthonormal and complete
-/
set_option autoImplicit false
namespace Imodal
noncomputable section

theorem invSqrt2_sq : invSqrt2 * invSqrt2 = 1 / 2 := by
  unfold invSqrt2
  rw [div_mul_div_comm, one_mul, Real.mul_self_sqrt (by norm_num)]

/-- The tables with literal index ranges. -/
def tab2 (i j : Fin 2) (t : Fin 3) : ℝ :=
    if i.val = 0 ∧ j.val = 0 then (if t.val = 0 then 1 else 0)
    else if i.val = 0 ∧ j.val = 1 then (if t.val = 1 then invSqrt2 else 0)
    else if i.val = 1 ∧ j.val = 0 then (if t.val = 1 then invSqrt2 else 0)
    else (if t.val = 2 then 1 else 0)
def tab3 (i j : Fin 3) (t : Fin 6) : ℝ :=
    if i.val = j.val ∧ t.val = i.val then 1
    else if i.val = 0 ∧ j.val = 1 ∧ t.val = 3 then invSqrt2
    else if i.val = 1 ∧ j.val = 0 ∧ t.val = 3 then invSqrt2
    else if i.val = 0 ∧ j.val = 2 ∧ t.val = 4 then invSqrt2
    else if i.val = 2 ∧ j.val = 0 ∧ t.val = 4 then invSqrt2
    else if i.val = 1 ∧ j.val = 2 ∧ t.val = 5 then invSqrt2
    else if i.val = 2 ∧ j.val = 1 ∧ t.val = 5 then invSqrt2
    else 0

theorem tab2_orthonormal (t u : Fin 3) : ∑ i, ∑ j, tab2 i j t * tab2 i j u = if t = u then 1 else 0 := by
  have hs := invSqrt2_sq
  unfold tab2
  fin_cases t <;> fin_cases u <;> simp [Fin.sum_univ_two, hs] <;> norm_num

theorem tab3_orthonormal (t u : Fin 6) : ∑ i, ∑ j, tab3 i j t * tab3 i j u = if t = u then 1 else 0 := by
  have hs := invSqrt2_sq
  unfold tab3
  fin_cases t <;> fin_cases u <;> simp [Fin.sum_univ_three, hs] <;> norm_num

theorem tab2_complete (M : Mat 2) (hM : ∀ i j, M i j = M j i) (i j : Fin 2) :
    M i j = ∑ t, (∑ k, ∑ l, M k l * tab2 k l t) * tab2 i j t := by
  have hs := invSqrt2_sq
  have h10 := hM 1 0
  unfold tab2
  fin_cases i <;> fin_cases j <;> simp [Fin.sum_univ_two, Fin.sum_univ_three, h10] <;>
    linear_combination (-2 * M 0 1) * hs

theorem tab3_complete (M : Mat 3) (hM : ∀ i j, M i j = M j i) (i j : Fin 3) :
    M i j = ∑ t, (∑ k, ∑ l, M k l * tab3 k l t) * tab3 i j t := by
  have hs := invSqrt2_sq
  have h10 := hM 1 0
  have h20 := hM 2 0
  have h21 := hM 2 1
  unfold tab3
  fin_cases i <;> fin_cases j <;> simp [Fin.sum_univ_three, Fin.sum_univ_six, h10, h20, h21] <;>
    first
      | linear_combination (-2 * M 0 1) * hs
      | linear_combination (-2 * M 0 2) * hs
      | linear_combination (-2 * M 1 2) * hs

/-- **C22.** The tensors returned by `eta(dim)` are symmetric. -/
theorem C22_symmetric {d : Nat} {e : Fin d → Fin d → Fin (symDim d) → ℝ} (h : eta d = .ok e) (i j : Fin d)
    (t : Fin (symDim d)) : e i j t = e j i t := by
  have : etaOf d = e := by unfold etaOf; rw [h]
  rw [← this]; exact etaOf_symm i j t

/-- There are `d(d+1)/2` of them, and they are orthonormal for the Frobenius product. -/
theorem C22_orthonormal {d : Nat} {e : Fin d → Fin d → Fin (symDim d) → ℝ} (h : eta d = .ok e)
    (t u : Fin (symDim d)) : ∑ i, ∑ j, e i j t * e i j u = if t = u then 1 else 0 := by
  have he : etaOf d = e := by unfold etaOf; rw [h]
  rw [← he]
  by_cases h2 : d = 2
  · subst h2; exact tab2_orthonormal t u
  · by_cases h3 : d = 3
    · subst h3; exact tab3_orthonormal t u
    · unfold eta at h; rw [if_neg h2, if_neg h3] at h; cases h

/-- Every symmetric matrix is the combination of the tensors with its own Frobenius products. -/
theorem C22_complete {d : Nat} {e : Fin d → Fin d → Fin (symDim d) → ℝ} (h : eta d = .ok e)
    (M : Mat d) (hM : ∀ i j, M i j = M j i) (i j : Fin d) :
    M i j = ∑ t, (∑ k, ∑ l, M k l * e k l t) * e i j t := by
  have he : etaOf d = e := by unfold etaOf; rw [h]
  rw [← he]
  by_cases h2 : d = 2
  · subst h2; exact tab2_complete M hM i j
  · by_cases h3 : d = 3
    · subst h3; exact tab3_complete M hM i j
    · unfold eta at h; rw [if_neg h2, if_neg h3] at h; cases h

/-- `eta(dim)` returns exactly for dimensions 2 and 3 and raises NotImplementedError otherwise. -/
theorem C22_dimensions (d : Nat) :
    ((∃ e, eta d = .ok e) ↔ d = 2 ∨ d = 3) ∧ (d ≠ 2 → d ≠ 3 → eta d = .error .notImplemented) := by
  unfold eta
  by_cases h2 : d = 2
  · simp [h2]
  · by_cases h3 : d = 3
    · simp [h3]
    · simp [h2, h3]

example : ∃ e, eta 2 = .ok e ∧ e 0 1 ⟨1, by decide⟩ = 1 / Real.sqrt 2 := ⟨_, rfl, rfl⟩
example : ∃ e, eta 3 = .ok e ∧ e 1 2 ⟨5, by decide⟩ = 1 / Real.sqrt 2 := ⟨_, rfl, by simp [invSqrt2]⟩

end
end Imodal
