import Verif.Model.Optim
import Mathlib.Tactic.Linarith
import Mathlib.Tactic.NormNum
import Mathlib.Algebra.Order.Ring.Rat
/-!
# C41 Torch optimiser loop stops and reports honestly

`total i` is the total cost after the `i`-th call of the wrapped optimiser's `step`. The
specification below does not use the loop: `Converged b a tol` is the relative decrease
test written on finite numbers.
-/
set_option autoImplicit false
namespace Imodal
variable {𝕜 : Type} [Field 𝕜] [LinearOrder 𝕜] [IsStrictOrderedRing 𝕜]

/-- Relative decrease from `b` to `a` at most `tol`. -/
def Converged (b a tol : 𝕜) : Prop := (b - a) / max (max a b) 1 ≤ tol

/-- The stopping test of the code is the relative decrease test on finite costs and fails
whenever one of the two costs is not finite, except for a previous cost of `-inf`. -/
theorem stop_test_iff (last t : XF 𝕜) (tol : 𝕜) :
    ((last.sub t).div (XF.max3 t last (.fin 1))).le (.fin tol) ↔
      (∃ b a, last = .fin b ∧ t = .fin a ∧ Converged b a tol) ∨
      (last = .ninf ∧ ∃ a, t = .fin a) := by
  have hpos : ∀ x : 𝕜, 0 < max x 1 := fun x => lt_max_of_lt_right one_pos
  cases last with
  | fin b =>
    cases t with
    | fin a =>
      have hm : XF.max3 (.fin a) (.fin b) (.fin (1 : 𝕜)) = .fin (max (max a b) 1) := by
        unfold XF.max3
        by_cases h : a < b
        · have h1 : (XF.fin a).lt (.fin b) := h
          rw [if_pos h1, max_eq_right h.le]
          by_cases h' : b < 1
          · rw [if_pos (show (XF.fin b).lt (.fin 1) from h'), max_eq_right h'.le]
          · rw [if_neg (show ¬ (XF.fin b).lt (.fin 1) from h'), max_eq_left (not_lt.1 h')]
        · have h1 : ¬ (XF.fin a).lt (.fin b) := h
          rw [if_neg h1, max_eq_left (not_lt.1 h)]
          by_cases h' : a < 1
          · rw [if_pos (show (XF.fin a).lt (.fin 1) from h'), max_eq_right h'.le]
          · rw [if_neg (show ¬ (XF.fin a).lt (.fin 1) from h'), max_eq_left (not_lt.1 h')]
      rw [hm]
      have hne : max (max a b) 1 ≠ 0 := (hpos _).ne'
      simp only [XF.sub, XF.div, if_neg hne, XF.le, XF.lt, XF.eq]
      simp only [XF.fin.injEq, reduceCtorEq, false_and, and_false, exists_const, or_false,
        false_or]
      constructor
      · intro h; exact ⟨b, a, rfl, rfl, le_iff_lt_or_eq.2 h⟩
      · rintro ⟨_, _, rfl, rfl, h⟩; exact le_iff_lt_or_eq.1 h
    | pinf =>
      simp [XF.max3, XF.sub, XF.div, XF.le, XF.lt, XF.eq]
    | ninf =>
      by_cases h' : b < 1
      · have : XF.max3 (.ninf) (.fin b) (.fin (1 : 𝕜)) = .fin 1 := by simp [XF.max3, XF.lt, h']
        rw [this]; simp [XF.sub, XF.div, XF.le, XF.lt, XF.eq]
      · have : XF.max3 (.ninf) (.fin b) (.fin (1 : 𝕜)) = .fin b := by simp [XF.max3, XF.lt, h']
        rw [this]
        have hb : 0 < b := lt_of_lt_of_le one_pos (not_lt.1 h')
        simp [XF.sub, XF.div, XF.le, XF.lt, XF.eq, hb.ne', hb]
    | nan => simp [XF.max3, XF.sub, XF.div, XF.le, XF.lt, XF.eq]
  | pinf =>
    cases t <;> simp [XF.max3, XF.sub, XF.div, XF.le, XF.lt, XF.eq]
  | ninf =>
    cases t with
    | fin a =>
      by_cases h' : a < 1
      · simp [XF.max3, XF.sub, XF.div, XF.le, XF.lt, XF.eq, h']
      · have hb : 0 < a := lt_of_lt_of_le one_pos (not_lt.1 h')
        simp [XF.max3, XF.sub, XF.div, XF.le, XF.lt, XF.eq, h', hb.ne', hb]
    | pinf => simp [XF.max3, XF.sub, XF.div, XF.le, XF.lt, XF.eq]
    | ninf => simp [XF.max3, XF.sub, XF.div, XF.le, XF.lt, XF.eq]
    | nan => simp [XF.max3, XF.sub, XF.div, XF.le, XF.lt, XF.eq]
  | nan => cases t <;> simp [XF.max3, XF.sub, XF.div, XF.le, XF.lt, XF.eq]

/-- The loop may stop with success at iteration `j`. -/
def StopAt (total : Nat → XF 𝕜) (tol : 𝕜) (miniter j : Nat) : Prop :=
  1 ≤ j ∧ miniter ≤ j ∧
    ((∃ b a, total (j - 1) = .fin b ∧ total j = .fin a ∧ Converged b a tol) ∨
     (total (j - 1) = .ninf ∧ ∃ a, total j = .fin a))

theorem torchLoop_spec (total : Nat → XF 𝕜) (tol : 𝕜) (miniter maxIter n i : Nat) (last : XF 𝕜)
    (hlast : last = if i = 0 then .pinf else total (i - 1)) :
    let r := torchLoop total tol miniter maxIter n i last
    (r.2 = none ∧ r.1 = List.range' i n ∧
      (∀ j, i ≤ j → j < i + n → total j ≠ .nan ∧ ¬ StopAt total tol miniter j)) ∨
    ∃ j, i ≤ j ∧ j < i + n ∧ r.1 = List.range' i (j + 1 - i) ∧
      (∀ k, i ≤ k → k < j → total k ≠ .nan ∧ ¬ StopAt total tol miniter k) ∧
      ((total j = .nan ∧ r.2 = some ⟨false, .nan, .nan⟩) ∨
       (total j ≠ .nan ∧ StopAt total tol miniter j ∧ r.2 = some ⟨true, total j, .converged⟩)) := by
  induction n generalizing i last with
  | zero => exact Or.inl ⟨rfl, rfl, fun j h1 h2 => by omega⟩
  | succ n ih =>
    intro r
    have hstop : (((last.sub (total i)).div (XF.max3 (total i) last (.fin 1))).le (.fin tol) ∧
        miniter ≤ i) ↔ StopAt total tol miniter i := by
      rw [stop_test_iff, hlast]
      unfold StopAt
      by_cases hi : i = 0
      · simp [hi]
      · rw [if_neg hi]
        constructor
        · rintro ⟨h, h'⟩; exact ⟨Nat.pos_of_ne_zero hi, h', h⟩
        · rintro ⟨_, h', h⟩; exact ⟨h, h'⟩
    by_cases hnan : (total i).isNan = true
    · have hr : r = ([i], some ⟨false, .nan, .nan⟩) := by
        simp only [r, torchLoop, if_pos hnan]
      have ht : total i = .nan := by
        cases h : total i <;> simp [h, XF.isNan] at hnan ⊢
      refine Or.inr ⟨i, le_rfl, by omega, ?_, fun k h1 h2 => by omega, Or.inl ⟨ht, by rw [hr]⟩⟩
      rw [hr]; simp
    · have ht : total i ≠ .nan := by
        intro h; rw [h] at hnan; exact hnan rfl
      by_cases hs : StopAt total tol miniter i
      · have hr : r = ([i], some ⟨true, total i, .converged⟩) := by
          simp only [r, torchLoop, if_neg hnan, if_pos (hstop.2 hs)]
        refine Or.inr ⟨i, le_rfl, by omega, ?_, fun k h1 h2 => by omega,
          Or.inr ⟨ht, hs, by rw [hr]⟩⟩
        rw [hr]; simp
      · have hr : r = (i :: (torchLoop total tol miniter maxIter n (i + 1) (total i)).1,
            (torchLoop total tol miniter maxIter n (i + 1) (total i)).2) := by
          simp only [r, torchLoop, if_neg hnan, if_neg (fun h => hs (hstop.1 h))]
        have hext : ∀ (P : Nat → Prop) (b : Nat), P i → (∀ k, i + 1 ≤ k → k < b → P k) →
            ∀ k, i ≤ k → k < b → P k := by
          intro P b hi h k h1 h2
          by_cases hk : k = i
          · exact hk ▸ hi
          · exact h k (by omega) h2
        rcases ih (i + 1) (total i) (by simp) with ⟨h1, h2, h3⟩ | ⟨j, h1, h2, h3, h4, h5⟩
        · refine Or.inl ⟨by rw [hr]; exact h1, by rw [hr, h2]; rfl, ?_⟩
          exact hext _ _ ⟨ht, hs⟩ (fun k h h' => h3 k h (by omega))
        · refine Or.inr ⟨j, by omega, by omega, ?_, hext _ _ ⟨ht, hs⟩ h4, ?_⟩
          · rw [hr, h3]
            have : j + 1 - i = (j + 1 - (i + 1)) + 1 := by omega
            rw [this, List.range'_succ]
          · rw [hr]; exact h5

/-- Every run with `max_iter ≥ 1` ends in exactly one of three ways. The callback is called
for the iterations `0, 1, …` in order, at most `max_iter` times, and
* success is reported at the first iteration `j ≥ miniter`, `j ≥ 1`, where the relative
  decrease is at most the tolerance, with the cost reached there;
* a `nan` cost stops the loop at once with a failure;
* otherwise all `max_iter` iterations are done, and failure is reported with the last cost. -/
theorem C41_optimize (total : Nat → XF 𝕜) (tol : Option 𝕜) (miniter maxIter : Nat)
    (hmax : 0 < maxIter) :
    ∃ j, j < maxIter ∧ (torchOptimize total tol miniter maxIter).1 = List.range (j + 1) ∧
      (∀ k, k < j → total k ≠ .nan ∧ ¬ StopAt total (tol.getD (1 / 10 ^ 10)) miniter k) ∧
      ((total j = .nan ∧
          (torchOptimize total tol miniter maxIter).2 = .ok ⟨false, .nan, .nan⟩) ∨
       (total j ≠ .nan ∧ StopAt total (tol.getD (1 / 10 ^ 10)) miniter j ∧
          (torchOptimize total tol miniter maxIter).2 = .ok ⟨true, total j, .converged⟩) ∨
       (total j ≠ .nan ∧ ¬ StopAt total (tol.getD (1 / 10 ^ 10)) miniter j ∧ j + 1 = maxIter ∧
          (torchOptimize total tol miniter maxIter).2 = .ok ⟨false, total j, .maxIter⟩)) := by
  have h := torchLoop_spec total (tol.getD (1 / 10 ^ 10)) miniter maxIter maxIter 0 .pinf (by simp)
  unfold torchOptimize
  simp only at h ⊢
  rcases h with ⟨h1, h2, h3⟩ | ⟨j, _, h2, h3, h4, h5⟩
  · rw [h1]
    simp only [if_neg hmax.ne']
    refine ⟨maxIter - 1, by omega, ?_, fun k hk => h3 k (Nat.zero_le _) (by omega), Or.inr (Or.inr ?_)⟩
    · rw [h2, List.range_eq_range']; congr 1; omega
    · exact ⟨(h3 (maxIter - 1) (Nat.zero_le _) (by omega)).1,
        (h3 (maxIter - 1) (Nat.zero_le _) (by omega)).2, by omega, rfl⟩
  · rw [Nat.zero_add] at h2
    rcases h5 with ⟨h6, h7⟩ | ⟨h6, h7, h8⟩
    · rw [h7]
      refine ⟨j, h2, ?_, fun k hk => h4 k (Nat.zero_le _) hk, Or.inl ⟨h6, rfl⟩⟩
      simp only [h3, List.range_eq_range']; congr 1
    · rw [h8]
      refine ⟨j, h2, ?_, fun k hk => h4 k (Nat.zero_le _) hk, Or.inr (Or.inl ⟨h6, h7, rfl⟩)⟩
      simp only [h3, List.range_eq_range']; congr 1

/-- Success is only reported when the relative decrease between two consecutive iterations
is at most the tolerance, not before `miniter`, and with the cost of the last iteration
done. (A previous total of `-inf` also passes the test.) -/
theorem C41_success (total : Nat → XF 𝕜) (tol : Option 𝕜) (miniter maxIter : Nat)
    (res : OptResult 𝕜) (h : (torchOptimize total tol miniter maxIter).2 = .ok res)
    (hs : res.success = true) :
    ∃ j, 1 ≤ j ∧ miniter ≤ j ∧ j < maxIter ∧
      (torchOptimize total tol miniter maxIter).1 = List.range (j + 1) ∧ res.final = total j ∧
      ((∃ b a, total (j - 1) = .fin b ∧ total j = .fin a ∧ Converged b a (tol.getD (1 / 10 ^ 10))) ∨
        total (j - 1) = .ninf) := by
  have hmax : 0 < maxIter := by
    rcases Nat.eq_zero_or_pos maxIter with h0 | h0
    · subst h0; simp [torchOptimize, torchLoop] at h
    · exact h0
  obtain ⟨j, h1, h2, _, h4⟩ := C41_optimize total tol miniter maxIter hmax
  rcases h4 with ⟨_, h5⟩ | ⟨_, hst, h5⟩ | ⟨_, _, _, h5⟩
  · rw [h5] at h; cases h; cases hs
  · rw [h5] at h; cases h
    obtain ⟨a1, a2, a3⟩ := hst
    refine ⟨j, a1, a2, h1, h2, rfl, ?_⟩
    rcases a3 with h | h
    · exact Or.inl h
    · exact Or.inr h.1
  · rw [h5] at h; cases h; cases hs

/-- With no iteration allowed, `optimize` raises UnboundLocalError instead of reporting. -/
theorem C41_no_iteration_disagreement (total : Nat → XF 𝕜) (tol : Option 𝕜) (miniter : Nat) :
    torchOptimize total tol miniter 0 = ([], .error .unboundLocal) := by
  simp [torchOptimize, torchLoop]

/-- Costs 4, 2, 2 - ...: stops at the third iteration with success. -/
example : (torchOptimize (𝕜 := ℚ) (fun i => if i = 0 then .fin 4 else .fin 2) none 0 10)
    = ([0, 1, 2], .ok ⟨true, .fin 2, .converged⟩) := by
  norm_num [torchOptimize, torchLoop, XF.isNan, XF.sub, XF.div, XF.max3, XF.le, XF.lt, XF.eq]

end Imodal
