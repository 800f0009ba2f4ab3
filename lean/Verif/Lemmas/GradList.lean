import Verif.Props.C73
import Verif.Spec.FitReg
import Mathlib.Analysis.Calculus.Deriv.Pi
import Mathlib.Analysis.Calculus.FDeriv.Comp
import Mathlib.Data.List.GetD
/-! Partial derivatives with respect to the entries of the parameters make up the gradient. -/
set_option autoImplicit false
namespace Imodal
noncomputable section
open Filter Topology

theorem gradZipWith_flatten {α β γ : Type} (f : α → β → γ) : (a : List (List α)) → (b : List (List β)) → SameShape a b →
    (List.zipWith (List.zipWith f) a b).flatten = List.zipWith f a.flatten b.flatten
  | [], [], _ => rfl
  | u :: a, v :: b, h => by
    have h' : u.length = v.length ∧ SameShape a b := by simpa [SameShape] using h
    simp only [List.zipWith_cons_cons, List.flatten_cons]
    rw [gradZipWith_flatten f a b h'.2, List.zipWith_append h'.1]
  | [], _ :: _, h => by simp [SameShape] at h
  | _ :: _, [], h => by simp [SameShape] at h

theorem sum_map_flatten {α : Type} (f : α → ℝ) (h : List (List α)) : (h.map fun g => (g.map f).sum).sum = (h.flatten.map f).sum := by
  induction h with
  | nil => rfl
  | cons g h ih => simp [ih]

theorem length_flatten_same {α β : Type} {a : List (List α)} {b : List (List β)} (h : SameShape a b) : a.flatten.length = b.flatten.length := by
  rw [List.length_flatten, List.length_flatten]
  exact congrArg List.sum h

theorem norm1_flatten (h : List (List ℝ)) : Spec.norm1 h = (h.flatten.map norm).sum := sum_map_flatten _ _

theorem pairing_flatten : (g h : List (List ℝ)) → SameShape g h → Spec.pairing g h = (List.zipWith (fun u v => inner ℝ u v) g.flatten h.flatten).sum := by
  intro g h hs
  have := congrArg List.sum (gradZipWith_flatten (fun u v : ℝ => inner ℝ u v) g h hs)
  rw [← this, List.sum_flatten]
  unfold Spec.pairing
  congr 1
  induction g generalizing h with
  | nil => simp
  | cons u g ih =>
    cases h with
    | nil => simp
    | cons v h =>
      have h' : u.length = v.length ∧ SameShape g h := by simpa [SameShape] using hs
      simp only [List.zipWith_cons_cons, List.map_cons]
      rw [ih h h'.2 (by rw [gradZipWith_flatten _ _ _ h'.2])]

theorem gdFill_shape {E : Type} : (x : List (List E)) → (ys : List E) → SameShape (gdFill x ys) x
  | [], _ => rfl
  | g :: gs, ys => by
    have ho : ∀ (g ys : List E), (overwrite g ys).length = g.length := by
      intro g
      induction g with
      | nil => intro ys; cases ys <;> rfl
      | cons a g ih =>
        intro ys
        cases ys with
        | nil => rfl
        | cons b ys => simp [overwrite, ih]
    have := gdFill_shape gs (ys.drop g.length)
    unfold SameShape at this ⊢
    simp only [gdFill, List.map_cons, ho, this]

theorem overwrite_take {E : Type} : (g ys : List E) → g.length ≤ ys.length → overwrite g ys = ys.take g.length
  | [], ys, _ => by cases ys <;> rfl
  | a :: g, [], h => by simp at h
  | a :: g, b :: ys, h => by
    rw [overwrite, overwrite_take g ys (by simpa using h)]
    rfl

theorem flatten_gdFill {E : Type} : (x : List (List E)) → (ys : List E) → ys.length = x.flatten.length → (gdFill x ys).flatten = ys
  | [], ys, h => by
    have : ys = [] := List.eq_nil_of_length_eq_zero (by simpa using h)
    subst this; rfl
  | g :: gs, ys, h => by
    have h' : ys.length = g.length + gs.flatten.length := by simpa using h
    rw [gdFill, List.flatten_cons, overwrite_take g ys (by omega), flatten_gdFill gs _ (by rw [List.length_drop]; omega), List.take_append_drop]

theorem ofFn_entries {l : List ℝ} {N : Nat} (h : l.length = N) : List.ofFn (fun i : Fin N => l.getD i 0) = l := by
  subst h
  refine List.ext_getElem (by simp) fun i h1 h2 => ?_
  rw [List.getElem_ofFn, List.getD_eq_getElem _ _ h2]

theorem length_le_sum (l : List ℝ) (i : Nat) : |l.getD i 0| ≤ (l.map norm).sum := by
  induction l generalizing i with
  | nil => simp
  | cons a l ih =>
    have h0 : 0 ≤ (l.map norm).sum := List.sum_nonneg fun b hb => by
      obtain ⟨c, -, rfl⟩ := List.mem_map.1 hb
      exact norm_nonneg _
    cases i with
    | zero =>
      simp only [List.getD_cons_zero, List.map_cons, List.sum_cons, Real.norm_eq_abs]
      linarith
    | succ i =>
      have := ih i
      have := abs_nonneg a
      simp only [List.getD_cons_succ, List.map_cons, List.sum_cons, Real.norm_eq_abs] at *
      linarith

/-- If the cost is differentiable as a function of all entries, its partial derivatives make up the
gradient. -/
theorem isGradient_partials {f : List (List ℝ) → ℝ} {x : List (List ℝ)}
    (hF : DifferentiableAt ℝ (fun e : Fin x.flatten.length → ℝ => f (gdFill x (List.ofFn e))) (fun i => x.flatten.getD i 0)) :
    Spec.IsGradient f x (partials f x) := by
  set N := x.flatten.length with hN
  set F := fun e : Fin N → ℝ => f (gdFill x (List.ofFn e)) with hFdef
  set ex : Fin N → ℝ := fun i => x.flatten.getD i 0 with hex
  have hd := hF.hasFDerivAt
  have hval : ∀ y, SameShape y x → f y = F fun i : Fin N => y.flatten.getD i 0 := fun y hy => by
    rw [hFdef]
    dsimp only
    rw [ofFn_entries (length_flatten_same hy), gdFill_flatten x y hy.symm]
  have hpart : ∀ i : Fin N, deriv (fun u => f (gdFill x (x.flatten.set i u))) (x.flatten.getD i 0) = fderiv ℝ F ex (Pi.single i 1) := fun i => by
    have h1 : ∀ u, x.flatten.set i u = List.ofFn (Function.update ex i u) := fun u => by
      refine List.ext_getElem (by simp [hN]) fun j h1 h2 => ?_
      rw [List.getElem_set, List.getElem_ofFn]
      by_cases hj : (i : Nat) = j
      · rw [if_pos hj]
        have : (⟨j, by simpa using h2⟩ : Fin N) = i := Fin.ext hj.symm
        rw [this, Function.update_self]
      · rw [if_neg hj, Function.update_of_ne (fun h => hj (by rw [← h]))]
        exact (List.getD_eq_getElem _ _ _).symm
    have h2 : (fun u => f (gdFill x (x.flatten.set i u))) = F ∘ Function.update ex i := by
      funext u
      rw [h1 u]
      rfl
    rw [h2]
    refine HasDerivAt.deriv ?_
    have h3 : Function.update ex i (x.flatten.getD i 0) = ex := by
      rw [show x.flatten.getD i 0 = ex i from rfl, Function.update_eq_self]
    refine HasFDerivAt.comp_hasDerivAt _ ?_ (hasDerivAt_update ex i _)
    rw [h3]
    exact hd
  intro ε hε
  have ho := (hasFDerivAt_iff_isLittleO.1 hd).def hε
  obtain ⟨δ, hδ, hball⟩ := Metric.eventually_nhds_iff.1 ho
  refine ⟨δ, hδ, fun y hy hlt => ?_⟩
  set ey : Fin N → ℝ := fun i => y.flatten.getD i 0 with hey
  have hlen := length_flatten_same hy
  have hdiff : (Spec.diff y x).flatten = List.ofFn (ey - ex) := by
    unfold Spec.diff
    rw [gradZipWith_flatten _ _ _ hy]
    refine List.ext_getElem (by simp [hlen, hN]) fun i h1 h2 => ?_
    have h3 : i < x.flatten.length := by rw [List.length_zipWith] at h1; omega
    rw [List.getElem_zipWith, List.getElem_ofFn, Pi.sub_apply]
    exact congrArg₂ (· - ·) (List.getD_eq_getElem _ _ (by omega)).symm (List.getD_eq_getElem _ _ h3).symm
  have hnorm : ‖ey - ex‖ ≤ Spec.norm1 (Spec.diff y x) := by
    rw [norm1_flatten, hdiff]
    refine (pi_norm_le_iff_of_nonneg ?_).2 fun i => ?_
    · refine List.sum_nonneg fun b hb => ?_
      obtain ⟨c, -, rfl⟩ := List.mem_map.1 hb
      exact norm_nonneg _
    · have := length_le_sum (List.ofFn (ey - ex)) i
      rw [List.getD_eq_getElem _ _ (by simp), List.getElem_ofFn] at this
      exact this
  have hpair : Spec.pairing (partials f x) (Spec.diff y x) = fderiv ℝ F ex (ey - ex) := by
    have hs : SameShape (partials f x) (Spec.diff y x) := by
      refine (gdFill_shape x _).trans ?_
      unfold SameShape Spec.diff
      clear hpart hval ho hball hd hdiff hnorm
      clear hF
      have : ∀ (y x : List (List ℝ)), SameShape y x → x.map List.length = (List.zipWith (List.zipWith (· - ·)) y x).map List.length := by
        intro y
        induction y with
        | nil => intro x h; cases x with
          | nil => rfl
          | cons _ _ => simp [SameShape] at h
        | cons u y ih =>
          intro x h
          cases x with
          | nil => simp [SameShape] at h
          | cons v x =>
            have h' : u.length = v.length ∧ SameShape y x := by simpa [SameShape] using h
            simp [← ih x h'.2, h'.1]
      exact this y x hy
    rw [pairing_flatten _ _ hs, hdiff]
    unfold partials
    rw [flatten_gdFill _ _ (by simp)]
    have : List.zipWith (fun u v : ℝ => inner ℝ u v) (List.ofFn fun i : Fin N => deriv (fun u => f (gdFill x (x.flatten.set i u))) (x.flatten.getD i 0))
        (List.ofFn (ey - ex)) = List.ofFn fun i : Fin N => (ey - ex) i * fderiv ℝ F ex (Pi.single i 1) := by
      refine List.ext_getElem (by simp) fun i h1 h2 => ?_
      rw [List.getElem_zipWith, List.getElem_ofFn, List.getElem_ofFn, List.getElem_ofFn, hpart]
      simp [inner]
    rw [this, List.sum_ofFn]
    conv_rhs => rw [← Finset.univ_sum_single (ey - ex), map_sum]
    refine Finset.sum_congr rfl fun i _ => ?_
    rw [show (Pi.single i ((ey - ex) i) : Fin N → ℝ) = (ey - ex) i • Pi.single i 1 from by
      rw [← Pi.single_smul, smul_eq_mul, mul_one], map_smul, smul_eq_mul]
  rw [hval y hy, hval x rfl, hpair]
  have hb := hball (y := ey) (by rw [dist_eq_norm]; exact lt_of_le_of_lt hnorm hlt)
  rw [← Real.norm_eq_abs]
  exact hb.trans (mul_le_mul_of_nonneg_left hnorm hε.le)

end
end Imodal
