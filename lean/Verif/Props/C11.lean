import Verif.Lemmas.Field
import Mathlib.Analysis.Calculus.Deriv.Pi
import Mathlib.Analysis.Calculus.Deriv.Comp
/-!
# C11 Fields called with k=1 return the Jacobian of the field

`f.eval k x` is the row of `field(points, k)` at the point `x`. The main theorem covers all
orders at once: whenever the call of order `k` and the call of order `k+1` succeed, the last
index of the second lists the partial derivatives of the first (Fréchet). `k = 0` is the
property as listed.
-/
set_option autoImplicit false
namespace Imodal
open Spec
variable {d : Nat}

theorem evalSum_cons_ok {k : Nat} {f : FieldExpr d} {fs : List (FieldExpr d)} {x : Vec d}
    {t : Tens d (k + 1)} (h : FieldExpr.evalSum k (f :: fs) x = .ok t) :
    ∃ a b, FieldExpr.eval k f x = .ok a ∧ FieldExpr.evalSum k fs x = .ok b ∧
      t = fun I => a I + b I := by
  rw [FieldExpr.evalSum] at h
  cases ha : FieldExpr.eval k f x with
  | error e => rw [ha] at h; cases h
  | ok a =>
    cases hb : FieldExpr.evalSum k fs x with
    | error e => rw [ha, hb] at h; cases h
    | ok b => rw [ha, hb] at h; exact ⟨a, b, rfl, rfl, (Except.ok.inj h).symm⟩

/-- The statement for one evaluation function. -/
def DerivesTo (ev : (k : Nat) → Vec d → Py (Tens d (k + 1))) : Prop :=
  ∀ (k : Nat) (V : Vec d → Tens d (k + 1)), (∀ y, ev k y = .ok (V y)) →
    ∀ (x : Vec d) (W : Tens d (k + 2)), ev (k + 1) x = .ok W →
      ∀ I : Fin (k + 1) → Fin d, HasGradient (fun y => V y I) (fun c => W (Fin.snoc I c)) x

/-- A derivation step between closed forms. -/
theorem derivesTo_step {k : Nat} {ev : (k : Nat) → Vec d → Py (Tens d (k + 1))}
    {V V' : Vec d → Tens d (k + 1)} (hV : ∀ y, ev k y = .ok (V y)) (hV' : ∀ y, ev k y = .ok (V' y))
    {x : Vec d} {W W' : Tens d (k + 2)} (hW : ev (k + 1) x = .ok W) (hW' : ev (k + 1) x = .ok W')
    {I : Fin (k + 1) → Fin d} (h : HasGradient (fun y => V' y I) (fun c => W' (Fin.snoc I c)) x) :
    HasGradient (fun y => V y I) (fun c => W (Fin.snoc I c)) x := by
  have e1 : V = V' := funext fun y => Except.ok.inj ((hV y).symm.trans (hV' y))
  have e2 : W = W' := Except.ok.inj (hW.symm.trans hW')
  subst e1; subst e2; exact h

theorem field0Torch_derives {n : Nat} (supp mom : Fin n → Vec d) (σ : ℝ) :
    DerivesTo fun k x => field0Torch supp mom σ k x := by
  intro k V hV x W hW I
  rcases k with _ | _ | k
  · refine derivesTo_step hV (fun y => field0Torch_zero supp mom σ y) hW (field0Torch_one supp mom σ x) ?_
    refine HasGradient.sum fun j _ => HasGradient.mul_const ?_ _
    simp only [← gauss0_relDiff]
    exact (hasGradient_gauss σ _).shift
  · refine derivesTo_step hV (fun y => field0Torch_one supp mom σ y) hW (field0Torch_two supp mom σ x) ?_
    exact HasGradient.sum fun j _ => HasGradient.mul_const (hasGradient_g1 σ _ _).shift _
  · obtain ⟨e, he⟩ := field0Torch_big supp mom σ x k
    have := he.symm.trans hW
    cases this

theorem fieldPmTorch_derives {n : Nat} (supp : Fin n → Vec d) (P : Fin n → Mat d) (σ : ℝ) :
    DerivesTo fun k x => fieldPmTorch supp P σ k x := by
  intro k V hV x W hW I
  rcases k with _ | k
  · refine derivesTo_step hV (fun y => fieldPmTorch_zero supp P σ y) hW (fieldPmTorch_one supp P σ x) ?_
    exact HasGradient.sum fun j _ => HasGradient.sum fun c _ =>
      HasGradient.mul_const (hasGradient_g1 σ _ c).shift.neg _
  · obtain ⟨e, he⟩ := fieldPmTorch_big supp P σ x k
    have := he.symm.trans hW
    cases this

theorem field1Torch_derives {n : Nat} (supp : Fin n → Vec d) (m : Fin n → ℝ) (σ : ℝ) :
    DerivesTo fun k x => field1Torch supp m σ k x := by
  intro k V hV x W hW I
  rcases k with _ | k
  · refine derivesTo_step hV (fun y => field1Torch_zero supp m σ y) hW (field1Torch_one supp m σ x) ?_
    exact HasGradient.sum fun j _ => HasGradient.mul_const (hasGradient_g1 σ _ _).shift' _
  · obtain ⟨e, he⟩ := field1Torch_big supp m σ x k
    have := he.symm.trans hW
    cases this

theorem field0Keops_derives {n : Nat} (supp mom : Fin n → Vec d) (σ : ℝ) :
    DerivesTo fun k x => field0Keops supp mom σ k x := by
  intro k V hV x W hW I
  rcases k with _ | k
  · exact field0Torch_derives supp mom σ 0 V (fun y => (field0Keops_zero supp mom σ y).symm.trans (hV y))
      x W ((field0Keops_one supp mom σ x).symm.trans hW) I
  · have := (field0Keops_big supp mom σ x k).symm.trans hW
    cases this

theorem fieldPmKeops_derives {n : Nat} (supp : Fin n → Vec d) (P : Fin n → Mat d) (σ : ℝ) :
    DerivesTo fun k x => fieldPmKeops supp P σ k x := by
  intro k V hV x W hW I
  rcases k with _ | k
  · exact fieldPmTorch_derives supp P σ 0 V (fun y => (fieldPmKeops_zero supp P σ y).symm.trans (hV y))
      x W ((fieldPmKeops_one supp P σ x).symm.trans hW) I
  · have := (fieldPmKeops_big supp P σ x k).symm.trans hW
    cases this

theorem field0u_derives {n : Nat} (supp mom dir : Fin n → Vec d) (σ : ℝ) :
    DerivesTo fun k x => field0uTorch supp mom dir σ k x := by
  intro k V _ x W hW I
  have := (field0uTorch_succ supp mom dir σ x k).symm.trans hW
  cases this

theorem fieldAffine_derives (A : Mat d) (x0 u : Vec d) :
    DerivesTo fun k x => .ok (fieldAffine A x0 u k x) := by
  intro k V hV x W hW I
  have e1 : V = fun y => fieldAffine A x0 u k y := funext fun y => (Except.ok.inj (hV y)).symm
  have e2 := Except.ok.inj hW
  subst e1; subst e2
  rcases k with _ | _ | k
  · show HasGradient (fun y => (∑ c, (y c - x0 c) * A (I 0) c) + u (I 0)) (fun c => A (I 0) c) x
    have h : HasGradient (fun y : Vec d => ∑ c, (y c - x0 c) * A (I 0) c)
        (fun c' => ∑ c, (if c = c' then 1 else 0) * A (I 0) c) x := by
      refine HasGradient.sum fun c _ => HasGradient.mul_const ?_ _
      have := (hasGradient_coord c x).add (hasGradient_const (-x0 c) x)
      simpa [sub_eq_add_neg] using this
    have h2 := h.add (hasGradient_const (u (I 0)) x)
    simpa using h2
  · have e1 : (fun y => fieldAffine A x0 u (0 + 1) y I) = fun _ => A (I 0) (I 1) := rfl
    have e2 : (fun c => fieldAffine A x0 u (0 + 1 + 1) x (Fin.snoc I c)) = fun _ => 0 := rfl
    rw [e1, e2]
    exact hasGradient_const _ _
  · have e1 : (fun y => fieldAffine A x0 u (k + 1 + 1) y I) = fun _ => 0 := by
      funext y; unfold fieldAffine; rw [if_neg (by omega), dif_neg (by omega)]
    have e2 : (fun c => fieldAffine A x0 u (k + 1 + 1 + 1) x (Fin.snoc I c)) = fun _ => 0 := by
      funext y; unfold fieldAffine; rw [if_neg (by omega), dif_neg (by omega)]
    rw [e1, e2]
    exact hasGradient_const _ _

theorem fieldConst_derives (m : Vec d) : DerivesTo fun k x => .ok (fieldConst m k x) := by
  intro k V hV x W hW I
  have e1 : V = fun y => fieldConst m k y := funext fun y => (Except.ok.inj (hV y)).symm
  have e2 := Except.ok.inj hW
  subst e1; subst e2
  have e2 : (fun c => fieldConst m (k + 1) x (Fin.snoc I c)) = fun _ => 0 := by
    funext y; unfold fieldConst; rw [if_neg (by omega)]
  rw [e2]
  have e1 : (fun y => fieldConst m k y I) = fun _ => fieldConst m k x I := rfl
  rw [e1]
  exact hasGradient_const _ _

mutual
theorem fieldExpr_derives : (f : FieldExpr d) → DerivesTo fun k x => FieldExpr.eval k f x
  | .f0 .torch supp mom σ => by simpa only [FieldExpr.eval] using field0Torch_derives supp mom σ
  | .f0 .keops supp mom σ => by simpa only [FieldExpr.eval] using field0Keops_derives supp mom σ
  | .f0u _ supp mom dir σ => by simpa only [FieldExpr.eval] using field0u_derives supp mom dir σ
  | .fp .torch supp mom σ => by simpa only [FieldExpr.eval] using fieldPmTorch_derives supp _ σ
  | .fp .keops supp mom σ => by simpa only [FieldExpr.eval] using fieldPmKeops_derives supp _ σ
  | .fm .torch supp mom σ => by simpa only [FieldExpr.eval] using fieldPmTorch_derives supp _ σ
  | .fm .keops supp mom σ => by simpa only [FieldExpr.eval] using fieldPmKeops_derives supp _ σ
  | .f1 .torch supp mom σ => by simpa only [FieldExpr.eval] using field1Torch_derives supp mom σ
  | .f1 .keops supp mom σ => by
    intro k V hV x W hW I
    simp [FieldExpr.eval] at hW
  | .affine A x0 u => by simpa only [FieldExpr.eval] using fieldAffine_derives A x0 u
  | .const m => by simpa only [FieldExpr.eval] using fieldConst_derives m
  | .null => by
    intro k V hV x W hW I
    simp only [FieldExpr.eval] at hV hW
    have e1 : V = fun _ _ => 0 := funext fun y => (Except.ok.inj (hV y)).symm
    have e2 := Except.ok.inj hW
    subst e1; subst e2
    exact hasGradient_const _ _
  | .sum fs => by simpa only [FieldExpr.eval] using fieldList_derives fs
theorem fieldList_derives : (fs : List (FieldExpr d)) → DerivesTo fun k x => FieldExpr.evalSum k fs x
  | [] => by
    intro k V hV x W hW I
    simp only [FieldExpr.evalSum] at hV hW
    have e1 : V = fun _ _ => 0 := funext fun y => (Except.ok.inj (hV y)).symm
    have e2 := Except.ok.inj hW
    subst e1; subst e2
    exact hasGradient_const _ _
  | f :: fs => by
    intro k V hV x W hW I
    have hs := fun y => evalSum_cons_ok (hV y)
    choose a b ha hb hab using hs
    obtain ⟨a', b', ha', hb', hab'⟩ := evalSum_cons_ok hW
    have h1 := fieldExpr_derives f k a ha x a' ha' I
    have h2 := fieldList_derives fs k b hb x b' hb' I
    have h3 := h1.add h2
    subst hab'
    simp only [hab]
    exact h3
end

/-- Every order `k+1` call that succeeds returns the partial derivatives of the order `k`
call, for every field of the library and all sums of them. -/
theorem C11_derivative (f : FieldExpr d) (k : Nat) (V : Vec d → Tens d (k + 1))
    (hV : ∀ y, f.eval k y = .ok (V y)) (x : Vec d) (W : Tens d (k + 2))
    (hW : f.eval (k + 1) x = .ok W) (I : Fin (k + 1) → Fin d) :
    HasGradient (fun y => V y I) (fun c => W (Fin.snoc I c)) x :=
  fieldExpr_derives f k V hV x W hW I

/-- The property as listed: `field(points, k=1)[n, i, j]` is the partial derivative of
component `i` along coordinate `j`. -/
theorem C11_jacobian (f : FieldExpr d) (v : Vec d → Vec d)
    (hv : ∀ y, f.eval 0 y = .ok fun I => v y (I 0)) (x : Vec d) (J : Mat d)
    (hJ : f.eval 1 x = .ok fun I => J (I 0) (I 1)) (i : Fin d) :
    HasGradient (fun y => v y i) (fun j => J i j) x := by
  have := C11_derivative f 0 (fun y I => v y (I 0)) hv x (fun I => J (I 0) (I 1)) hJ (fun _ => i)
  exact this

/-- Entry `[i, j]` of the Jacobian is the one-variable derivative along coordinate `j`. -/
theorem C11_partial_derivative (f : FieldExpr d) (v : Vec d → Vec d)
    (hv : ∀ y, f.eval 0 y = .ok fun I => v y (I 0)) (x : Vec d) (J : Mat d)
    (hJ : f.eval 1 x = .ok fun I => J (I 0) (I 1)) (i j : Fin d) :
    HasDerivAt (fun t : ℝ => v (Function.update x j t) i) (J i j) (x j) := by
  have h := C11_jacobian f v hv x J hJ i
  unfold HasGradient at h
  have hu := hasDerivAt_update x j (x j)
  have h' : HasFDerivAt (fun y => v y i)
      (∑ c, J i c • (ContinuousLinearMap.proj c : (Fin d → ℝ) →L[ℝ] ℝ)) (Function.update x j (x j)) := by
    rw [Function.update_eq_self]; exact h
  have h2 := HasFDerivAt.comp_hasDerivAt (x j) h' hu
  have e : (∑ c, J i c • (ContinuousLinearMap.proj c : (Fin d → ℝ) →L[ℝ] ℝ)) (Pi.single j 1) = J i j := by
    simp [ContinuousLinearMap.sum_apply, Pi.single_apply]
  rw [e] at h2
  exact h2

/-- Values (order 0) of every field are available on the torch backend, and every field of
the library apart from the oriented one has its Jacobian there; the oriented field raises
for every order above 0. -/
theorem C11_availability {n : Nat} (supp mom dir : Fin n → Vec d) (M : Fin n → Mat d) (m : Fin n → ℝ)
    (A : Mat d) (x0 u : Vec d) (σ : ℝ) (x : Vec d) (k : Nat) :
    (∃ t, (FieldExpr.f0 .torch supp mom σ).eval 1 x = .ok t) ∧
    (∃ t, (FieldExpr.fp .torch supp M σ).eval 1 x = .ok t) ∧
    (∃ t, (FieldExpr.fm .torch supp M σ).eval 1 x = .ok t) ∧
    (∃ t, (FieldExpr.f1 .torch supp m σ).eval 1 x = .ok t) ∧
    (∃ t, (FieldExpr.affine A x0 u).eval k x = .ok t) ∧
    (∃ t, (FieldExpr.const u).eval k x = .ok t) ∧
    (∃ t, (FieldExpr.null (d := d)).eval k x = .ok t) ∧
    (∃ t, (FieldExpr.f0u .torch supp mom dir σ).eval 0 x = .ok t) ∧
    (∀ r, (FieldExpr.f0u r supp mom dir σ).eval (k + 1) x = .error .notImplemented) := by
  simp only [FieldExpr.eval]
  refine ⟨⟨_, field0Torch_one supp mom σ x⟩, ⟨_, fieldPmTorch_one supp _ σ x⟩,
    ⟨_, fieldPmTorch_one supp _ σ x⟩, ⟨_, field1Torch_one supp m σ x⟩, ⟨_, rfl⟩, ⟨_, rfl⟩, ⟨_, rfl⟩,
    ⟨_, field0uTorch_zero supp mom dir σ x⟩, fun _ => field0uTorch_succ supp mom dir σ x k⟩

-- a case with all hypotheses of `C11_jacobian` met: a single-point order 0 field
example (s m x : Vec 2) (σ : ℝ) :
    ∃ (v : Vec 2 → Vec 2) (J : Mat 2),
      (∀ y, (FieldExpr.f0 .torch (fun _ : Fin 1 => s) (fun _ => m) σ).eval 0 y = .ok fun I => v y (I 0)) ∧
      (FieldExpr.f0 .torch (fun _ : Fin 1 => s) (fun _ => m) σ).eval 1 x = .ok fun I => J (I 0) (I 1) :=
  ⟨fun y b => ∑ _j : Fin 1, kXY σ y s * m b, fun b c => ∑ _j : Fin 1, g1 σ (relDiff x s) c * m b,
    fun y => by rw [FieldExpr.eval]; exact field0Torch_zero _ _ σ y,
    by rw [FieldExpr.eval]; exact field0Torch_one _ _ σ x⟩

end Imodal
