import Verif.Lemmas.Field
import Verif.Props.C11
/-!
# C13 Fields superpose

Sums of fields evaluate to the sum of the values of the members in any order and nesting;
kernel fields are linear in their moments. The statements about values speak of calls that
return (exceptions of a member are raised by the sum).
-/
set_option autoImplicit false
namespace Imodal
variable {d n : Nat}

/-- Sum of the values returned by the members, if all of them return. -/
theorem C13_sum_value (k : Nat) (fs : List (FieldExpr d)) (x : Vec d) (ts : List (Tens d (k + 1)))
    (h : List.Forall₂ (fun f t => FieldExpr.eval k f x = .ok t) fs ts) :
    (FieldExpr.sum fs).eval k x = .ok fun I => (ts.map fun t => t I).sum := by
  rw [FieldExpr.eval]
  induction h with
  | nil => rfl
  | cons h _ ih => rw [FieldExpr.evalSum, h, ih]; rfl

/-- Conversely a sum that returns has members that all return. -/
theorem C13_sum_returns (k : Nat) (fs : List (FieldExpr d)) (x : Vec d) (t : Tens d (k + 1))
    (h : (FieldExpr.sum fs).eval k x = .ok t) :
    ∃ ts, List.Forall₂ (fun f t => FieldExpr.eval k f x = .ok t) fs ts ∧
      t = fun I => (ts.map fun t => t I).sum := by
  rw [FieldExpr.eval] at h
  induction fs generalizing t with
  | nil => exact ⟨[], .nil, (Except.ok.inj h).symm⟩
  | cons f fs ih =>
    obtain ⟨a, b, ha, hb, rfl⟩ := evalSum_cons_ok h
    obtain ⟨ts, hts, rfl⟩ := ih b hb
    exact ⟨a :: ts, .cons ha hts, rfl⟩

/-- The order of the members does not matter. -/
theorem C13_order (k : Nat) (fs gs : List (FieldExpr d)) (hp : fs.Perm gs) (x : Vec d)
    (t : Tens d (k + 1)) :
    (FieldExpr.sum fs).eval k x = .ok t ↔ (FieldExpr.sum gs).eval k x = .ok t := by
  have key : ∀ {fs gs : List (FieldExpr d)}, fs.Perm gs → ∀ t : Tens d (k + 1),
      FieldExpr.evalSum k fs x = .ok t → FieldExpr.evalSum k gs x = .ok t := by
    intro fs gs hp
    induction hp with
    | nil => exact fun t h => h
    | cons f _ ih =>
      intro t h
      obtain ⟨a, b, ha, hb, rfl⟩ := evalSum_cons_ok h
      rw [FieldExpr.evalSum, ha, ih b hb]
    | swap f g l =>
      intro t h
      obtain ⟨a, b, ha, hb, rfl⟩ := evalSum_cons_ok h
      obtain ⟨a', b', ha', hb', rfl⟩ := evalSum_cons_ok hb
      rw [FieldExpr.evalSum, ha', FieldExpr.evalSum, ha, hb']
      refine congrArg Except.ok (funext fun I => ?_)
      ring
    | trans _ _ ih1 ih2 => exact fun t h => ih2 t (ih1 t h)
  rw [FieldExpr.eval, FieldExpr.eval]
  exact ⟨key hp t, key hp.symm t⟩

theorem forall₂_split {α β : Type} {R : α → β → Prop} : ∀ {a b : List α} {ts : List β},
    List.Forall₂ R (a ++ b) ts → ∃ ta tb, List.Forall₂ R a ta ∧ List.Forall₂ R b tb ∧ ts = ta ++ tb
  | [], _, ts, h => ⟨[], ts, .nil, h, rfl⟩
  | x :: a, b, _, .cons hx h => by
    obtain ⟨ta, tb, h1, h2, rfl⟩ := forall₂_split h
    exact ⟨_ :: ta, tb, .cons hx h1, h2, rfl⟩

theorem forall₂_join {α β : Type} {R : α → β → Prop} : ∀ {a b : List α} {ta tb : List β},
    List.Forall₂ R a ta → List.Forall₂ R b tb → List.Forall₂ R (a ++ b) (ta ++ tb)
  | _, _, _, _, .nil, h => h
  | _, _, _, _, .cons hx h1, h => .cons hx (forall₂_join h1 h)

/-- Nor does their nesting: a sum inside a sum can be spliced in. -/
theorem C13_nesting (k : Nat) (fs gs hs : List (FieldExpr d)) (x : Vec d) (t : Tens d (k + 1)) :
    (FieldExpr.sum (fs ++ .sum gs :: hs)).eval k x = .ok t ↔
    (FieldExpr.sum (fs ++ gs ++ hs)).eval k x = .ok t := by
  constructor
  · intro h
    obtain ⟨ts, h1, rfl⟩ := C13_sum_returns k _ x t h
    obtain ⟨ta, tb, ha, hb, rfl⟩ := forall₂_split h1
    cases hb with
    | cons hg hh =>
      obtain ⟨tg, hg', rfl⟩ := C13_sum_returns k gs x _ hg
      have := C13_sum_value k (fs ++ gs ++ hs) x _ (forall₂_join (forall₂_join ha hg') hh)
      rw [this]
      simp [add_assoc]
  · intro h
    obtain ⟨ts, h1, rfl⟩ := C13_sum_returns k _ x t h
    rw [List.append_assoc] at h1
    obtain ⟨ta, tb, ha, hb, rfl⟩ := forall₂_split h1
    obtain ⟨tg, th, hg, hh, rfl⟩ := forall₂_split hb
    have := C13_sum_value k (fs ++ .sum gs :: hs) x _ (forall₂_join ha (.cons (C13_sum_value k gs x tg hg) hh))
    rw [this]
    simp

/-- Constructing a sum of no fields fails the assertion; any other list is accepted. -/
theorem C13_constructor (fs : List (FieldExpr d)) :
    (fs = [] → mkSumField fs = .error .assertion) ∧ (fs ≠ [] → mkSumField fs = .ok (.sum fs)) := by
  constructor
  · rintro rfl; rfl
  · intro h; cases fs with
    | nil => exact absurd rfl h
    | cons f fs => rfl

/-! ### Linearity in the moments -/

theorem field0Torch_linear (supp m m' : Fin n → Vec d) (a : ℝ) (σ : ℝ) (k : Nat) (x : Vec d)
    (t t' : Tens d (k + 1)) (h : field0Torch supp m σ k x = .ok t) (h' : field0Torch supp m' σ k x = .ok t') :
    field0Torch supp (fun j b => m j b + a * m' j b) σ k x = .ok fun I => t I + a * t' I := by
  unfold field0Torch at *
  by_cases hk : k = 0
  · rw [if_pos hk] at *
    rw [← Except.ok.inj h, ← Except.ok.inj h']
    refine congrArg Except.ok (funext fun I => ?_)
    beta_reduce
    rw [Finset.mul_sum, ← Finset.sum_add_distrib]
    exact Finset.sum_congr rfl fun j _ => by ring
  · rw [if_neg hk] at *
    cases hker : kerRows σ k (fun j => relDiff x (supp j)) .attribute with
    | error e => rw [hker] at h; cases h
    | ok ker =>
      rw [hker] at h h'
      rw [← Except.ok.inj h, ← Except.ok.inj h']
      refine congrArg Except.ok (funext fun I => ?_)
      beta_reduce
      simp only [Finset.mul_sum, ← Finset.sum_add_distrib]
      exact Finset.sum_congr rfl fun _ _ => Finset.sum_congr rfl fun j _ => by ring

theorem fieldPmTorch_linear (supp : Fin n → Vec d) (M M' : Fin n → Mat d) (a : ℝ) (σ : ℝ) (k : Nat) (x : Vec d)
    (t t' : Tens d (k + 1)) (h : fieldPmTorch supp M σ k x = .ok t) (h' : fieldPmTorch supp M' σ k x = .ok t') :
    fieldPmTorch supp (fun j b c => M j b c + a * M' j b c) σ k x = .ok fun I => t I + a * t' I := by
  unfold fieldPmTorch at *
  cases hker : kerRows σ (k + 1) (fun j => relDiff x (supp j)) .type with
  | error e => rw [hker] at h; cases h
  | ok ker =>
    rw [hker] at h h'
    rw [← Except.ok.inj h, ← Except.ok.inj h']
    refine congrArg Except.ok (funext fun I => ?_)
    beta_reduce
    simp only [Finset.mul_sum, ← Finset.sum_add_distrib]
    exact Finset.sum_congr rfl fun _ _ => Finset.sum_congr rfl fun j _ => Finset.sum_congr rfl fun c _ => by ring

/-- The order 0 field is additive and homogeneous in its moments, at every order at which it
returns, on both backends. -/
theorem C13_linear_field0 (r : Reduction) (supp m m' : Fin n → Vec d) (a σ : ℝ) (k : Nat) (x : Vec d)
    (t t' : Tens d (k + 1)) (h : (FieldExpr.f0 r supp m σ).eval k x = .ok t)
    (h' : (FieldExpr.f0 r supp m' σ).eval k x = .ok t') :
    (FieldExpr.f0 r supp (fun j b => m j b + a * m' j b) σ).eval k x = .ok fun I => t I + a * t' I := by
  cases r <;> simp only [FieldExpr.eval] at *
  · exact field0Torch_linear supp m m' a σ k x t t' h h'
  · rcases k with _ | _ | k
    · rw [field0Keops_zero] at *; exact field0Torch_linear supp m m' a σ 0 x t t' h h'
    · exact (field0Keops_one supp _ σ x).trans (field0Torch_linear supp m m' a σ 1 x t t'
        ((field0Keops_one supp m σ x).symm.trans h) ((field0Keops_one supp m' σ x).symm.trans h'))
    · cases (field0Keops_big supp m σ x k).symm.trans h

theorem fieldPmKeops_linear (supp : Fin n → Vec d) (M M' : Fin n → Mat d) (a : ℝ) (σ : ℝ) (k : Nat) (x : Vec d)
    (t t' : Tens d (k + 1)) (h : fieldPmKeops supp M σ k x = .ok t) (h' : fieldPmKeops supp M' σ k x = .ok t') :
    fieldPmKeops supp (fun j b c => M j b c + a * M' j b c) σ k x = .ok fun I => t I + a * t' I := by
  rcases k with _ | _ | k
  · exact (fieldPmKeops_zero supp _ σ x).trans (fieldPmTorch_linear supp M M' a σ 0 x t t'
      ((fieldPmKeops_zero supp M σ x).symm.trans h) ((fieldPmKeops_zero supp M' σ x).symm.trans h'))
  · exact (fieldPmKeops_one supp _ σ x).trans (fieldPmTorch_linear supp M M' a σ 1 x t t'
      ((fieldPmKeops_one supp M σ x).symm.trans h) ((fieldPmKeops_one supp M' σ x).symm.trans h'))
  · cases (fieldPmKeops_big supp M σ x k).symm.trans h

/-- The symmetric field. -/
theorem C13_linear_fieldP (r : Reduction) (supp : Fin n → Vec d) (M M' : Fin n → Mat d) (a σ : ℝ) (k : Nat)
    (x : Vec d) (t t' : Tens d (k + 1)) (h : (FieldExpr.fp r supp M σ).eval k x = .ok t)
    (h' : (FieldExpr.fp r supp M' σ).eval k x = .ok t') :
    (FieldExpr.fp r supp (fun j b c => M j b c + a * M' j b c) σ).eval k x = .ok fun I => t I + a * t' I := by
  have e : (fun j => symPart fun b c => M j b c + a * M' j b c)
      = fun j b c => symPart (M j) b c + a * symPart (M' j) b c := by
    funext j b c; unfold symPart; ring
  cases r <;> simp only [FieldExpr.eval, e] at *
  · exact fieldPmTorch_linear supp _ _ a σ k x t t' h h'
  · exact fieldPmKeops_linear supp _ _ a σ k x t t' h h'

/-- The skew field. -/
theorem C13_linear_fieldM (r : Reduction) (supp : Fin n → Vec d) (M M' : Fin n → Mat d) (a σ : ℝ) (k : Nat)
    (x : Vec d) (t t' : Tens d (k + 1)) (h : (FieldExpr.fm r supp M σ).eval k x = .ok t)
    (h' : (FieldExpr.fm r supp M' σ).eval k x = .ok t') :
    (FieldExpr.fm r supp (fun j b c => M j b c + a * M' j b c) σ).eval k x = .ok fun I => t I + a * t' I := by
  have e : (fun j => skewPart fun b c => M j b c + a * M' j b c)
      = fun j b c => skewPart (M j) b c + a * skewPart (M' j) b c := by
    funext j b c; unfold skewPart; ring
  cases r <;> simp only [FieldExpr.eval, e] at *
  · exact fieldPmTorch_linear supp _ _ a σ k x t t' h h'
  · exact fieldPmKeops_linear supp _ _ a σ k x t t' h h'

/-- The oriented field. -/
theorem C13_linear_field0u (r : Reduction) (supp m m' dir : Fin n → Vec d) (a σ : ℝ) (k : Nat) (x : Vec d)
    (t t' : Tens d (k + 1)) (h : (FieldExpr.f0u r supp m dir σ).eval k x = .ok t)
    (h' : (FieldExpr.f0u r supp m' dir σ).eval k x = .ok t') :
    (FieldExpr.f0u r supp (fun j b => m j b + a * m' j b) dir σ).eval k x = .ok fun I => t I + a * t' I := by
  simp only [FieldExpr.eval] at *
  rcases k with _ | k
  · rw [field0uTorch_zero] at *
    rw [← Except.ok.inj h, ← Except.ok.inj h']
    refine congrArg Except.ok (funext fun I => ?_)
    beta_reduce
    rw [Finset.mul_sum, ← Finset.sum_add_distrib]
    exact Finset.sum_congr rfl fun j _ => by ring
  · cases (field0uTorch_succ supp m dir σ x k).symm.trans h

/-- The gradient field. -/
theorem C13_linear_field1 (r : Reduction) (supp : Fin n → Vec d) (m m' : Fin n → ℝ) (a σ : ℝ) (k : Nat) (x : Vec d)
    (t t' : Tens d (k + 1)) (h : (FieldExpr.f1 r supp m σ).eval k x = .ok t)
    (h' : (FieldExpr.f1 r supp m' σ).eval k x = .ok t') :
    (FieldExpr.f1 r supp (fun j => m j + a * m' j) σ).eval k x = .ok fun I => t I + a * t' I := by
  cases r <;> simp only [FieldExpr.eval] at *
  · rcases k with _ | _ | k
    · rw [field1Torch_zero] at *
      rw [← Except.ok.inj h, ← Except.ok.inj h']
      refine congrArg Except.ok (funext fun I => ?_)
      beta_reduce
      rw [Finset.mul_sum, ← Finset.sum_add_distrib]
      exact Finset.sum_congr rfl fun j _ => by ring
    · rw [zero_add] at *; rw [field1Torch_one] at *
      rw [← Except.ok.inj h, ← Except.ok.inj h']
      refine congrArg Except.ok (funext fun I => ?_)
      beta_reduce
      rw [Finset.mul_sum, ← Finset.sum_add_distrib]
      exact Finset.sum_congr rfl fun j _ => by ring
    · obtain ⟨e, he⟩ := field1Torch_big supp m σ x k
      cases he.symm.trans h
  · cases h

/-- With zero moments a kernel field is the zero field: every call that returns gives zeros. -/
theorem C13_zero_moments (r : Reduction) (supp dir : Fin n → Vec d) (σ : ℝ) (k : Nat) (x : Vec d) :
    (∀ t, (FieldExpr.f0 r supp (fun _ _ => 0) σ).eval k x = .ok t → t = fun _ => 0) ∧
    (∀ t, (FieldExpr.f0u r supp (fun _ _ => 0) dir σ).eval k x = .ok t → t = fun _ => 0) ∧
    (∀ t, (FieldExpr.fp r supp (fun _ _ _ => 0) σ).eval k x = .ok t → t = fun _ => 0) ∧
    (∀ t, (FieldExpr.fm r supp (fun _ _ _ => 0) σ).eval k x = .ok t → t = fun _ => 0) ∧
    (∀ t, (FieldExpr.f1 r supp (fun _ => 0) σ).eval k x = .ok t → t = fun _ => 0) := by
  refine ⟨fun t h => ?_, fun t h => ?_, fun t h => ?_, fun t h => ?_, fun t h => ?_⟩
  · have h2 := C13_linear_field0 r supp (fun _ _ => 0) (fun _ _ => 0) (-1) σ k x t t h h
    simp only [mul_zero, add_zero] at h2
    have := Except.ok.inj (h.symm.trans h2)
    funext I; have := congrFun this I; linarith
  · have h2 := C13_linear_field0u r supp (fun _ _ => 0) (fun _ _ => 0) dir (-1) σ k x t t h h
    simp only [mul_zero, add_zero] at h2
    have := Except.ok.inj (h.symm.trans h2)
    funext I; have := congrFun this I; linarith
  · have h2 := C13_linear_fieldP r supp (fun _ _ _ => 0) (fun _ _ _ => 0) (-1) σ k x t t h h
    simp only [mul_zero, add_zero] at h2
    have := Except.ok.inj (h.symm.trans h2)
    funext I; have := congrFun this I; linarith
  · have h2 := C13_linear_fieldM r supp (fun _ _ _ => 0) (fun _ _ _ => 0) (-1) σ k x t t h h
    simp only [mul_zero, add_zero] at h2
    have := Except.ok.inj (h.symm.trans h2)
    funext I; have := congrFun this I; linarith
  · have h2 := C13_linear_field1 r supp (fun _ => 0) (fun _ => 0) (-1) σ k x t t h h
    simp only [mul_zero, add_zero] at h2
    have := Except.ok.inj (h.symm.trans h2)
    funext I; have := congrFun this I; linarith

-- a sum that returns: the hypotheses above can be met
example (s m x : Vec 2) : ∃ t, (FieldExpr.sum [.f0 .torch (fun _ : Fin 1 => s) (fun _ => m) 2,
    .sum [.const m, .null]]).eval 1 x = .ok t := by
  obtain ⟨t, ht⟩ : ∃ t, (FieldExpr.f0 .torch (fun _ : Fin 1 => s) (fun _ => m) 2).eval 1 x = .ok t :=
    ⟨_, by rw [FieldExpr.eval]; exact field0Torch_one _ _ 2 x⟩
  exact ⟨_, C13_sum_value 1 _ x [t, _] (.cons ht (.cons
    (C13_sum_value 1 _ x [_, _] (.cons rfl (.cons rfl .nil))) .nil))⟩

end Imodal
