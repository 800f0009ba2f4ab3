import Verif.Model.Action
import Verif.Lemmas.Field
/-! Whether a field has an order does not depend on the point; values and Jacobians as
functions. -/
set_option autoImplicit false
namespace Imodal
noncomputable section
variable {d : Nat}

/-- Order `k` of the field is available. -/
def Avail (k : Nat) (f : FieldExpr d) : Prop := ∃ V : Vec d → Tens d (k + 1), ∀ x, f.eval k x = .ok (V x)
/-- Order `k` of the field raises. -/
def Raises (k : Nat) (f : FieldExpr d) : Prop := ∃ e, ∀ x, f.eval k x = .error e

theorem kerRows_uniform {n : Nat} (σ : ℝ) (k : Nat) (e : PyErr) :
    (∃ e', ∀ rows : Fin n → Vec d, kerRows σ k rows e = .error e') ∨
    (∃ K : (Fin n → Vec d) → Fin n → Tens d k, ∀ rows, kerRows σ k rows e = .ok (K rows)) := by
  unfold kerRows
  by_cases h1 : k = 3
  · left; exact ⟨.notImplemented, fun _ => if_pos h1⟩
  · by_cases h2 : 3 < k
    · left; exact ⟨e, fun _ => by rw [if_neg h1, if_pos h2]⟩
    · right; exact ⟨_, fun _ => by rw [if_neg h1, if_neg h2]⟩

theorem field0Torch_uniform {n : Nat} (supp mom : Fin n → Vec d) (σ : ℝ) (k : Nat) :
    (∃ e, ∀ x, field0Torch supp mom σ k x = .error e) ∨
    (∃ V : Vec d → Tens d (k + 1), ∀ x, field0Torch supp mom σ k x = .ok (V x)) := by
  unfold field0Torch
  by_cases h : k = 0
  · right; exact ⟨_, fun x => if_pos h⟩
  · rcases kerRows_uniform (d := d) (n := n) σ k .attribute with ⟨e, he⟩ | ⟨K, hK⟩
    · left; exact ⟨e, fun x => by rw [if_neg h, he]⟩
    · right; exact ⟨_, fun x => by rw [if_neg h, hK]⟩

theorem field0Keops_uniform {n : Nat} (supp mom : Fin n → Vec d) (σ : ℝ) (k : Nat) :
    (∃ e, ∀ x, field0Keops supp mom σ k x = .error e) ∨
    (∃ V : Vec d → Tens d (k + 1), ∀ x, field0Keops supp mom σ k x = .ok (V x)) := by
  unfold field0Keops
  by_cases h : k = 0
  · right; exact ⟨_, fun x => if_pos h⟩
  · by_cases h1 : k = 1
    · right; exact ⟨_, fun x => by rw [if_neg h, dif_pos h1]⟩
    · left; exact ⟨_, fun x => by rw [if_neg h, dif_neg h1]⟩

theorem field0uTorch_uniform {n : Nat} (supp mom dir : Fin n → Vec d) (σ : ℝ) (k : Nat) :
    (∃ e, ∀ x, field0uTorch supp mom dir σ k x = .error e) ∨
    (∃ V : Vec d → Tens d (k + 1), ∀ x, field0uTorch supp mom dir σ k x = .ok (V x)) := by
  cases k with
  | zero => right; exact ⟨_, fun x => field0uTorch_zero supp mom dir σ x⟩
  | succ k => left; exact ⟨_, fun x => field0uTorch_succ supp mom dir σ x k⟩

theorem fieldPmTorch_uniform {n : Nat} (supp : Fin n → Vec d) (P : Fin n → Mat d) (σ : ℝ) (k : Nat) :
    (∃ e, ∀ x, fieldPmTorch supp P σ k x = .error e) ∨
    (∃ V : Vec d → Tens d (k + 1), ∀ x, fieldPmTorch supp P σ k x = .ok (V x)) := by
  unfold fieldPmTorch
  rcases kerRows_uniform (d := d) (n := n) σ (k + 1) .type with ⟨e, he⟩ | ⟨K, hK⟩
  · left; exact ⟨e, fun x => by rw [he]⟩
  · right; exact ⟨_, fun x => by rw [hK]⟩

theorem fieldPmKeops_uniform {n : Nat} (supp : Fin n → Vec d) (P : Fin n → Mat d) (σ : ℝ) (k : Nat) :
    (∃ e, ∀ x, fieldPmKeops supp P σ k x = .error e) ∨
    (∃ V : Vec d → Tens d (k + 1), ∀ x, fieldPmKeops supp P σ k x = .ok (V x)) := by
  unfold fieldPmKeops
  by_cases h : k = 0
  · right; exact ⟨_, fun x => if_pos h⟩
  · by_cases h1 : k = 1
    · right; exact ⟨_, fun x => by rw [if_neg h, dif_pos h1]⟩
    · left; exact ⟨_, fun x => by rw [if_neg h, dif_neg h1]⟩

theorem field1Torch_uniform {n : Nat} (supp : Fin n → Vec d) (m : Fin n → ℝ) (σ : ℝ) (k : Nat) :
    (∃ e, ∀ x, field1Torch supp m σ k x = .error e) ∨
    (∃ V : Vec d → Tens d (k + 1), ∀ x, field1Torch supp m σ k x = .ok (V x)) := by
  cases k with
  | zero => right; exact ⟨_, fun x => field1Torch_zero supp m σ x⟩
  | succ k =>
    unfold field1Torch
    rcases kerRows_uniform (d := d) (n := n) σ (k + 1 + 1) .type with ⟨e, he⟩ | ⟨K, hK⟩
    · left; exact ⟨e, fun x => by rw [if_neg (Nat.succ_ne_zero k), he]⟩
    · right; exact ⟨_, fun x => by rw [if_neg (Nat.succ_ne_zero k), hK]⟩

mutual
theorem eval_uniform (k : Nat) : (f : FieldExpr d) → Raises k f ∨ Avail k f
  | .f0 .torch supp mom σ => field0Torch_uniform supp mom σ k
  | .f0 .keops supp mom σ => field0Keops_uniform supp mom σ k
  | .f0u _ supp mom dir σ => by
    unfold Raises Avail; simp only [FieldExpr.eval]; exact field0uTorch_uniform supp mom dir σ k
  | .fp .torch supp M σ => fieldPmTorch_uniform supp _ σ k
  | .fp .keops supp M σ => fieldPmKeops_uniform supp _ σ k
  | .fm .torch supp M σ => fieldPmTorch_uniform supp _ σ k
  | .fm .keops supp M σ => fieldPmKeops_uniform supp _ σ k
  | .f1 .torch supp m σ => field1Torch_uniform supp m σ k
  | .f1 .keops supp m σ => Or.inl ⟨.notImplemented, fun _ => rfl⟩
  | .affine A x0 u => Or.inr ⟨_, fun _ => rfl⟩
  | .const m => Or.inr ⟨_, fun _ => rfl⟩
  | .null => Or.inr ⟨_, fun _ => rfl⟩
  | .sum fs => evalSum_uniform k fs
theorem evalSum_uniform (k : Nat) : (fs : List (FieldExpr d)) →
    (∃ e, ∀ x, FieldExpr.evalSum k fs x = .error e) ∨
    (∃ V : Vec d → Tens d (k + 1), ∀ x, FieldExpr.evalSum k fs x = .ok (V x))
  | [] => Or.inr ⟨_, fun _ => rfl⟩
  | f :: fs => by
    rcases eval_uniform k f with ⟨e, he⟩ | ⟨V, hV⟩
    · left; exact ⟨e, fun x => by rw [FieldExpr.evalSum, he]⟩
    · rcases evalSum_uniform k fs with ⟨e, he⟩ | ⟨W, hW⟩
      · left; exact ⟨e, fun x => by rw [FieldExpr.evalSum, hV, he]⟩
      · right; exact ⟨_, fun x => by rw [FieldExpr.evalSum, hV, hW]⟩
end

theorem Raises.not_avail {k : Nat} {f : FieldExpr d} (h : Raises k f) : ¬Avail k f := by
  rintro ⟨V, hV⟩
  obtain ⟨e, he⟩ := h
  have := (he fun _ => 0).symm.trans (hV fun _ => 0)
  cases this

/-- The vector `field([x])`, zero if the call raises. -/
def fieldVal (f : FieldExpr d) (x : Vec d) : Vec d := fun b =>
  match f.eval 0 x with
  | .ok t => t fun _ => b
  | .error _ => 0

/-- The matrix `field([x], k=1)`, zero if the call raises. -/
def fieldJac (f : FieldExpr d) (x : Vec d) : Mat d := fun b c =>
  match f.eval 1 x with
  | .ok t => t ![b, c]
  | .error _ => 0

theorem fieldVal_of_eval {f : FieldExpr d} {x : Vec d} {t : Tens d 1} (h : f.eval 0 x = .ok t) :
    fieldVal f x = fun b => t fun _ => b := by funext b; unfold fieldVal; rw [h]

theorem fieldJac_of_eval {f : FieldExpr d} {x : Vec d} {t : Tens d 2} (h : f.eval 1 x = .ok t) :
    fieldJac f x = fun b c => t ![b, c] := by funext b c; unfold fieldJac; rw [h]

theorem Avail.values {f : FieldExpr d} (h : Avail 0 f) {n : Nat} (pts : Fin n → Vec d) :
    f.values pts = .ok fun i => fieldVal f (pts i) := by
  obtain ⟨V, hV⟩ := h
  unfold FieldExpr.values FieldExpr.batch
  rw [hV]
  refine congrArg Except.ok (funext fun i => ?_)
  rw [fieldVal_of_eval (hV (pts i))]
  funext b
  simp only [hV]

theorem Avail.jacobians {f : FieldExpr d} (h : Avail 1 f) {n : Nat} (pts : Fin n → Vec d) :
    f.jacobians pts = .ok fun i => fieldJac f (pts i) := by
  obtain ⟨V, hV⟩ := h
  unfold FieldExpr.jacobians FieldExpr.batch
  rw [hV]
  refine congrArg Except.ok (funext fun i => ?_)
  rw [fieldJac_of_eval (hV (pts i))]
  funext b c
  simp only [hV]

theorem Raises.values {f : FieldExpr d} (h : Raises 0 f) :
    ∃ e, ∀ {n : Nat} (pts : Fin n → Vec d), f.values pts = .error e := by
  obtain ⟨e, he⟩ := h
  refine ⟨e, fun pts => ?_⟩
  unfold FieldExpr.values FieldExpr.batch
  rw [he]

theorem Raises.jacobians {f : FieldExpr d} (h : Raises 1 f) :
    ∃ e, ∀ {n : Nat} (pts : Fin n → Vec d), f.jacobians pts = .error e := by
  obtain ⟨e, he⟩ := h
  refine ⟨e, fun pts => ?_⟩
  unfold FieldExpr.jacobians FieldExpr.batch
  rw [he]

theorem values_ok {f : FieldExpr d} {n : Nat} {pts : Fin n → Vec d} {v : Fin n → Vec d}
    (h : f.values pts = .ok v) : Avail 0 f ∧ v = fun i => fieldVal f (pts i) := by
  rcases eval_uniform 0 f with hr | ha
  · obtain ⟨e, he⟩ := hr.values
    rw [he] at h; cases h
  · rw [ha.values] at h
    exact ⟨ha, (Except.ok.inj h).symm⟩

theorem jacobians_ok {f : FieldExpr d} {n : Nat} {pts : Fin n → Vec d} {J : Fin n → Mat d}
    (h : f.jacobians pts = .ok J) : Avail 1 f ∧ J = fun i => fieldJac f (pts i) := by
  rcases eval_uniform 1 f with hr | ha
  · obtain ⟨e, he⟩ := hr.jacobians
    rw [he] at h; cases h
  · rw [ha.jacobians] at h
    exact ⟨ha, (Except.ok.inj h).symm⟩

/-! ### Sums -/

theorem evalSum_ok_cons {k : Nat} {f : FieldExpr d} {fs : List (FieldExpr d)} {x : Vec d}
    {a b : Tens d (k + 1)} (ha : f.eval k x = .ok a) (hb : FieldExpr.evalSum k fs x = .ok b) :
    FieldExpr.evalSum k (f :: fs) x = .ok fun I => a I + b I := by
  rw [FieldExpr.evalSum, ha, hb]

theorem avail_sum_nil (k : Nat) : Avail k (FieldExpr.sum ([] : List (FieldExpr d))) :=
  ⟨_, fun _ => rfl⟩

theorem avail_sum_cons {k : Nat} {f : FieldExpr d} {fs : List (FieldExpr d)} :
    Avail k (.sum (f :: fs)) ↔ Avail k f ∧ Avail k (.sum fs) := by
  constructor
  · rintro ⟨V, hV⟩
    rcases eval_uniform k f with ⟨e, he⟩ | ha
    · have := hV fun _ => 0
      rw [FieldExpr.eval, FieldExpr.evalSum, he] at this; cases this
    · refine ⟨ha, ?_⟩
      obtain ⟨W, hW⟩ := ha
      rcases eval_uniform k (.sum fs) with ⟨e, he⟩ | hb
      · have := hV fun _ => 0
        have h2 := he fun _ => 0
        rw [FieldExpr.eval] at h2
        rw [FieldExpr.eval, FieldExpr.evalSum, hW, h2] at this; cases this
      · exact hb
  · rintro ⟨⟨V, hV⟩, ⟨W, hW⟩⟩
    refine ⟨fun x I => V x I + W x I, fun x => ?_⟩
    have h2 := hW x
    rw [FieldExpr.eval] at h2
    rw [FieldExpr.eval, evalSum_ok_cons (hV x) h2]

theorem fieldVal_sum_cons {f : FieldExpr d} {fs : List (FieldExpr d)} (h : Avail 0 f) (h' : Avail 0 (.sum fs))
    (x : Vec d) : fieldVal (.sum (f :: fs)) x = fieldVal f x + fieldVal (.sum fs) x := by
  obtain ⟨V, hV⟩ := h
  obtain ⟨W, hW⟩ := h'
  have h2 := hW x
  rw [FieldExpr.eval] at h2
  have h3 : (FieldExpr.sum (f :: fs)).eval 0 x = .ok fun I => V x I + W x I := by
    rw [FieldExpr.eval, evalSum_ok_cons (hV x) h2]
  rw [fieldVal_of_eval h3, fieldVal_of_eval (hV x), fieldVal_of_eval (hW x)]; rfl

theorem fieldJac_sum_cons {f : FieldExpr d} {fs : List (FieldExpr d)} (h : Avail 1 f) (h' : Avail 1 (.sum fs))
    (x : Vec d) : fieldJac (.sum (f :: fs)) x = fieldJac f x + fieldJac (.sum fs) x := by
  obtain ⟨V, hV⟩ := h
  obtain ⟨W, hW⟩ := h'
  have h2 := hW x
  rw [FieldExpr.eval] at h2
  have h3 : (FieldExpr.sum (f :: fs)).eval 1 x = .ok fun I => V x I + W x I := by
    rw [FieldExpr.eval, evalSum_ok_cons (hV x) h2]
  rw [fieldJac_of_eval h3, fieldJac_of_eval (hV x), fieldJac_of_eval (hW x)]; rfl

theorem fieldVal_sum_nil (x : Vec d) : fieldVal (.sum []) x = 0 := rfl
theorem fieldJac_sum_nil (x : Vec d) : fieldJac (.sum []) x = 0 := rfl

end
end Imodal
