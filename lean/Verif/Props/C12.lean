import Verif.Lemmas.Field
import Verif.Props.C11
/-!
# C12 The two compute backends define the same field

Exact real arithmetic; the KeOps formulas are read with the documented meaning of their
operations. `sigma ≠ 0` is required (the code divides by it).
-/
set_option autoImplicit false
namespace Imodal
variable {d : Nat}

/-- The two implementations of the order 0 field agree for k = 0 and k = 1. -/
theorem C12_field0 {n : Nat} (supp mom : Fin n → Vec d) {σ : ℝ} (_hσ : σ ≠ 0) (x : Vec d) :
    (FieldExpr.f0 .keops supp mom σ).eval 0 x = (FieldExpr.f0 .torch supp mom σ).eval 0 x ∧
    (FieldExpr.f0 .keops supp mom σ).eval 1 x = (FieldExpr.f0 .torch supp mom σ).eval 1 x ∧
    ∃ t t', (FieldExpr.f0 .torch supp mom σ).eval 0 x = .ok t ∧
      (FieldExpr.f0 .torch supp mom σ).eval 1 x = .ok t' := by
  simp only [FieldExpr.eval]
  exact ⟨field0Keops_zero supp mom σ x, field0Keops_one supp mom σ x,
    _, _, field0Torch_zero supp mom σ x, field0Torch_one supp mom σ x⟩

/-- So do those of the symmetric field. -/
theorem C12_fieldP {n : Nat} (supp : Fin n → Vec d) (M : Fin n → Mat d) {σ : ℝ} (_hσ : σ ≠ 0) (x : Vec d) :
    (FieldExpr.fp .keops supp M σ).eval 0 x = (FieldExpr.fp .torch supp M σ).eval 0 x ∧
    (FieldExpr.fp .keops supp M σ).eval 1 x = (FieldExpr.fp .torch supp M σ).eval 1 x ∧
    ∃ t t', (FieldExpr.fp .torch supp M σ).eval 0 x = .ok t ∧
      (FieldExpr.fp .torch supp M σ).eval 1 x = .ok t' := by
  simp only [FieldExpr.eval]
  exact ⟨fieldPmKeops_zero supp _ σ x, fieldPmKeops_one supp _ σ x,
    _, _, fieldPmTorch_zero supp _ σ x, fieldPmTorch_one supp _ σ x⟩

/-- And of the skew field. -/
theorem C12_fieldM {n : Nat} (supp : Fin n → Vec d) (M : Fin n → Mat d) {σ : ℝ} (_hσ : σ ≠ 0) (x : Vec d) :
    (FieldExpr.fm .keops supp M σ).eval 0 x = (FieldExpr.fm .torch supp M σ).eval 0 x ∧
    (FieldExpr.fm .keops supp M σ).eval 1 x = (FieldExpr.fm .torch supp M σ).eval 1 x ∧
    ∃ t t', (FieldExpr.fm .torch supp M σ).eval 0 x = .ok t ∧
      (FieldExpr.fm .torch supp M σ).eval 1 x = .ok t' := by
  simp only [FieldExpr.eval]
  exact ⟨fieldPmKeops_zero supp _ σ x, fieldPmKeops_one supp _ σ x,
    _, _, fieldPmTorch_zero supp _ σ x, fieldPmTorch_one supp _ σ x⟩

/-- KeOps lacks the higher orders and says so; the gradient field has no KeOps version. -/
theorem C12_keops_missing {n : Nat} (supp mom : Fin n → Vec d) (M : Fin n → Mat d) (m : Fin n → ℝ)
    (σ : ℝ) (x : Vec d) (k : Nat) :
    (FieldExpr.f0 .keops supp mom σ).eval (k + 2) x = .error .runtime ∧
    (FieldExpr.fp .keops supp M σ).eval (k + 2) x = .error .runtime ∧
    (FieldExpr.fm .keops supp M σ).eval (k + 2) x = .error .runtime ∧
    (FieldExpr.f1 .keops supp m σ).eval k x = .error .notImplemented := by
  simp only [FieldExpr.eval]
  exact ⟨field0Keops_big supp mom σ x k, fieldPmKeops_big supp _ σ x k, fieldPmKeops_big supp _ σ x k, trivial⟩

mutual
/-- `SameField f g`: the same field objects built on possibly different backends. -/
inductive SameField : FieldExpr d → FieldExpr d → Prop
  | f0 (r r' : Reduction) {n : Nat} (supp mom : Fin n → Vec d) (σ : ℝ) :
      SameField (.f0 r supp mom σ) (.f0 r' supp mom σ)
  | f0u (r r' : Reduction) {n : Nat} (supp mom dir : Fin n → Vec d) (σ : ℝ) :
      SameField (.f0u r supp mom dir σ) (.f0u r' supp mom dir σ)
  | fp (r r' : Reduction) {n : Nat} (supp : Fin n → Vec d) (M : Fin n → Mat d) (σ : ℝ) :
      SameField (.fp r supp M σ) (.fp r' supp M σ)
  | fm (r r' : Reduction) {n : Nat} (supp : Fin n → Vec d) (M : Fin n → Mat d) (σ : ℝ) :
      SameField (.fm r supp M σ) (.fm r' supp M σ)
  | f1 (r r' : Reduction) {n : Nat} (supp : Fin n → Vec d) (m : Fin n → ℝ) (σ : ℝ) :
      SameField (.f1 r supp m σ) (.f1 r' supp m σ)
  | affine (A : Mat d) (x0 u : Vec d) : SameField (.affine A x0 u) (.affine A x0 u)
  | const (m : Vec d) : SameField (.const m) (.const m)
  | null : SameField .null .null
  | sum {l l' : List (FieldExpr d)} (h : SameFields l l') : SameField (.sum l) (.sum l')
/-- Member by member. -/
inductive SameFields : List (FieldExpr d) → List (FieldExpr d) → Prop
  | nil : SameFields [] []
  | cons {f g : FieldExpr d} {l l' : List (FieldExpr d)} (h : SameField f g) (hl : SameFields l l') :
      SameFields (f :: l) (g :: l')
end

theorem field0_agree {n : Nat} (supp mom : Fin n → Vec d) (σ : ℝ) (k : Nat) (x : Vec d)
    (t : Tens d (k + 1)) (h : field0Keops supp mom σ k x = .ok t) : field0Torch supp mom σ k x = .ok t := by
  rcases k with _ | _ | k
  · exact (field0Keops_zero supp mom σ x).symm.trans h
  · exact (field0Keops_one supp mom σ x).symm.trans h
  · cases (field0Keops_big supp mom σ x k).symm.trans h

theorem fieldPm_agree {n : Nat} (supp : Fin n → Vec d) (P : Fin n → Mat d) (σ : ℝ) (k : Nat) (x : Vec d)
    (t : Tens d (k + 1)) (h : fieldPmKeops supp P σ k x = .ok t) : fieldPmTorch supp P σ k x = .ok t := by
  rcases k with _ | _ | k
  · exact (fieldPmKeops_zero supp P σ x).symm.trans h
  · exact (fieldPmKeops_one supp P σ x).symm.trans h
  · cases (fieldPmKeops_big supp P σ x k).symm.trans h

theorem ok_unique {α : Type} {p q : Py α} {t t' : α} (h : p = .ok t) (h' : q = .ok t') (e : p = q) : t = t' := by
  subst e; exact Except.ok.inj (h.symm.trans h')

mutual
theorem sameField_agree : {f g : FieldExpr d} → SameField f g → ∀ (k : Nat) (x : Vec d)
    (t t' : Tens d (k + 1)), f.eval k x = .ok t → g.eval k x = .ok t' → t = t'
  | _, _, .f0 r r' supp mom σ => by
    intro k x t t' h h'
    cases r <;> cases r' <;> simp only [FieldExpr.eval] at h h'
    · exact ok_unique h h' rfl
    · exact ok_unique h (field0_agree supp mom σ k x t' h') rfl
    · exact ok_unique (field0_agree supp mom σ k x t h) h' rfl
    · exact ok_unique h h' rfl
  | _, _, .f0u r r' supp mom dir σ => by
    intro k x t t' h h'
    simp only [FieldExpr.eval] at h h'
    exact ok_unique h h' rfl
  | _, _, .fp r r' supp M σ => by
    intro k x t t' h h'
    cases r <;> cases r' <;> simp only [FieldExpr.eval] at h h'
    · exact ok_unique h h' rfl
    · exact ok_unique h (fieldPm_agree supp _ σ k x t' h') rfl
    · exact ok_unique (fieldPm_agree supp _ σ k x t h) h' rfl
    · exact ok_unique h h' rfl
  | _, _, .fm r r' supp M σ => by
    intro k x t t' h h'
    cases r <;> cases r' <;> simp only [FieldExpr.eval] at h h'
    · exact ok_unique h h' rfl
    · exact ok_unique h (fieldPm_agree supp _ σ k x t' h') rfl
    · exact ok_unique (fieldPm_agree supp _ σ k x t h) h' rfl
    · exact ok_unique h h' rfl
  | _, _, .f1 r r' supp m σ => by
    intro k x t t' h h'
    cases r <;> cases r' <;> simp only [FieldExpr.eval] at h h'
    · exact ok_unique h h' rfl
    · cases h'
    · cases h
    · cases h
  | _, _, .affine A x0 u => by
    intro k x t t' h h'
    exact ok_unique h h' rfl
  | _, _, .const m => by
    intro k x t t' h h'
    exact ok_unique h h' rfl
  | _, _, .null => by
    intro k x t t' h h'
    exact ok_unique h h' rfl
  | _, _, .sum h => by
    intro k x t t' h1 h2
    simp only [FieldExpr.eval] at h1 h2
    exact sameFields_agree h k x t t' h1 h2
theorem sameFields_agree : {l l' : List (FieldExpr d)} → SameFields l l' → ∀ (k : Nat) (x : Vec d)
    (t t' : Tens d (k + 1)), FieldExpr.evalSum k l x = .ok t → FieldExpr.evalSum k l' x = .ok t' → t = t'
  | _, _, .nil => by
    intro k x t t' h h'
    exact ok_unique h h' rfl
  | _, _, .cons h hl => by
    intro k x t t' h1 h2
    obtain ⟨a, b, ha, hb, rfl⟩ := evalSum_cons_ok h1
    obtain ⟨a', b', ha', hb', rfl⟩ := evalSum_cons_ok h2
    have e1 := sameField_agree h k x a a' ha ha'
    have e2 := sameFields_agree hl k x b b' hb hb'
    subst e1; subst e2; rfl
end

/-- Two field objects that differ only in the backends of their parts return the same tensor
at every order at which both return one: switching backend can make a call fail but never
changes a result. -/
theorem C12_agree {f g : FieldExpr d} (h : SameField f g) (k : Nat) (x : Vec d)
    (t t' : Tens d (k + 1)) (hf : f.eval k x = .ok t) (hg : g.eval k x = .ok t') : t = t' :=
  sameField_agree h k x t t' hf hg

-- a sum mixing the backends against its torch version
example (s m : Vec 2) (M : Mat 2) :
    SameField (.sum [.f0 .keops (fun _ : Fin 1 => s) (fun _ => m) 2, .fm .torch (fun _ : Fin 1 => s) (fun _ => M) 3])
      (.sum [.f0 .torch (fun _ : Fin 1 => s) (fun _ => m) 2, .fm .torch (fun _ : Fin 1 => s) (fun _ => M) 3]) :=
  .sum (.cons (.f0 ..) (.cons (.fm ..) .nil))

end Imodal
