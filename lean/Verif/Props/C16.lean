import Verif.Props.C15
import Mathlib.Analysis.Calculus.Deriv.Mul
import Mathlib.Analysis.Calculus.Deriv.Add
/-!
# C16 Infinitesimal actions are linear and keep frames orthonormal to first order
-/
set_option autoImplicit false
namespace Imodal
open Matrix
variable {d : Nat}

/-- `t = a t₁ + b t₂`, entry by entry. -/
inductive IsComb (a b : ℝ) : Tan d → Tan d → Tan d → Prop
  | landmarks {n : Nat} (v w : Fin n → Vec d) :
      IsComb a b (.landmarks v) (.landmarks w) (.landmarks fun i => a • v i + b • w i)
  | direction {n : Nat} (v v' w w' : Fin n → Vec d) :
      IsComb a b (.direction v v') (.direction w w')
        (.direction (fun i => a • v i + b • w i) fun i => a • v' i + b • w' i)
  | frame {n : Nat} (v w : Fin n → Vec d) (V W : Fin n → Mat d) :
      IsComb a b (.frame v V) (.frame w W) (.frame (fun i => a • v i + b • w i) fun i => a • V i + b • W i)
  | empty : IsComb a b .empty .empty .empty
  | nil : IsComb a b (.compound []) (.compound []) (.compound [])
  | cons {t₁ t₂ t : Tan d} {s₁ s₂ s : List (Tan d)} (h : IsComb a b t₁ t₂ t)
      (hs : IsComb a b (.compound s₁) (.compound s₂) (.compound s)) :
      IsComb a b (.compound (t₁ :: s₁)) (.compound (t₂ :: s₂)) (.compound (t :: s))

/-- The field `h` is `a f + b g`, values and Jacobians. -/
def FieldComb (a b : ℝ) (f g h : FieldExpr d) : Prop :=
  ∀ k, k ≤ 1 → ∀ x, ∃ s t : Tens d (k + 1), f.eval k x = .ok s ∧ g.eval k x = .ok t ∧
    h.eval k x = .ok fun I => a * s I + b * t I

theorem FieldComb.avail {a b : ℝ} {f g h : FieldExpr d} (H : FieldComb a b f g h) {k : Nat} (hk : k ≤ 1) :
    Avail k f ∧ Avail k g ∧ Avail k h := by
  refine ⟨?_, ?_, ?_⟩
  · rcases eval_uniform k f with ⟨e, he⟩ | h1
    · obtain ⟨s, t, h1, -, -⟩ := H k hk fun _ => 0
      rw [he] at h1; cases h1
    · exact h1
  · rcases eval_uniform k g with ⟨e, he⟩ | h1
    · obtain ⟨s, t, -, h1, -⟩ := H k hk fun _ => 0
      rw [he] at h1; cases h1
    · exact h1
  · rcases eval_uniform k h with ⟨e, he⟩ | h1
    · obtain ⟨s, t, -, -, h1⟩ := H k hk fun _ => 0
      rw [he] at h1; cases h1
    · exact h1

theorem FieldComb.val {a b : ℝ} {f g h : FieldExpr d} (H : FieldComb a b f g h) (x : Vec d) :
    fieldVal h x = a • fieldVal f x + b • fieldVal g x := by
  obtain ⟨s, t, h1, h2, h3⟩ := H 0 (by omega) x
  rw [fieldVal_of_eval h1, fieldVal_of_eval h2, fieldVal_of_eval h3]
  rfl

theorem FieldComb.jac {a b : ℝ} {f g h : FieldExpr d} (H : FieldComb a b f g h) (x : Vec d) :
    fieldJac h x = a • fieldJac f x + b • fieldJac g x := by
  obtain ⟨s, t, h1, h2, h3⟩ := H 1 (by omega) x
  rw [fieldJac_of_eval h1, fieldJac_of_eval h2, fieldJac_of_eval h3]
  rfl

/-- The action of an available field, in matrix notation. -/
theorem action_direction_vector {f : FieldExpr d} (h0 : Avail 0 f) (h1 : Avail 1 f) {n : Nat}
    (gd dir cot cdir : Fin n → Vec d) :
    (Mfd.direction .vector gd dir cot cdir).action f
      = .ok (.direction (fun i => fieldVal f (gd i)) fun i => fieldJac f (gd i) *ᵥ dir i) := by
  rw [Mfd.action]; unfold actDirection; rw [h0.values, h1.jacobians]
  rfl

theorem action_direction_orthogonal {f : FieldExpr d} (h0 : Avail 0 f) (h1 : Avail 1 f) {n : Nat}
    (gd dir cot cdir : Fin n → Vec d) :
    (Mfd.direction .orthogonal gd dir cot cdir).action f
      = .ok (.direction (fun i => fieldVal f (gd i)) fun i => -((fieldJac f (gd i))ᵀ *ᵥ dir i)) := by
  rw [Mfd.action]; unfold actDirection; rw [h0.values, h1.jacobians]
  rfl

theorem action_frame {f : FieldExpr d} (h0 : Avail 0 f) (h1 : Avail 1 f) {n : Nat}
    (gd : Fin n → Vec d) (R : Fin n → Mat d) (cot : Fin n → Vec d) (cR : Fin n → Mat d) :
    (Mfd.frame gd R cot cR).action f
      = .ok (.frame (fun i => fieldVal f (gd i))
          fun i => ((1 / 2 : ℝ) • (fieldJac f (gd i) - (fieldJac f (gd i))ᵀ)) * R i) := by
  rw [Mfd.action]; unfold actFrame; rw [h0.values, h1.jacobians]
  refine congrArg (fun W => Except.ok (Tan.frame _ W)) (funext fun i => ?_)
  funext b k
  rw [Matrix.mul_apply]
  dsimp only
  refine Finset.sum_congr rfl fun c _ => ?_
  rw [Matrix.smul_apply, Matrix.sub_apply, Matrix.transpose_apply, smul_eq_mul]
  norm_num

mutual
/-- **C16, linearity.** The action of `a f + b g` is `a` times the action of `f` plus `b` times
the action of `g`, on every manifold. -/
theorem C16_linear {a b : ℝ} {f g h : FieldExpr d} (H : FieldComb a b f g h) : (M : Mfd d) →
    ∃ t₁ t₂ t, M.action f = .ok t₁ ∧ M.action g = .ok t₂ ∧ M.action h = .ok t ∧ IsComb a b t₁ t₂ t
  | .landmarks gd cot => by
    obtain ⟨f0, g0, h0⟩ := H.avail (k := 0) (by omega)
    simp only [Mfd.action, actLandmarks, f0.values, g0.values, h0.values]
    refine ⟨_, _, _, rfl, rfl, rfl, ?_⟩
    simp only [H.val]
    exact .landmarks _ _
  | .direction .vector gd dir cot cdir => by
    obtain ⟨f0, g0, h0⟩ := H.avail (k := 0) (by omega)
    obtain ⟨f1, g1, h1⟩ := H.avail (k := 1) (by omega)
    refine ⟨_, _, _, action_direction_vector f0 f1 .., action_direction_vector g0 g1 ..,
      action_direction_vector h0 h1 .., ?_⟩
    simp only [H.val, H.jac, Matrix.add_mulVec, Matrix.smul_mulVec]
    exact .direction _ _ _ _
  | .direction .orthogonal gd dir cot cdir => by
    obtain ⟨f0, g0, h0⟩ := H.avail (k := 0) (by omega)
    obtain ⟨f1, g1, h1⟩ := H.avail (k := 1) (by omega)
    refine ⟨_, _, _, action_direction_orthogonal f0 f1 .., action_direction_orthogonal g0 g1 ..,
      action_direction_orthogonal h0 h1 .., ?_⟩
    simp only [H.val, H.jac, Matrix.transpose_add, Matrix.transpose_smul, Matrix.add_mulVec, Matrix.smul_mulVec,
      neg_add, ← smul_neg]
    exact .direction _ _ _ _
  | .frame gd R cot cR => by
    obtain ⟨f0, g0, h0⟩ := H.avail (k := 0) (by omega)
    obtain ⟨f1, g1, h1⟩ := H.avail (k := 1) (by omega)
    refine ⟨_, _, _, action_frame f0 f1 .., action_frame g0 g1 .., action_frame h0 h1 .., ?_⟩
    have e : ∀ i, ((1 / 2 : ℝ) • (fieldJac h (gd i) - (fieldJac h (gd i))ᵀ)) * R i
        = a • (((1 / 2 : ℝ) • (fieldJac f (gd i) - (fieldJac f (gd i))ᵀ)) * R i)
          + b • (((1 / 2 : ℝ) • (fieldJac g (gd i) - (fieldJac g (gd i))ᵀ)) * R i) := by
      intro i
      rw [H.jac, ← Matrix.smul_mul, ← Matrix.smul_mul, ← Matrix.add_mul]
      congr 1
      rw [Matrix.transpose_add, Matrix.transpose_smul, Matrix.transpose_smul]
      module
    simp only [H.val, e]
    exact .frame _ _ _ _
  | .empty => ⟨_, _, _, rfl, rfl, rfl, .empty⟩
  | .compound ms => by
    obtain ⟨t₁, t₂, t, h1, h2, h3, h4⟩ := C16_linear_all H ms
    exact ⟨.compound t₁, .compound t₂, .compound t, by rw [Mfd.action, h1], by rw [Mfd.action, h2],
      by rw [Mfd.action, h3], h4⟩
theorem C16_linear_all {a b : ℝ} {f g h : FieldExpr d} (H : FieldComb a b f g h) : (ms : List (Mfd d)) →
    ∃ t₁ t₂ t, Mfd.actionAll f ms = .ok t₁ ∧ Mfd.actionAll g ms = .ok t₂ ∧ Mfd.actionAll h ms = .ok t ∧
      IsComb a b (.compound t₁) (.compound t₂) (.compound t)
  | [] => ⟨[], [], [], rfl, rfl, rfl, .nil⟩
  | m :: ms => by
    obtain ⟨t₁, t₂, t, h1, h2, h3, h4⟩ := C16_linear H m
    obtain ⟨s₁, s₂, s, k1, k2, k3, k4⟩ := C16_linear_all H ms
    exact ⟨t₁ :: s₁, t₂ :: s₂, t :: s, by rw [Mfd.actionAll, h1, k1], by rw [Mfd.actionAll, h2, k2],
      by rw [Mfd.actionAll, h3, k3], .cons h4 k4⟩
end

/-- The pairing is linear in the field as well. -/
theorem C16_linear_pairing {a b : ℝ} {f g h : FieldExpr d} (H : FieldComb a b f g h) (M : Mfd d) :
    ∃ p q, M.innerProd f = .ok p ∧ M.innerProd g = .ok q ∧ M.innerProd h = .ok (a * p + b * q) := by
  obtain ⟨f0, g0, h0⟩ := H.avail (k := 0) (by omega)
  obtain ⟨f1, g1, h1⟩ := H.avail (k := 1) (by omega)
  obtain ⟨p, hp⟩ := innerProd_avail f0 f1 M
  obtain ⟨q, hq⟩ := innerProd_avail g0 g1 M
  obtain ⟨s, hs⟩ := innerProd_avail h0 h1 M
  refine ⟨p, q, hp, hq, ?_⟩
  rw [hs, innerProd_ok M hp, innerProd_ok M hq, innerProd_ok M hs, ← pair_smul, ← pair_smul, ← pair_add]
  exact congrArg Except.ok (congrArg₂ (pair _) (funext H.val) (funext H.jac))

/-- Landmarks move with the value of the field. -/
theorem C16_landmarks {f : FieldExpr d} {n : Nat} {gd cot : Fin n → Vec d} {t : Tan d}
    (h : (Mfd.landmarks gd cot).action f = .ok t) :
    ∃ v : Fin n → Vec d, t = .landmarks v ∧ ∀ i, f.eval 0 (gd i) = .ok fun I => v i (I 0) := by
  rw [Mfd.action] at h
  unfold actLandmarks at h
  cases hv : f.values gd with
  | error e => rw [hv] at h; cases h
  | ok v =>
    rw [hv] at h
    refine ⟨v, (Except.ok.inj h).symm, fun i => ?_⟩
    obtain ⟨⟨V, hV⟩, rfl⟩ := values_ok hv
    rw [hV]
    beta_reduce
    rw [fieldVal_of_eval (hV (gd i))]
    refine congrArg Except.ok (funext fun I => ?_)
    congr 1
    funext j
    rw [Fin.fin_one_eq_zero j]

/-- The position part of pairs and frames moves with the value of the field too. -/
theorem C16_positions {f : FieldExpr d} {n : Nat} (t : Transport) (gd dir cot cdir : Fin n → Vec d)
    (R cR : Fin n → Mat d) (h0 : Avail 0 f) (h1 : Avail 1 f) :
    ∃ (v w : Fin n → Vec d) (W : Fin n → Mat d),
      (Mfd.landmarks gd cot).action f = .ok (.landmarks v) ∧
      (Mfd.direction t gd dir cot cdir).action f = .ok (.direction v w) ∧
      (Mfd.frame gd R cot cR).action f = .ok (.frame v W) := by
  have hl : (Mfd.landmarks gd cot).action f = .ok (.landmarks fun i => fieldVal f (gd i)) := by
    rw [Mfd.action]; unfold actLandmarks; rw [h0.values]
  cases t
  · exact ⟨_, _, _, hl, action_direction_vector h0 h1 .., action_frame h0 h1 ..⟩
  · exact ⟨_, _, _, hl, action_direction_orthogonal h0 h1 .., action_frame h0 h1 ..⟩

/-- **C16, frames.** Along the motion `R + s W` given by the action, the derivative of `Rᵀ R` at
`s = 0` is zero, for every field and every frame `R` (orthonormal or not). -/
theorem C16_frame_orthonormal {f : FieldExpr d} {n : Nat} {gd cot : Fin n → Vec d} {R cR : Fin n → Mat d}
    {t : Tan d} (h : (Mfd.frame gd R cot cR).action f = .ok t) :
    ∃ (v : Fin n → Vec d) (W : Fin n → Mat d), t = .frame v W ∧
      ∀ i b c, HasDerivAt (fun s : ℝ => ((R i + s • W i)ᵀ * (R i + s • W i)) b c) 0 0 := by
  have hav : Avail 0 f ∧ Avail 1 f := by
    rw [Mfd.action] at h
    unfold actFrame at h
    cases h1 : f.values gd with
    | error e => rw [h1] at h; cases h
    | ok v =>
      cases h2 : f.jacobians gd with
      | error e => rw [h1, h2] at h; cases h
      | ok J => exact ⟨(values_ok h1).1, (jacobians_ok h2).1⟩
  rw [action_frame hav.1 hav.2] at h
  refine ⟨_, _, (Except.ok.inj h).symm, fun i b c => ?_⟩
  set S : Mat d := (1 / 2 : ℝ) • (fieldJac f (gd i) - (fieldJac f (gd i))ᵀ) with hS
  have hskew : Sᵀ = -S := by
    rw [hS, Matrix.transpose_smul, Matrix.transpose_sub, Matrix.transpose_transpose, ← smul_neg, neg_sub]
  have hcancel : (R i)ᵀ * (S * R i) + (S * R i)ᵀ * R i = 0 := by
    rw [Matrix.transpose_mul, hskew, Matrix.mul_neg, Matrix.neg_mul, Matrix.mul_assoc, add_neg_cancel]
  have hexp : ∀ s : ℝ, ((R i + s • (S * R i))ᵀ * (R i + s • (S * R i))) b c
      = ((R i)ᵀ * R i) b c + s ^ 2 * (((S * R i)ᵀ * (S * R i)) b c) := by
    intro s
    have : (R i + s • (S * R i))ᵀ * (R i + s • (S * R i))
        = (R i)ᵀ * R i + s • ((R i)ᵀ * (S * R i) + (S * R i)ᵀ * R i) + s ^ 2 • ((S * R i)ᵀ * (S * R i)) := by
      rw [Matrix.transpose_add, Matrix.transpose_smul]
      simp only [Matrix.add_mul, Matrix.mul_add, Matrix.smul_mul, Matrix.mul_smul, smul_add, smul_smul, sq]
      abel
    rw [this, hcancel, smul_zero, add_zero, Matrix.add_apply, Matrix.smul_apply, smul_eq_mul]
  simp only [hexp]
  have h1 := ((hasDerivAt_id (0 : ℝ)).pow 2).mul_const (((S * R i)ᵀ * (S * R i)) b c)
  have h2 := h1.const_add (((R i)ᵀ * R i) b c)
  simpa using h2

/-- A direction carried as a vector and one carried orthogonally at the same point keep their
product to first order. -/
theorem C16_directions_dual {f : FieldExpr d} {n : Nat} {gd u p c c' cu cp : Fin n → Vec d} {t s : Tan d}
    (ht : (Mfd.direction .vector gd u c cu).action f = .ok t)
    (hs : (Mfd.direction .orthogonal gd p c' cp).action f = .ok s) :
    ∃ v v' w w' : Fin n → Vec d, t = .direction v w ∧ s = .direction v' w' ∧ v = v' ∧
      ∀ i, w i ⬝ᵥ p i + u i ⬝ᵥ w' i = 0 := by
  have hav : Avail 0 f ∧ Avail 1 f := by
    rw [Mfd.action] at ht
    unfold actDirection at ht
    cases h1 : f.values gd with
    | error e => rw [h1] at ht; cases ht
    | ok v =>
      cases h2 : f.jacobians gd with
      | error e => rw [h1, h2] at ht; cases ht
      | ok J => exact ⟨(values_ok h1).1, (jacobians_ok h2).1⟩
  rw [action_direction_vector hav.1 hav.2] at ht
  rw [action_direction_orthogonal hav.1 hav.2] at hs
  refine ⟨_, _, _, _, (Except.ok.inj ht).symm, (Except.ok.inj hs).symm, rfl, fun i => ?_⟩
  rw [dotProduct_neg, Matrix.dotProduct_mulVec, Matrix.vecMul_transpose, add_neg_cancel]

/-- Pairing of a momentum with a tangent: sums of products of corresponding entries. -/
inductive Pairs : Mfd d → Tan d → ℝ → Prop
  | landmarks {n : Nat} (gd cot v : Fin n → Vec d) :
      Pairs (.landmarks gd cot) (.landmarks v) (∑ i, cot i ⬝ᵥ v i)
  | direction (t : Transport) {n : Nat} (gd dir cot cdir v w : Fin n → Vec d) :
      Pairs (.direction t gd dir cot cdir) (.direction v w) (∑ i, (cot i ⬝ᵥ v i + cdir i ⬝ᵥ w i))
  | frame {n : Nat} (gd : Fin n → Vec d) (R : Fin n → Mat d) (cot : Fin n → Vec d) (cR : Fin n → Mat d)
      (v : Fin n → Vec d) (W : Fin n → Mat d) :
      Pairs (.frame gd R cot cR) (.frame v W) (∑ i, (cot i ⬝ᵥ v i + ((cR i)ᵀ * W i).trace))
  | empty : Pairs .empty .empty 0
  | nil : Pairs (.compound []) (.compound []) 0
  | cons {m : Mfd d} {ms : List (Mfd d)} {t : Tan d} {ts : List (Tan d)} {a b : ℝ} (h : Pairs m t a)
      (hs : Pairs (.compound ms) (.compound ts) b) : Pairs (.compound (m :: ms)) (.compound (t :: ts)) (a + b)

mutual
/-- **C16, pairing.** `inner_prod_field` is the pairing of the momentum with the action. -/
theorem C16_inner_prod {f : FieldExpr d} : (M : Mfd d) → {t : Tan d} → M.action f = .ok t →
    ∃ a, M.innerProd f = .ok a ∧ Pairs M t a
  | .landmarks gd cot, t, h => by
    rw [Mfd.action] at h
    rw [Mfd.innerProd]
    cases hv : actLandmarks gd f with
    | error e => rw [hv] at h; cases h
    | ok v =>
      rw [hv] at h
      rw [← Except.ok.inj h]
      exact ⟨_, rfl, .landmarks _ _ _⟩
  | .direction tr gd dir cot cdir, t, h => by
    rw [Mfd.action] at h
    rw [Mfd.innerProd]
    cases hv : actDirection tr gd dir f with
    | error e => rw [hv] at h; cases h
    | ok v =>
      rw [hv] at h
      rw [← Except.ok.inj h]
      refine ⟨_, rfl, ?_⟩
      have := Pairs.direction tr gd dir cot cdir v.1 v.2
      rw [Finset.sum_add_distrib] at this
      exact this
  | .frame gd R cot cR, t, h => by
    rw [Mfd.action] at h
    rw [Mfd.innerProd]
    cases hv : actFrame gd R f with
    | error e => rw [hv] at h; cases h
    | ok v =>
      rw [hv] at h
      rw [← Except.ok.inj h]
      refine ⟨_, rfl, ?_⟩
      have := Pairs.frame gd R cot cR v.1 v.2
      rw [Finset.sum_add_distrib] at this
      have e : ∀ i, ((cR i)ᵀ * v.2 i).trace = ∑ b, ∑ c, cR i b c * v.2 i b c := by
        intro i
        rw [Matrix.trace, Finset.sum_comm]
        exact Finset.sum_congr rfl fun c _ => by rw [Matrix.diag_apply, Matrix.mul_apply]; rfl
      simp only [e] at this
      exact this
  | .empty, t, h => by
    rw [Mfd.action] at h
    rw [← Except.ok.inj h]
    exact ⟨0, rfl, .empty⟩
  | .compound ms, t, h => by
    rw [Mfd.action] at h
    cases h1 : Mfd.actionAll f ms with
    | error e => rw [h1] at h; cases h
    | ok ts =>
      rw [h1] at h
      rw [← Except.ok.inj h]
      exact C16_inner_prod_all ms h1
theorem C16_inner_prod_all {f : FieldExpr d} : (ms : List (Mfd d)) → {ts : List (Tan d)} →
    Mfd.actionAll f ms = .ok ts → ∃ a, Mfd.innerProdAll f ms = .ok a ∧ Pairs (.compound ms) (.compound ts) a
  | [], ts, h => by
    rw [Mfd.actionAll] at h
    rw [← Except.ok.inj h]
    exact ⟨0, rfl, .nil⟩
  | m :: ms, ts, h => by
    rw [Mfd.actionAll] at h
    cases h1 : Mfd.action f m with
    | error e => rw [h1] at h; cases h
    | ok t =>
      cases h2 : Mfd.actionAll f ms with
      | error e => rw [h1, h2] at h; cases h
      | ok ss =>
        rw [h1, h2] at h
        rw [← Except.ok.inj h]
        obtain ⟨a, ha, hp⟩ := C16_inner_prod m h1
        obtain ⟨b, hb, hq⟩ := C16_inner_prod_all ms h2
        exact ⟨a + b, by rw [Mfd.innerProdAll, ha, hb], .cons hp hq⟩
end

-- `FieldComb` holds for two order 0 fields and their sum
example (s m s' m' : Fin 3 → Vec 2) (σ : ℝ) : FieldComb 1 1 (.f0 .torch s m σ) (.f0 .torch s' m' σ)
    (.sum [.f0 .torch s m σ, .f0 .torch s' m' σ]) := by
  intro k hk x
  have h : ∀ (k) (_ : k ≤ 1) (s m : Fin 3 → Vec 2), ∃ t, (FieldExpr.f0 .torch s m σ).eval k x = .ok t := by
    intro k hk s m
    match k, hk with
    | 0, _ => exact ⟨_, eval_f0_zero _ _ _ _ _⟩
    | 1, _ => exact ⟨_, eval_f0_one _ _ _ _ _⟩
  obtain ⟨a, ha⟩ := h k hk s m
  obtain ⟨b, hb⟩ := h k hk s' m'
  refine ⟨a, b, ha, hb, ?_⟩
  simp only [FieldExpr.eval] at ha hb
  simp only [FieldExpr.eval, FieldExpr.evalSum, ha, hb]
  simp

-- a frame that really turns: a rotation field in the plane
example : ∃ (v : Fin 1 → Vec 2) (W : Fin 1 → Mat 2), (Mfd.frame (fun _ : Fin 1 => (0 : Vec 2)) (fun _ => (1 : Mat 2)) (fun _ => 0) (fun _ => 0)).action
    (.affine !![0, -1; 1, 0] 0 0) = .ok (.frame v W) ∧ W 0 = !![0, -1; 1, 0] := by
  refine ⟨_, _, action_frame ⟨_, fun _ => rfl⟩ ⟨_, fun _ => rfl⟩ .., ?_⟩
  have : fieldJac (.affine !![0, -1; 1, 0] 0 0) (0 : Vec 2) = !![0, -1; 1, 0] := by
    ext b c; fin_cases b <;> fin_cases c <;> rfl
  rw [this]
  ext b c; fin_cases b <;> fin_cases c <;> simp <;> norm_num

end Imodal
