import Verif.Spec.Rigid
import Verif.Props.C14
import Verif.Lemmas.Avail
/-!
# Rigid motions of fields, pairings and dual fields
-/
set_option autoImplicit false
namespace Imodal
noncomputable section
open Matrix
variable {d : Nat}

/-! ## The exception of a call -/

/-- The exception, if any. -/
def errOf {α : Type} : Py α → Option PyErr
  | .ok _ => none
  | .error e => some e

theorem kerRows_err {n : Nat} (σ : ℝ) (k : Nat) (rows rows' : Fin n → Vec d) (e : PyErr) :
    errOf (kerRows σ k rows e) = errOf (kerRows σ k rows' e) := by
  unfold kerRows; split_ifs <;> rfl

theorem field0Torch_err {n : Nat} (supp supp' mom mom' : Fin n → Vec d) (σ : ℝ) (k : Nat) (x x' : Vec d) :
    errOf (field0Torch supp mom σ k x) = errOf (field0Torch supp' mom' σ k x') := by
  unfold field0Torch kerRows
  split_ifs <;> rfl

theorem field0Keops_err {n : Nat} (supp supp' mom mom' : Fin n → Vec d) (σ : ℝ) (k : Nat) (x x' : Vec d) :
    errOf (field0Keops supp mom σ k x) = errOf (field0Keops supp' mom' σ k x') := by
  unfold field0Keops
  split_ifs <;> rfl

theorem field0uTorch_err {n : Nat} (supp supp' mom mom' dir dir' : Fin n → Vec d) (σ : ℝ) (k : Nat) (x x' : Vec d) :
    errOf (field0uTorch supp mom dir σ k x) = errOf (field0uTorch supp' mom' dir' σ k x') := by
  unfold field0uTorch kerRows
  split_ifs <;> rfl

theorem fieldPmTorch_err {n : Nat} (supp supp' : Fin n → Vec d) (P P' : Fin n → Mat d) (σ : ℝ) (k : Nat) (x x' : Vec d) :
    errOf (fieldPmTorch supp P σ k x) = errOf (fieldPmTorch supp' P' σ k x') := by
  unfold fieldPmTorch kerRows
  split_ifs <;> rfl

theorem fieldPmKeops_err {n : Nat} (supp supp' : Fin n → Vec d) (P P' : Fin n → Mat d) (σ : ℝ) (k : Nat) (x x' : Vec d) :
    errOf (fieldPmKeops supp P σ k x) = errOf (fieldPmKeops supp' P' σ k x') := by
  unfold fieldPmKeops
  split_ifs <;> rfl

theorem field1Torch_err {n : Nat} (supp supp' : Fin n → Vec d) (m : Fin n → ℝ) (σ : ℝ) (k : Nat) (x x' : Vec d) :
    errOf (field1Torch supp m σ k x) = errOf (field1Torch supp' m σ k x') := by
  unfold field1Torch kerRows
  split_ifs <;> rfl

mutual
theorem rotate_err (Q : Mat d) (k : Nat) (x x' : Vec d) : (f : FieldExpr d) → errOf ((f.rotate Q).eval k x) = errOf (f.eval k x')
  | .f0 .torch supp mom σ => by rw [FieldExpr.rotate, FieldExpr.eval, FieldExpr.eval]; exact field0Torch_err ..
  | .f0 .keops supp mom σ => by rw [FieldExpr.rotate, FieldExpr.eval, FieldExpr.eval]; exact field0Keops_err ..
  | .f0u _ supp mom dir σ => by rw [FieldExpr.rotate, FieldExpr.eval, FieldExpr.eval]; exact field0uTorch_err ..
  | .fp .torch supp mom σ => by rw [FieldExpr.rotate, FieldExpr.eval, FieldExpr.eval]; exact fieldPmTorch_err ..
  | .fp .keops supp mom σ => by rw [FieldExpr.rotate, FieldExpr.eval, FieldExpr.eval]; exact fieldPmKeops_err ..
  | .fm .torch supp mom σ => by rw [FieldExpr.rotate, FieldExpr.eval, FieldExpr.eval]; exact fieldPmTorch_err ..
  | .fm .keops supp mom σ => by rw [FieldExpr.rotate, FieldExpr.eval, FieldExpr.eval]; exact fieldPmKeops_err ..
  | .f1 .torch supp mom σ => by rw [FieldExpr.rotate, FieldExpr.eval, FieldExpr.eval]; exact field1Torch_err ..
  | .f1 .keops supp mom σ => by rw [FieldExpr.rotate, FieldExpr.eval, FieldExpr.eval]
  | .affine A x0 u => by rw [FieldExpr.rotate, FieldExpr.eval, FieldExpr.eval]; rfl
  | .const m => by rw [FieldExpr.rotate, FieldExpr.eval, FieldExpr.eval]; rfl
  | .null => by rw [FieldExpr.rotate, FieldExpr.eval, FieldExpr.eval]
  | .sum fs => by rw [FieldExpr.rotate, FieldExpr.eval, FieldExpr.eval]; exact rotateAll_err Q k x x' fs
theorem rotateAll_err (Q : Mat d) (k : Nat) (x x' : Vec d) : (fs : List (FieldExpr d)) →
    errOf (FieldExpr.evalSum k (FieldExpr.rotateAll Q fs) x) = errOf (FieldExpr.evalSum k fs x')
  | [] => by rw [FieldExpr.rotateAll, FieldExpr.evalSum, FieldExpr.evalSum]
  | f :: fs => by
    rw [FieldExpr.rotateAll, FieldExpr.evalSum, FieldExpr.evalSum]
    have h1 := rotate_err Q k x x' f
    have h2 := rotateAll_err Q k x x' fs
    cases h3 : (f.rotate Q).eval k x <;> cases h4 : f.eval k x' <;> rw [h3, h4] at h1
    · exact h1
    · cases h1
    · cases h1
    · dsimp only
      cases h5 : FieldExpr.evalSum k (FieldExpr.rotateAll Q fs) x <;> cases h6 : FieldExpr.evalSum k fs x' <;> rw [h5, h6] at h2 <;>
        first | exact h2 | cases h2 | rfl
end

/-! ## Fields -/

namespace Rigid
variable (g : Rigid d)

theorem tmul : g.Qᵀ * g.Q = 1 := (Matrix.mem_orthogonalGroup_iff' (Fin d) ℝ).mp g.orth
theorem mult : g.Q * g.Qᵀ = 1 := mul_eq_one_comm.mp g.tmul

theorem vec_add (v w : Vec d) : g.vec (v + w) = g.vec v + g.vec w := Matrix.mulVec_add _ _ _
theorem vec_smul (a : ℝ) (v : Vec d) : g.vec (a • v) = a • g.vec v := Matrix.mulVec_smul _ _ _
theorem vec_zero : g.vec 0 = 0 := Matrix.mulVec_zero _
theorem vec_neg (v : Vec d) : g.vec (-v) = -g.vec v := Matrix.mulVec_neg _ _
theorem vec_sum {ι : Type} (s : Finset ι) (v : ι → Vec d) : g.vec (∑ i ∈ s, v i) = ∑ i ∈ s, g.vec (v i) := Matrix.mulVec_sum _ _ _
theorem vec_dot (v w : Vec d) : g.vec v ⬝ᵥ g.vec w = v ⬝ᵥ w := by
  unfold vec
  rw [Matrix.dotProduct_mulVec, Matrix.vecMul_mulVec, g.tmul, Matrix.vecMul_one]
theorem vec_dot' (v w : Vec d) : ∑ c, g.vec v c * g.vec w c = ∑ c, v c * w c := g.vec_dot v w
theorem relDiff_point (x y : Vec d) : relDiff (g.point x) (g.point y) = g.vec (relDiff x y) := by
  unfold point vec
  rw [relDiff_shift, relDiff_rot]
theorem mat_mul (M N : Mat d) : g.mat (M * N) = g.mat M * g.mat N := by
  unfold mat
  calc g.Q * (M * N) * g.Qᵀ = g.Q * M * 1 * (N * g.Qᵀ) := by simp only [Matrix.mul_one, Matrix.mul_assoc]
    _ = g.Q * M * (g.Qᵀ * g.Q) * (N * g.Qᵀ) := by rw [g.tmul]
    _ = _ := by simp only [Matrix.mul_assoc]
theorem mat_mulVec (M : Mat d) (v : Vec d) : g.mat M *ᵥ g.vec v = g.vec (M *ᵥ v) := by
  unfold mat vec
  rw [Matrix.mulVec_mulVec, Matrix.mul_assoc, g.tmul, Matrix.mul_one, Matrix.mulVec_mulVec]
theorem mat_transpose (M : Mat d) : (g.mat M)ᵀ = g.mat Mᵀ := by
  unfold mat
  simp only [Matrix.transpose_mul, Matrix.transpose_transpose, Matrix.mul_assoc]
theorem mat_trace (M : Mat d) : (g.mat M).trace = M.trace := by
  unfold mat
  rw [Matrix.trace_mul_comm, ← Matrix.mul_assoc, g.tmul, Matrix.one_mul]
theorem mat_smul (a : ℝ) (M : Mat d) : g.mat (a • M) = a • g.mat M := by
  unfold mat; rw [Matrix.mul_smul, Matrix.smul_mul]
theorem mat_add (M N : Mat d) : g.mat (M + N) = g.mat M + g.mat N := by
  unfold mat; rw [Matrix.mul_add, Matrix.add_mul]
theorem mat_sub (M N : Mat d) : g.mat (M - N) = g.mat M - g.mat N := by
  unfold mat; rw [Matrix.mul_sub, Matrix.sub_mul]
theorem mat_zero : g.mat 0 = 0 := by unfold mat; rw [Matrix.mul_zero, Matrix.zero_mul]
theorem mat_neg (M : Mat d) : g.mat (-M) = -g.mat M := by
  unfold mat; rw [Matrix.mul_neg, Matrix.neg_mul]
theorem kXY_point (σ : ℝ) (x y : Vec d) : kXY σ (g.point x) (g.point y) = kXY σ x y := by
  rw [← gauss0_relDiff, relDiff_point, ← gauss0_relDiff]; exact gauss0_rot g.tmul σ _
theorem kXX_point {n : Nat} (σ : ℝ) (x : Fin n → Vec d) : kXX σ (fun i => g.point (x i)) = kXX σ x := by
  funext i j; rw [kXX_eq, kXX_eq, kXY_point]
theorem keopsGauss_point (σ : ℝ) (x y : Vec d) : keopsGauss σ (g.point x) (g.point y) = keopsGauss σ x y := by
  rw [keopsGauss_eq, keopsGauss_eq, kXY_point]
theorem g1_point (σ : ℝ) (x y : Vec d) : g1 σ (relDiff (g.point x) (g.point y)) = g.vec (g1 σ (relDiff x y)) := by
  rw [relDiff_point]; exact g1_rot g.tmul σ _
theorem g2_point (σ : ℝ) (x y : Vec d) : (g2 σ (relDiff (g.point x) (g.point y)) : Mat d) = g.mat (g2 σ (relDiff x y)) := by
  rw [relDiff_point]; exact g2_rot g.tmul σ _
/-- Frobenius product. -/
theorem mat_frob (M N : Mat d) : ∑ b, ∑ c, g.mat M b c * g.mat N b c = ∑ b, ∑ c, M b c * N b c := by
  have h : ∀ A B : Mat d, ∑ b, ∑ c, A b c * B b c = (A * Bᵀ).trace := fun A B => by
    simp [Matrix.trace, Matrix.mul_apply]
  rw [h, h, mat_transpose, ← mat_mul, mat_trace]
theorem left_frob (M N : Mat d) : ∑ b, ∑ c, (g.Q * M) b c * (g.Q * N) b c = ∑ b, ∑ c, M b c * N b c := by
  have h : ∀ A B : Mat d, ∑ b, ∑ c, A b c * B b c = (A * Bᵀ).trace := fun A B => by
    simp [Matrix.trace, Matrix.mul_apply]
  rw [h, h, Matrix.transpose_mul, Matrix.mul_assoc, Matrix.trace_mul_comm, ← Matrix.mul_assoc, Matrix.mul_assoc, Matrix.mul_assoc, g.tmul, Matrix.mul_one]
end Rigid

/-- The field moved along. -/
def FieldExpr.move (g : Rigid d) (f : FieldExpr d) : FieldExpr d := (f.rotate g.Q).translate g.τ
/-- Member by member. -/
def FieldExpr.moveAll (g : Rigid d) (fs : List (FieldExpr d)) : List (FieldExpr d) := fs.map (FieldExpr.move g)

theorem rotateAll_map (Q : Mat d) : (fs : List (FieldExpr d)) → FieldExpr.rotateAll Q fs = fs.map (FieldExpr.rotate Q)
  | [] => by rw [FieldExpr.rotateAll]; rfl
  | f :: fs => by rw [FieldExpr.rotateAll, rotateAll_map Q fs]; rfl
theorem translateAll_map (τ : Vec d) : (fs : List (FieldExpr d)) → FieldExpr.translateAll τ fs = fs.map (FieldExpr.translate τ)
  | [] => by rw [FieldExpr.translateAll]; rfl
  | f :: fs => by rw [FieldExpr.translateAll, translateAll_map τ fs]; rfl

section
variable (g : Rigid d) {n : Nat} (r : Reduction) (supp mom dir : Fin n → Vec d) (M : Fin n → Mat d) (a : Fin n → ℝ) (σ : ℝ)
theorem move_f0 : (FieldExpr.f0 r supp mom σ).move g = .f0 r (fun j => g.point (supp j)) (fun j => g.vec (mom j)) σ := by
  unfold FieldExpr.move; rw [FieldExpr.rotate, FieldExpr.translate]; rfl
theorem move_f0u : (FieldExpr.f0u r supp mom dir σ).move g
    = .f0u r (fun j => g.point (supp j)) (fun j => g.vec (mom j)) (fun j => g.vec (dir j)) σ := by
  unfold FieldExpr.move; rw [FieldExpr.rotate, FieldExpr.translate]; rfl
theorem move_fp : (FieldExpr.fp r supp M σ).move g = .fp r (fun j => g.point (supp j)) (fun j => g.mat (M j)) σ := by
  unfold FieldExpr.move; rw [FieldExpr.rotate, FieldExpr.translate]; rfl
theorem move_fm : (FieldExpr.fm r supp M σ).move g = .fm r (fun j => g.point (supp j)) (fun j => g.mat (M j)) σ := by
  unfold FieldExpr.move; rw [FieldExpr.rotate, FieldExpr.translate]; rfl
theorem move_f1 : (FieldExpr.f1 r supp a σ).move g = .f1 r (fun j => g.point (supp j)) a σ := by
  unfold FieldExpr.move; rw [FieldExpr.rotate, FieldExpr.translate]; rfl
theorem move_affine (A : Mat d) (x0 u : Vec d) : (FieldExpr.affine A x0 u).move g = .affine (g.mat A) (g.point x0) (g.vec u) := by
  unfold FieldExpr.move; rw [FieldExpr.rotate, FieldExpr.translate]; rfl
theorem move_const (v : Vec d) : (FieldExpr.const v).move g = .const (g.vec v) := by
  unfold FieldExpr.move; rw [FieldExpr.rotate, FieldExpr.translate]; rfl
theorem move_null : (FieldExpr.null : FieldExpr d).move g = .null := by
  unfold FieldExpr.move; rw [FieldExpr.rotate, FieldExpr.translate]
theorem move_sum (fs : List (FieldExpr d)) : (FieldExpr.sum fs).move g = .sum (fs.map (FieldExpr.move g)) := by
  unfold FieldExpr.move; rw [FieldExpr.rotate, FieldExpr.translate, translateAll_map, rotateAll_map, List.map_map]; rfl
theorem mkSumField_move (fs : List (FieldExpr d)) : mkSumField (fs.map (FieldExpr.move g)) = (mkSumField fs).map (FieldExpr.move g) := by
  cases fs with
  | nil => rfl
  | cons f fs => simp only [mkSumField, List.map_cons, Except.map, move_sum]
end

theorem move_eval0 (g : Rigid d) {f : FieldExpr d} {x v : Vec d} (h : f.eval 0 x = .ok (val0 v)) :
    (f.move g).eval 0 (g.point x) = .ok (val0 (g.vec v)) := by
  unfold FieldExpr.move Rigid.point
  rw [translate_eval]
  exact rotate_eval0 g.tmul x f v h
theorem move_eval1 (g : Rigid d) {f : FieldExpr d} {x : Vec d} {J : Mat d} (h : f.eval 1 x = .ok (val1 J)) :
    (f.move g).eval 1 (g.point x) = .ok (val1 (g.mat J)) := by
  unfold FieldExpr.move Rigid.point
  rw [translate_eval]
  exact rotate_eval1 g.tmul x f J h
theorem move_err (g : Rigid d) (f : FieldExpr d) (k : Nat) (x x' : Vec d) : errOf ((f.move g).eval k x) = errOf (f.eval k x') := by
  unfold FieldExpr.move
  conv_lhs => rw [show x = (x - g.τ) + g.τ by rw [sub_add_cancel], translate_eval]
  exact rotate_err ..

theorem avail_of_err {k : Nat} {f f' : FieldExpr d} (h : ∀ x x', errOf (f'.eval k x) = errOf (f.eval k x')) (ha : Avail k f) : Avail k f' := by
  rcases eval_uniform k f' with ⟨e, he⟩ | h'
  · obtain ⟨V, hV⟩ := ha
    have := h 0 0
    rw [he, hV] at this; cases this
  · exact h'

theorem Avail.move {k : Nat} {f : FieldExpr d} (h : Avail k f) (g : Rigid d) : Avail k (f.move g) := avail_of_err (move_err g f k) h

theorem fieldVal_move (g : Rigid d) {f : FieldExpr d} (h : Avail 0 f) (x : Vec d) : fieldVal (f.move g) (g.point x) = g.vec (fieldVal f x) := by
  obtain ⟨V, hV⟩ := h
  obtain ⟨v, hv⟩ := val0_surj (V x)
  have h1 : f.eval 0 x = .ok (val0 v) := by rw [hV, hv]
  rw [fieldVal_of_eval (move_eval0 g h1), fieldVal_of_eval h1]
  rfl
theorem fieldJac_move (g : Rigid d) {f : FieldExpr d} (h : Avail 1 f) (x : Vec d) : fieldJac (f.move g) (g.point x) = g.mat (fieldJac f x) := by
  obtain ⟨V, hV⟩ := h
  obtain ⟨v, hv⟩ := val1_surj (V x)
  have h1 : f.eval 1 x = .ok (val1 v) := by rw [hV, hv]
  rw [fieldJac_of_eval (move_eval1 g h1), fieldJac_of_eval h1]
  rfl

theorem Raises.move {k : Nat} {f : FieldExpr d} {e : PyErr} (h : ∀ x, f.eval k x = .error e) (g : Rigid d) (x : Vec d) : (f.move g).eval k x = .error e := by
  have := move_err g f k x x
  rw [h] at this
  cases h2 : (f.move g).eval k x with
  | ok t => rw [h2] at this; cases this
  | error e' => rw [h2] at this; cases this; rfl

theorem values_move (g : Rigid d) (f : FieldExpr d) {n : Nat} (pts : Fin n → Vec d) :
    (f.move g).values (fun i => g.point (pts i)) = (f.values pts).map fun v i => g.vec (v i) := by
  rcases eval_uniform 0 f with ⟨e, he⟩ | h
  · unfold FieldExpr.values FieldExpr.batch
    rw [Raises.move he g, he]; rfl
  · rw [(h.move g).values, h.values]
    simp only [Except.map, fieldVal_move g h]
theorem jacobians_move (g : Rigid d) (f : FieldExpr d) {n : Nat} (pts : Fin n → Vec d) :
    (f.move g).jacobians (fun i => g.point (pts i)) = (f.jacobians pts).map fun J i => g.mat (J i) := by
  rcases eval_uniform 1 f with ⟨e, he⟩ | h
  · unfold FieldExpr.jacobians FieldExpr.batch
    rw [Raises.move he g, he]; rfl
  · rw [(h.move g).jacobians, h.jacobians]
    simp only [Except.map, fieldJac_move g h]

end
end Imodal
