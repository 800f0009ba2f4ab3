import Verif.Lemmas.HamFlow
import Verif.Spec.Angular
import Mathlib.Analysis.Normed.Algebra.MatrixExponential
import Mathlib.Analysis.SpecialFunctions.Exponential
/-!
# Rotations and angular momentum
-/
set_option autoImplicit false
namespace Imodal
noncomputable section
open Matrix Filter Topology Set
variable {d : Nat}

/-! ## Rotations with an angular velocity -/

section
attribute [local instance] Matrix.linftyOpNormedRing Matrix.linftyOpNormedAlgebra

theorem exp_skew {J : Mat d} (hJ : Jᵀ = -J) (s : ℝ) : NormedSpace.exp (s • J) ∈ Matrix.orthogonalGroup (Fin d) ℝ := by
  rw [Matrix.mem_orthogonalGroup_iff, ← Matrix.exp_transpose, Matrix.transpose_smul, hJ, smul_neg, Matrix.exp_neg]
  exact Matrix.mul_nonsing_inv _ ((Matrix.isUnit_iff_isUnit_det _).1 (Matrix.isUnit_exp _))

theorem exp_entry (J : Mat d) (b c : Fin d) : HasDerivAt (fun s : ℝ => NormedSpace.exp (s • J) b c) (J b c) 0 := by
  have h := hasDerivAt_exp_smul_const J (0 : ℝ)
  rw [zero_smul, NormedSpace.exp_zero, one_mul] at h
  exact hasDerivAt_pi.1 (hasDerivAt_pi.1 h b) c
end

/-- Turning about the origin with the angular velocity `J` for the time `s`. -/
def Rigid.spin {J : Mat d} (hJ : Jᵀ = -J) (s : ℝ) : Rigid d := ⟨NormedSpace.exp (s • J), 0, exp_skew hJ s⟩

theorem spin_zero {J : Mat d} (hJ : Jᵀ = -J) : Rigid.spin hJ 0 = Rigid.translation 0 := by
  unfold Rigid.spin Rigid.translation
  congr 1
  rw [zero_smul, NormedSpace.exp_zero]

theorem spin_lin {J : Mat d} (hJ : Jᵀ = -J) (s : ℝ) : (Rigid.spin hJ s).lin = Rigid.spin hJ s := rfl

theorem spin_point {J : Mat d} (hJ : Jᵀ = -J) (s : ℝ) (x : Vec d) : (Rigid.spin hJ s).point x = (Rigid.spin hJ s).vec x := add_zero _

theorem vec_spin {J : Mat d} (hJ : Jᵀ = -J) (v : Vec d) (c : Fin d) : HasDerivAt (fun s => (Rigid.spin hJ s).vec v c) ((J *ᵥ v) c) 0 := by
  unfold Rigid.vec Rigid.spin Matrix.mulVec dotProduct
  exact HasDerivAt.fun_sum fun k _ => (exp_entry J c k).mul_const _

theorem mat_spin {J : Mat d} (hJ : Jᵀ = -J) (M : Mat d) (b c : Fin d) : HasDerivAt (fun s => ((Rigid.spin hJ s).Q * M) b c) ((J * M) b c) 0 := by
  unfold Rigid.spin
  simp only [Matrix.mul_apply]
  exact HasDerivAt.fun_sum fun k _ => (exp_entry J b k).mul_const _

/-! ## Lists that depend on a parameter -/

/-- `L'` is the derivative of the list `L` at zero. -/
def ListDeriv (L : ℝ → List ℝ) (L' : List ℝ) : Prop :=
  (∀ s, (L s).length = L'.length) ∧ ∀ j, HasDerivAt (fun s => rowOf (L s) j) (rowOf L' j) 0

theorem rowOf_append (l l' : List ℝ) (j : Nat) : rowOf (l ++ l') j = if j < l.length then rowOf l j else rowOf l' (j - l.length) := by
  unfold rowOf List.getD
  split
  · rw [List.getElem?_append_left (by assumption)]
  · rw [List.getElem?_append_right (by omega)]

theorem ListDeriv.append {L M : ℝ → List ℝ} {L' M' : List ℝ} (h : ListDeriv L L') (h' : ListDeriv M M') : ListDeriv (fun s => L s ++ M s) (L' ++ M') := by
  refine ⟨fun s => by rw [List.length_append, List.length_append, h.1, h'.1], fun j => ?_⟩
  simp only [rowOf_append, h.1]
  split
  · exact h.2 j
  · exact h'.2 _

theorem listDeriv_nil : ListDeriv (fun _ => []) [] := ⟨fun _ => rfl, fun j => by simpa [rowOf] using hasDerivAt_const (0 : ℝ) (0 : ℝ)⟩

theorem listDeriv_ofFn {n : Nat} {f : ℝ → Fin n → ℝ} {f' : Fin n → ℝ} (h : ∀ i, HasDerivAt (fun s => f s i) (f' i) 0) :
    ListDeriv (fun s => List.ofFn (f s)) (List.ofFn f') := by
  refine ⟨fun s => by rw [List.length_ofFn, List.length_ofFn], fun j => ?_⟩
  by_cases hj : j < n
  · have e : ∀ f : Fin n → ℝ, rowOf (List.ofFn f) j = f ⟨j, hj⟩ := fun f => by simp [rowOf, List.getD, hj]
    simp only [e]
    exact h _
  · have e : ∀ f : Fin n → ℝ, rowOf (List.ofFn f) j = 0 := fun f => by simp [rowOf, List.getD, hj]
    simp only [e]
    exact hasDerivAt_const _ _

theorem listDeriv_vecs {n : Nat} {f : ℝ → Fin n → Vec d} {f' : Fin n → Vec d} (h : ∀ i c, HasDerivAt (fun s => f s i c) (f' i c) 0) :
    ListDeriv (fun s => flatVecs (f s)) (flatVecs f') := listDeriv_ofFn fun _ => h _ _

theorem listDeriv_mats {n : Nat} {f : ℝ → Fin n → Mat d} {f' : Fin n → Mat d} (h : ∀ i b c, HasDerivAt (fun s => f s i b c) (f' i b c) 0) :
    ListDeriv (fun s => flatMats (f s)) (flatMats f') := listDeriv_ofFn fun _ => h _ _ _

/-! ## Turning a manifold -/

mutual
/-- The velocities of the descriptors and momenta when everything turns. -/
def Mfd.turning (J : Mat d) : Mfd d → Mfd d
  | .landmarks gd cot => .landmarks (fun i => J *ᵥ gd i) (fun i => J *ᵥ cot i)
  | .direction t gd dir cot cdir => .direction t (fun i => J *ᵥ gd i) (fun i => J *ᵥ dir i) (fun i => J *ᵥ cot i) (fun i => J *ᵥ cdir i)
  | .frame gd R cot cR => .frame (fun i => J *ᵥ gd i) (fun i => J * R i) (fun i => J *ᵥ cot i) (fun i => J * cR i)
  | .empty => .empty
  | .compound ms => .compound (Mfd.turningAll J ms)
def Mfd.turningAll (J : Mat d) : List (Mfd d) → List (Mfd d)
  | [] => []
  | m :: ms => m.turning J :: Mfd.turningAll J ms
end

mutual
theorem turning_deriv {J : Mat d} (hJ : Jᵀ = -J) : (M : Mfd d) →
    ListDeriv (fun s => (M.move (Rigid.spin hJ s)).unrollGd.flatten) (M.turning J).unrollGd.flatten ∧
      ListDeriv (fun s => (M.move (Rigid.spin hJ s)).unrollCot.flatten) (M.turning J).unrollCot.flatten
  | .landmarks gd cot => by
    simp only [Mfd.move, Mfd.turning, Mfd.unrollGd, Mfd.unrollCot, List.flatten_cons, List.flatten_nil, List.append_nil, spin_point]
    exact ⟨listDeriv_vecs fun _ => vec_spin hJ _, listDeriv_vecs fun _ => vec_spin hJ _⟩
  | .direction _ gd dir cot cdir => by
    simp only [Mfd.move, Mfd.turning, Mfd.unrollGd, Mfd.unrollCot, List.flatten_cons, List.flatten_nil, List.append_nil, spin_point]
    exact ⟨(listDeriv_vecs fun _ => vec_spin hJ _).append (listDeriv_vecs fun _ => vec_spin hJ _),
      (listDeriv_vecs fun _ => vec_spin hJ _).append (listDeriv_vecs fun _ => vec_spin hJ _)⟩
  | .frame gd R cot cR => by
    simp only [Mfd.move, Mfd.turning, Mfd.unrollGd, Mfd.unrollCot, List.flatten_cons, List.flatten_nil, List.append_nil, spin_point]
    exact ⟨(listDeriv_vecs fun _ => vec_spin hJ _).append (listDeriv_mats fun _ => mat_spin hJ _),
      (listDeriv_vecs fun _ => vec_spin hJ _).append (listDeriv_mats fun _ => mat_spin hJ _)⟩
  | .empty => by
    simp only [Mfd.move, Mfd.turning, Mfd.unrollGd, Mfd.unrollCot, List.flatten_nil]
    exact ⟨listDeriv_nil, listDeriv_nil⟩
  | .compound ms => by
    simp only [Mfd.move, Mfd.turning, Mfd.unrollGd, Mfd.unrollCot]
    exact turningAll_deriv hJ ms
theorem turningAll_deriv {J : Mat d} (hJ : Jᵀ = -J) : (Ms : List (Mfd d)) →
    ListDeriv (fun s => (Mfd.unrollGdAll (Mfd.moveAll (Rigid.spin hJ s) Ms)).flatten) (Mfd.unrollGdAll (Mfd.turningAll J Ms)).flatten ∧
      ListDeriv (fun s => (Mfd.unrollCotAll (Mfd.moveAll (Rigid.spin hJ s) Ms)).flatten) (Mfd.unrollCotAll (Mfd.turningAll J Ms)).flatten
  | [] => by
    simp only [Mfd.moveAll, Mfd.turningAll, Mfd.unrollGdAll, Mfd.unrollCotAll, List.flatten_nil]
    exact ⟨listDeriv_nil, listDeriv_nil⟩
  | M :: Ms => by
    simp only [Mfd.moveAll, Mfd.turningAll, Mfd.unrollGdAll, Mfd.unrollCotAll, List.flatten_append]
    exact ⟨(turning_deriv hJ M).1.append (turningAll_deriv hJ Ms).1, (turning_deriv hJ M).2.append (turningAll_deriv hJ Ms).2⟩
end

mutual
theorem length_turning (J : Mat d) : (M : Mfd d) → (M.turning J).unrollGd.flatten.length = M.size ∧ (M.turning J).unrollCot.flatten.length = M.size
  | .landmarks gd cot => by simp [Mfd.turning, Mfd.unrollGd, Mfd.unrollCot, Mfd.size, length_flatVecs]
  | .direction _ gd dir cot cdir => by simp [Mfd.turning, Mfd.unrollGd, Mfd.unrollCot, Mfd.size, length_flatVecs]
  | .frame gd R cot cR => by simp [Mfd.turning, Mfd.unrollGd, Mfd.unrollCot, Mfd.size, length_flatVecs, length_flatMats]
  | .empty => by simp [Mfd.turning, Mfd.unrollGd, Mfd.unrollCot, Mfd.size]
  | .compound ms => by simp only [Mfd.turning, Mfd.unrollGd, Mfd.unrollCot, Mfd.size]; exact length_turningAll J ms
theorem length_turningAll (J : Mat d) : (Ms : List (Mfd d)) →
    (Mfd.unrollGdAll (Mfd.turningAll J Ms)).flatten.length = Mfd.sizeAll Ms ∧ (Mfd.unrollCotAll (Mfd.turningAll J Ms)).flatten.length = Mfd.sizeAll Ms
  | [] => by simp [Mfd.turningAll, Mfd.unrollGdAll, Mfd.unrollCotAll, Mfd.sizeAll]
  | M :: Ms => by
    simp only [Mfd.turningAll, Mfd.unrollGdAll, Mfd.unrollCotAll, List.flatten_append, List.length_append, Mfd.sizeAll]
    exact ⟨by rw [(length_turning J M).1, (length_turningAll J Ms).1], by rw [(length_turning J M).2, (length_turningAll J Ms).2]⟩
end

mutual
theorem dotL_turning (J : Mat d) : (M : Mfd d) → dotL (M.turning J).unrollGd.flatten M.unrollCot.flatten = M.angular J
  | .landmarks gd cot => by
    simp only [Mfd.turning, Mfd.unrollGd, Mfd.unrollCot, List.flatten_cons, List.flatten_nil, List.append_nil, dotL_vecs, Mfd.angular]
    exact Finset.sum_congr rfl fun i _ => dotProduct_comm _ _
  | .direction _ gd dir cot cdir => by
    simp only [Mfd.turning, Mfd.unrollGd, Mfd.unrollCot, List.flatten_cons, List.flatten_nil, List.append_nil, Mfd.angular]
    rw [dotL_append (by rw [length_flatVecs, length_flatVecs]), dotL_vecs, dotL_vecs]
    congr 1 <;> exact Finset.sum_congr rfl fun i _ => dotProduct_comm _ _
  | .frame gd R cot cR => by
    simp only [Mfd.turning, Mfd.unrollGd, Mfd.unrollCot, List.flatten_cons, List.flatten_nil, List.append_nil, Mfd.angular]
    rw [dotL_append (by rw [length_flatVecs, length_flatVecs]), dotL_vecs, dotL_mats]
    congr 1
    · exact Finset.sum_congr rfl fun i _ => dotProduct_comm _ _
    · exact Finset.sum_congr rfl fun i _ => by rw [← Matrix.trace_transpose, Matrix.transpose_mul, Matrix.transpose_transpose]
  | .empty => by simp [Mfd.turning, Mfd.unrollGd, Mfd.unrollCot, Mfd.angular, dotL]
  | .compound ms => by
    simp only [Mfd.turning, Mfd.unrollGd, Mfd.unrollCot, Mfd.angular]
    exact dotL_turningAll J ms
theorem dotL_turningAll (J : Mat d) : (Ms : List (Mfd d)) →
    dotL (Mfd.unrollGdAll (Mfd.turningAll J Ms)).flatten (Mfd.unrollCotAll Ms).flatten = Mfd.angularAll J Ms
  | [] => by simp [Mfd.turningAll, Mfd.unrollGdAll, Mfd.unrollCotAll, Mfd.angularAll, dotL]
  | M :: Ms => by
    simp only [Mfd.turningAll, Mfd.unrollGdAll, Mfd.unrollCotAll, List.flatten_append, Mfd.angularAll]
    rw [dotL_append (by rw [(length_turning J M).1, Mfd.length_unrollCot]), dotL_turning J M, dotL_turningAll J Ms]
end

/-! ## Turning rows -/

/-- The velocity of the row of descriptors when everything turns. -/
def gdSpin (J : Mat d) (M : Mfd d) (x : Row) : Row := rowOf ((M.withGd x 0).turning J).unrollGd.flatten
/-- The velocity of the row of momenta. -/
def cotSpin (J : Mat d) (M : Mfd d) (x : Row) : Row := rowOf ((M.withCot x 0).turning J).unrollCot.flatten

theorem gdSpin_deriv {J : Mat d} (hJ : Jᵀ = -J) (M : Mfd d) (x : Row) (j : Nat) :
    HasDerivAt (fun s => gdTurn (Rigid.spin hJ s) M x j) (gdSpin J M x j) 0 := (turning_deriv hJ (M.withGd x 0)).1.2 j
theorem cotSpin_deriv {J : Mat d} (hJ : Jᵀ = -J) (M : Mfd d) (x : Row) (j : Nat) :
    HasDerivAt (fun s => cotTurn (Rigid.spin hJ s) M x j) (cotSpin J M x j) 0 := (turning_deriv hJ (M.withCot x 0)).2.2 j

/-- The velocity is linear. -/
def gdSpinL {J : Mat d} (hJ : Jᵀ = -J) (M : Mfd d) : Row →ₗ[ℝ] Row where
  toFun := gdSpin J M
  map_add' x y := funext fun j => (gdSpin_deriv hJ M (x + y) j).unique (by
    simp only [map_add]; exact (gdSpin_deriv hJ M x j).add (gdSpin_deriv hJ M y j))
  map_smul' c x := funext fun j => (gdSpin_deriv hJ M (c • x) j).unique (by
    simp only [map_smul]; exact (gdSpin_deriv hJ M x j).const_mul c)

theorem gdTurn_one {J : Mat d} (hJ : Jᵀ = -J) (M : Mfd d) (x : Row) :
    gdTurn (Rigid.spin hJ 0) M x = cut M.size x ∧ cotTurn (Rigid.spin hJ 0) M x = cut M.size x := by
  rw [spin_zero]
  exact ⟨gdTurn_translation _ _ _, cotTurn_translation _ _ _⟩

/-- The velocities of descriptors and momenta are opposite in products. -/
theorem spin_skew {J : Mat d} (hJ : Jᵀ = -J) (M : Mfd d) (x y : Row) :
    ∑ j : Fin M.size, gdSpin J M x j * y j = -∑ j : Fin M.size, x j * cotSpin J M y j := by
  have h : HasDerivAt (fun s => ∑ j : Fin M.size, gdTurn (Rigid.spin hJ s) M x j * cotTurn (Rigid.spin hJ s) M y j)
      (∑ j : Fin M.size, (gdSpin J M x j * cotTurn (Rigid.spin hJ 0) M y j + gdTurn (Rigid.spin hJ 0) M x j * cotSpin J M y j)) 0 :=
    HasDerivAt.fun_sum fun j _ => (gdSpin_deriv hJ M x j).mul (cotSpin_deriv hJ M y j)
  simp only [rows_turn] at h
  have h0 := h.unique (hasDerivAt_const _ _)
  rw [Finset.sum_add_distrib] at h0
  rw [← add_eq_zero_iff_eq_neg, ← h0]
  congr 1 <;> refine Finset.sum_congr rfl fun j _ => ?_
  · rw [(gdTurn_one hJ M y).2, cut_of_lt j.2]
  · rw [(gdTurn_one hJ M x).1, cut_of_lt j.2]

mutual
theorem turning_withCot (J : Mat d) (y : Row) : (M : Mfd d) → (o : Nat) → ((M.withCot y o).turning J).unrollGd = (M.turning J).unrollGd
  | .landmarks _ _, _ => by simp [Mfd.withCot, Mfd.turning, Mfd.unrollGd]
  | .direction _ _ _ _ _, _ => by simp [Mfd.withCot, Mfd.turning, Mfd.unrollGd]
  | .frame _ _ _ _, _ => by simp [Mfd.withCot, Mfd.turning, Mfd.unrollGd]
  | .empty, _ => by simp [Mfd.withCot, Mfd.turning, Mfd.unrollGd]
  | .compound ms, o => by rw [Mfd.withCot, Mfd.turning, Mfd.unrollGd, Mfd.turning, Mfd.unrollGd, turningAll_withCot J y ms]
theorem turningAll_withCot (J : Mat d) (y : Row) : (Ms : List (Mfd d)) → (o : Nat) →
    Mfd.unrollGdAll (Mfd.turningAll J (Mfd.withCotAll y o Ms)) = Mfd.unrollGdAll (Mfd.turningAll J Ms)
  | [], _ => by simp [Mfd.withCotAll, Mfd.turningAll]
  | M :: Ms, o => by
    rw [Mfd.withCotAll, Mfd.turningAll, Mfd.unrollGdAll, Mfd.turningAll, Mfd.unrollGdAll, turning_withCot J y M, turningAll_withCot J y Ms]
end

/-- Angular momentum in terms of rows. -/
theorem angular_rows (J : Mat d) (m : DefModule d) (x : Row × Row) :
    (rowsMod m x).manifold.angular J = ∑ j : Fin (numCoords m), gdSpin J m.manifold x.1 j * x.2 j := by
  rw [← dotL_turning]
  have e : (rowsMod m x).manifold = (m.manifold.withGd x.1 0).withCot x.2 0 := by
    unfold rowsMod; rw [DefModule.manifold_withCot, DefModule.manifold_withGd]
  have hs : (rowsMod m x).manifold.size = numCoords m := by rw [e, Mfd.size_withCot, Mfd.size_withGd, numCoords_eq]
  rw [dotL_rows ((length_turning J _).1.trans hs) ((Mfd.length_unrollCot _).trans hs)]
  refine Finset.sum_congr rfl fun j _ => ?_
  have h1 : rowOf (rowsMod m x).manifold.unrollCot.flatten j = x.2 j := by
    have := congrFun (cotRow_rowsMod m x) j
    rw [cut_of_lt j.2] at this; exact this
  rw [h1, e, turning_withCot]
  rfl

end
end Imodal
