import Verif.Lemmas.OwnCot
import Verif.Lemmas.Reset
/-!
# The derivative of the Hamiltonian with respect to the momentum

At geodesic controls it is the infinitesimal action of the generated field.
-/
set_option autoImplicit false
namespace Imodal
noncomputable section
open Matrix
variable {d : Nat}

/-! ## When the dual field exists -/

mutual
theorem noEmpty_of_cotToVs {σ : ℝ} {r : Reduction} : (M : Mfd d) → {vs : FieldExpr d} → M.cotToVs σ r = .ok vs → M.NoEmptyCompound
  | .landmarks _ _, _, _ => by rw [Mfd.NoEmptyCompound]; trivial
  | .direction _ _ _ _ _, _, _ => by rw [Mfd.NoEmptyCompound]; trivial
  | .frame _ _ _ _, _, _ => by rw [Mfd.NoEmptyCompound]; trivial
  | .empty, _, _ => by rw [Mfd.NoEmptyCompound]; trivial
  | .compound ms, vs, h => by
    rw [Mfd.cotToVs] at h
    rw [Mfd.NoEmptyCompound]
    cases h1 : Mfd.cotToVsAll σ r ms with
    | error e => rw [h1] at h; cases h
    | ok fs =>
      rw [h1] at h
      refine ⟨?_, noEmpty_of_cotToVsAll ms h1⟩
      rintro rfl
      rw [Mfd.cotToVsAll] at h1
      rw [← Except.ok.inj h1] at h
      cases h
theorem noEmpty_of_cotToVsAll {σ : ℝ} {r : Reduction} : (ms : List (Mfd d)) → {fs : List (FieldExpr d)} →
    Mfd.cotToVsAll σ r ms = .ok fs → Mfd.AllNoEmptyCompound ms
  | [], _, _ => by rw [Mfd.AllNoEmptyCompound]; trivial
  | m :: ms, fs, h => by
    rw [Mfd.cotToVsAll] at h
    rw [Mfd.AllNoEmptyCompound]
    cases h1 : Mfd.cotToVs σ r m with
    | error e => rw [h1] at h; cases h
    | ok f =>
      rw [h1] at h; dsimp only at h
      cases h2 : Mfd.cotToVsAll σ r ms with
      | error e => rw [h2] at h; cases h
      | ok fs' => exact ⟨noEmpty_of_cotToVs m h1, noEmpty_of_cotToVsAll ms h2⟩
end

theorem f0u_not_avail (r : Reduction) {n : Nat} (supp mom dir : Fin n → Vec d) (σ : ℝ) : ¬ Avail 1 (.f0u r supp mom dir σ) := by
  rintro ⟨V, hV⟩
  have := hV 0
  rw [FieldExpr.eval] at this
  cases this

mutual
theorem noDir_of_avail {σ : ℝ} {r : Reduction} : (M : Mfd d) → {vs : FieldExpr d} → M.cotToVs σ r = .ok vs → Avail 1 vs →
    M.NoDirections
  | .landmarks _ _, _, _, _ => by rw [Mfd.NoDirections]; trivial
  | .direction t _ _ _ _, vs, h, ha => by
    rw [Mfd.NoDirections]
    cases t <;> rw [Mfd.cotToVs] at h <;> rw [mkSumField_ok h] at ha
    · exact f0u_not_avail _ _ _ _ _ (avail_sum_cons.mp (avail_sum_cons.mp ha).2).1
    · exact f0u_not_avail _ _ _ _ _ (avail_sum_cons.mp (avail_sum_cons.mp ha).2).1
  | .frame _ _ _ _, _, _, _ => by rw [Mfd.NoDirections]; trivial
  | .empty, _, _, _ => by rw [Mfd.NoDirections]; trivial
  | .compound ms, vs, h, ha => by
    rw [Mfd.cotToVs] at h
    rw [Mfd.NoDirections]
    cases h1 : Mfd.cotToVsAll σ r ms with
    | error e => rw [h1] at h; cases h
    | ok fs =>
      rw [h1] at h
      rw [mkSumField_ok h] at ha
      exact noDir_of_availAll ms h1 ha
theorem noDir_of_availAll {σ : ℝ} {r : Reduction} : (ms : List (Mfd d)) → {fs : List (FieldExpr d)} →
    Mfd.cotToVsAll σ r ms = .ok fs → Avail 1 (.sum fs) → Mfd.AllNoDirections ms
  | [], _, _, _ => by rw [Mfd.AllNoDirections]; trivial
  | m :: ms, fs, h, ha => by
    rw [Mfd.cotToVsAll] at h
    rw [Mfd.AllNoDirections]
    cases h1 : Mfd.cotToVs σ r m with
    | error e => rw [h1] at h; cases h
    | ok f =>
      rw [h1] at h; dsimp only at h
      cases h2 : Mfd.cotToVsAll σ r ms with
      | error e => rw [h2] at h; cases h
      | ok fs' =>
        rw [h2] at h
        rw [← Except.ok.inj h] at ha
        obtain ⟨a, b⟩ := avail_sum_cons.mp ha
        exact ⟨noDir_of_avail m h1 a, noDir_of_availAll ms h2 b⟩
end

theorem dualLike_of {man man' : Mfd d} (he : man.NoEmptyCompound → man'.NoEmptyCompound)
    (hd : man.NoDirections → man'.NoDirections) : DualLike man man' := by
  intro σ r vs h
  obtain ⟨vs', h', h0⟩ := cotToVs_full σ r man' (he (noEmpty_of_cotToVs man h))
  refine ⟨vs', h', fun k hk ha => ?_⟩
  rcases Nat.le_one_iff_eq_zero_or_eq_one.mp hk with rfl | rfl
  · exact h0
  · exact cotToVs_jac man' (hd (noDir_of_avail man h ha)) h'

mutual
theorem Mfd.noEmptyCompound_withCot (y : Row) : (M : Mfd d) → (off : Nat) → ((M.withCot y off).NoEmptyCompound ↔ M.NoEmptyCompound)
  | .landmarks _ _, _ => by rw [Mfd.withCot, Mfd.NoEmptyCompound, Mfd.NoEmptyCompound]
  | .direction _ _ _ _ _, _ => by rw [Mfd.withCot, Mfd.NoEmptyCompound, Mfd.NoEmptyCompound]
  | .frame _ _ _ _, _ => by rw [Mfd.withCot, Mfd.NoEmptyCompound, Mfd.NoEmptyCompound]
  | .empty, _ => by rw [Mfd.withCot]
  | .compound ms, off => by
    rw [Mfd.withCot, Mfd.NoEmptyCompound, Mfd.NoEmptyCompound, Mfd.allNoEmptyCompound_withCot y ms off]
    cases ms <;> simp [Mfd.withCotAll]
theorem Mfd.allNoEmptyCompound_withCot (y : Row) : (ms : List (Mfd d)) → (off : Nat) →
    (Mfd.AllNoEmptyCompound (Mfd.withCotAll y off ms) ↔ Mfd.AllNoEmptyCompound ms)
  | [], _ => by rw [Mfd.withCotAll]
  | m :: ms, off => by
    rw [Mfd.withCotAll, Mfd.AllNoEmptyCompound, Mfd.AllNoEmptyCompound, Mfd.noEmptyCompound_withCot y m, Mfd.allNoEmptyCompound_withCot y ms]
end

mutual
theorem Mfd.noDirections_withCot (y : Row) : (M : Mfd d) → (off : Nat) → ((M.withCot y off).NoDirections ↔ M.NoDirections)
  | .landmarks _ _, _ => by rw [Mfd.withCot, Mfd.NoDirections, Mfd.NoDirections]
  | .direction _ _ _ _ _, _ => by rw [Mfd.withCot, Mfd.NoDirections, Mfd.NoDirections]
  | .frame _ _ _ _, _ => by rw [Mfd.withCot, Mfd.NoDirections, Mfd.NoDirections]
  | .empty, _ => by rw [Mfd.withCot]
  | .compound ms, off => by
    rw [Mfd.withCot, Mfd.NoDirections, Mfd.NoDirections, Mfd.allNoDirections_withCot y ms off]
theorem Mfd.allNoDirections_withCot (y : Row) : (ms : List (Mfd d)) → (off : Nat) →
    (Mfd.AllNoDirections (Mfd.withCotAll y off ms) ↔ Mfd.AllNoDirections ms)
  | [], _ => by rw [Mfd.withCotAll]
  | m :: ms, off => by
    rw [Mfd.withCotAll, Mfd.AllNoDirections, Mfd.AllNoDirections, Mfd.noDirections_withCot y m, Mfd.allNoDirections_withCot y ms]
end

theorem dualLike_withCot (x y : Row) (man : Mfd d) (off off' : Nat) : DualLike (man.withCot x off) (man.withCot y off') :=
  dualLike_of (fun h => (man.noEmptyCompound_withCot y off').mpr ((man.noEmptyCompound_withCot x off).mp h))
    (fun h => (man.noDirections_withCot y off').mpr ((man.noDirections_withCot x off).mp h))

/-! ## Velocities of the descriptors -/

/-- The product of the entries of a row from `off` on with a list. -/
def dotRow (p : Row) : Nat → List ℝ → ℝ
  | _, [] => 0
  | off, a :: l => p off * a + dotRow p (off + 1) l

theorem dotRow_append (p : Row) : (l l' : List ℝ) → (off : Nat) → dotRow p off (l ++ l') = dotRow p off l + dotRow p (off + l.length) l'
  | [], l', off => by simp [dotRow]
  | a :: l, l', off => by
    rw [List.cons_append, dotRow, dotRow, dotRow_append p l l', List.length_cons,
      show off + 1 + l.length = off + (l.length + 1) by omega]
    ring

theorem dotRow_ofFn (p : Row) {n : Nat} (f : Fin n → ℝ) (off : Nat) : dotRow p off (List.ofFn f) = ∑ k : Fin n, p (off + k) * f k := by
  induction n generalizing off with
  | zero => simp [dotRow]
  | succ n ih =>
    rw [List.ofFn_succ, dotRow, ih, Fin.sum_univ_succ]
    simp only [Fin.val_zero, Nat.add_zero, Fin.val_succ]
    congr 1
    exact Finset.sum_congr rfl fun k _ => by rw [show off + 1 + (k : Nat) = off + (k + 1) by omega]

theorem dotRow_flatVecs (p : Row) {n : Nat} (g : Fin n → Vec d) (off : Nat) :
    dotRow p off (flatVecs g) = ∑ i, ∑ c, viewVecs (fun j => p (off + j)) i c * g i c := by
  unfold flatVecs
  rw [dotRow_ofFn, ← finProdFinEquiv.sum_comp, Fintype.sum_prod_type]
  refine Finset.sum_congr rfl fun i _ => Finset.sum_congr rfl fun c _ => ?_
  have h := finProdFinEquiv.symm_apply_apply (i, c)
  have h1 : (finProdFinEquiv (i, c)).divNat = i := congrArg Prod.fst h
  have h2 : (finProdFinEquiv (i, c)).modNat = c := congrArg Prod.snd h
  rw [h1, h2, viewVecs, finProdFinEquiv_apply_val, Nat.mul_comm, Nat.add_comm (c : Nat)]

theorem dotRow_flatMats (p : Row) {n : Nat} (g : Fin n → Mat d) (off : Nat) :
    dotRow p off (flatMats g) = ∑ i, ∑ b, ∑ c, viewMats (fun j => p (off + j)) i b c * g i b c := by
  unfold flatMats
  rw [dotRow_ofFn, ← finProdFinEquiv.sum_comp, Fintype.sum_prod_type]
  refine Finset.sum_congr rfl fun i _ => ?_
  rw [← finProdFinEquiv.sum_comp, Fintype.sum_prod_type]
  refine Finset.sum_congr rfl fun b _ => Finset.sum_congr rfl fun c _ => ?_
  have h := finProdFinEquiv.symm_apply_apply (i, finProdFinEquiv (b, c))
  have h1 : (finProdFinEquiv (i, finProdFinEquiv (b, c))).divNat = i := congrArg Prod.fst h
  have h2 : (finProdFinEquiv (i, finProdFinEquiv (b, c))).modNat = finProdFinEquiv (b, c) := congrArg Prod.snd h
  have h' := finProdFinEquiv.symm_apply_apply (b, c)
  have h3 : (finProdFinEquiv (b, c)).divNat = b := congrArg Prod.fst h'
  have h4 : (finProdFinEquiv (b, c)).modNat = c := congrArg Prod.snd h'
  rw [h1, h2, h3, h4, viewMats, Matrix.of_apply, finProdFinEquiv_apply_val, finProdFinEquiv_apply_val]
  congr 2
  simp only
  ring

theorem dotRow_add (p e : Row) (t : ℝ) : (l : List ℝ) → (off : Nat) → dotRow (p + t • e) off l = dotRow p off l + t * dotRow e off l
  | [], off => by simp [dotRow]
  | a :: l, off => by
    rw [dotRow, dotRow, dotRow, dotRow_add p e t l]
    simp only [Pi.add_apply, Pi.smul_apply, smul_eq_mul]
    ring

theorem dotRow_zero_of (p : Row) : (l : List ℝ) → (off : Nat) → (∀ j, off ≤ j → j < off + l.length → p j = 0) → dotRow p off l = 0
  | [], off, _ => rfl
  | a :: l, off, h => by
    rw [dotRow, h off le_rfl (by simp), dotRow_zero_of p l (off + 1) fun j h1 h2 => h j (by omega) (by rw [List.length_cons]; omega)]
    ring

/-- The row with a single one. -/
def unitRow (j : Nat) : Row := fun i => if i = j then 1 else 0

theorem dotRow_unit (j : Nat) : (l : List ℝ) → (off : Nat) → dotRow (unitRow (off + j)) off l = l.getD j 0
  | [], off => by simp [dotRow]
  | a :: l, off => by
    rw [dotRow]
    cases j with
    | zero =>
      rw [dotRow_zero_of]
      · simp [unitRow]
      · intro i h1 _
        simp only [unitRow]; rw [if_neg (by omega)]
    | succ j =>
      rw [show off + (j + 1) = off + 1 + j by omega, dotRow_unit j l (off + 1)]
      simp only [unitRow, List.getD_cons_succ]
      rw [if_neg (by omega)]; ring

theorem update_eq (p : Row) (j : Nat) (s : ℝ) : Function.update p j s = p + (s - p j) • unitRow j := by
  funext i
  by_cases h : i = j
  · subst h; simp [unitRow]
  · simp [unitRow, h]

mutual
/-- The velocities of all descriptor entries under a field given by values and Jacobians. -/
def Mfd.moves (v : Vec d → Vec d) (J : Vec d → Mat d) : Mfd d → List ℝ
  | .landmarks gd _ => flatVecs fun i => v (gd i)
  | .direction .vector gd dir _ _ =>
    flatVecs (fun i => v (gd i)) ++ flatVecs fun i b => ∑ c, J (gd i) b c * dir i c
  | .direction .orthogonal gd dir _ _ =>
    flatVecs (fun i => v (gd i)) ++ flatVecs fun i b => -∑ c, J (gd i) c b * dir i c
  | .frame gd R _ _ =>
    flatVecs (fun i => v (gd i)) ++ flatMats fun i => Matrix.of fun b k => ∑ c, 0.5 * (J (gd i) b c - J (gd i) c b) * R i c k
  | .empty => []
  | .compound ms => Mfd.movesAll v J ms
def Mfd.movesAll (v : Vec d → Vec d) (J : Vec d → Mat d) : List (Mfd d) → List ℝ
  | [] => []
  | m :: ms => m.moves v J ++ Mfd.movesAll v J ms
end

mutual
theorem Mfd.length_moves (v : Vec d → Vec d) (J : Vec d → Mat d) : (M : Mfd d) → (M.moves v J).length = M.size
  | .landmarks gd _ => by rw [Mfd.moves, Mfd.size, length_flatVecs]
  | .direction .vector gd dir _ _ => by rw [Mfd.moves, Mfd.size, List.length_append, length_flatVecs, length_flatVecs]
  | .direction .orthogonal gd dir _ _ => by rw [Mfd.moves, Mfd.size, List.length_append, length_flatVecs, length_flatVecs]
  | .frame gd R _ _ => by rw [Mfd.moves, Mfd.size, List.length_append, length_flatVecs, length_flatMats]
  | .empty => by rw [Mfd.moves, Mfd.size]; rfl
  | .compound ms => by rw [Mfd.moves, Mfd.size, Mfd.length_movesAll v J ms]
theorem Mfd.length_movesAll (v : Vec d → Vec d) (J : Vec d → Mat d) : (ms : List (Mfd d)) → (Mfd.movesAll v J ms).length = Mfd.sizeAll ms
  | [] => by rw [Mfd.movesAll, Mfd.sizeAll]; rfl
  | m :: ms => by rw [Mfd.movesAll, Mfd.sizeAll, List.length_append, Mfd.length_moves v J m, Mfd.length_movesAll v J ms]
end

mutual
/-- The momentum read from a row pairs with a field as the row with the velocities. -/
theorem pair_withCot (p : Row) (v : Vec d → Vec d) (J : Vec d → Mat d) : (M : Mfd d) → (off : Nat) →
    pair (momAtoms (M.withCot p off)) v J = dotRow p off (M.moves v J)
  | .landmarks gd _, off => by
    rw [Mfd.withCot, momAtoms, Mfd.moves, pair_ofFn, dotRow_flatVecs]
    exact Finset.sum_congr rfl fun i _ => atom0_pair _ _ _ _
  | .direction .vector gd dir _ _, off => by
    rw [Mfd.withCot, momAtoms, Mfd.moves, pair_append, pair_ofFn, pair_ofFn, dotRow_append, dotRow_flatVecs, dotRow_flatVecs,
      length_flatVecs]
    congr 1
    · exact Finset.sum_congr rfl fun i _ => atom0_pair _ _ _ _
    · refine Finset.sum_congr rfl fun i _ => ?_
      rw [atom1_pair]
      refine Finset.sum_congr rfl fun b _ => ?_
      rw [Finset.mul_sum]
      exact Finset.sum_congr rfl fun c _ => by rw [vecMulVec_apply]; ring
  | .direction .orthogonal gd dir _ _, off => by
    rw [Mfd.withCot, momAtoms, Mfd.moves, pair_append, pair_ofFn, pair_ofFn, dotRow_append, dotRow_flatVecs, dotRow_flatVecs,
      length_flatVecs]
    congr 1
    · exact Finset.sum_congr rfl fun i _ => atom0_pair _ _ _ _
    · refine Finset.sum_congr rfl fun i _ => ?_
      rw [atom1_pair, Finset.sum_comm]
      refine Finset.sum_congr rfl fun b _ => ?_
      rw [← Finset.sum_neg_distrib, Finset.mul_sum]
      exact Finset.sum_congr rfl fun c _ => by rw [vecMulVec_apply]; ring
  | .frame gd R _ _, off => by
    rw [Mfd.withCot, momAtoms, Mfd.moves, pair_append, pair_ofFn, pair_ofFn, dotRow_append, dotRow_flatVecs, dotRow_flatMats,
      length_flatVecs]
    congr 1
    · exact Finset.sum_congr rfl fun i _ => atom0_pair _ _ _ _
    · refine Finset.sum_congr rfl fun i _ => ?_
      rw [atom1_pair, ← frame_pair]
      rfl
  | .empty, off => by rw [Mfd.withCot, momAtoms, Mfd.moves]; rfl
  | .compound ms, off => by rw [Mfd.withCot, momAtoms, Mfd.moves]; exact pairAll_withCot p v J ms off
theorem pairAll_withCot (p : Row) (v : Vec d → Vec d) (J : Vec d → Mat d) : (ms : List (Mfd d)) → (off : Nat) →
    pair (momAtomsAll (Mfd.withCotAll p off ms)) v J = dotRow p off (Mfd.movesAll v J ms)
  | [], off => by rw [Mfd.withCotAll, momAtomsAll, Mfd.movesAll]; rfl
  | m :: ms, off => by
    rw [Mfd.withCotAll, momAtomsAll, Mfd.movesAll, pair_append, dotRow_append, pair_withCot p v J m, pairAll_withCot p v J ms,
      Mfd.length_moves]
end

theorem pair_withCot_add (p e : Row) (t : ℝ) (M : Mfd d) (off : Nat) (v : Vec d → Vec d) (J : Vec d → Mat d) :
    pair (momAtoms (M.withCot (p + t • e) off)) v J
      = pair (momAtoms (M.withCot p off)) v J + t * pair (momAtoms (M.withCot e off)) v J := by
  rw [pair_withCot, pair_withCot, pair_withCot, dotRow_add]

mutual
/-- `infinitesimal_action` unrolled. -/
theorem action_moves {f : FieldExpr d} : (M : Mfd d) → {w : Tan d} → M.action f = .ok w →
    w.unroll.flatten = M.moves (fieldVal f) (fieldJac f)
  | .landmarks gd _, w, h => by
    rw [Mfd.action] at h
    unfold actLandmarks at h
    cases h1 : f.values gd with
    | error e => rw [h1] at h; cases h
    | ok v =>
      rw [h1] at h
      rw [← Except.ok.inj h, (values_ok h1).2]
      simp [Tan.unroll, Mfd.moves]
  | .direction t gd dir _ _, w, h => by
    rw [Mfd.action] at h
    unfold actDirection at h
    cases h1 : f.values gd with
    | error e => rw [h1] at h; cases h
    | ok v =>
      rw [h1] at h; dsimp only at h
      cases h2 : f.jacobians gd with
      | error e => rw [h2] at h; cases h
      | ok J =>
        rw [h2] at h; dsimp only at h
        cases t
        · dsimp only at h
          rw [← Except.ok.inj h, (values_ok h1).2, (jacobians_ok h2).2]
          simp [Tan.unroll, Mfd.moves]
        · dsimp only at h
          rw [← Except.ok.inj h, (values_ok h1).2, (jacobians_ok h2).2]
          simp [Tan.unroll, Mfd.moves]
  | .frame gd R _ _, w, h => by
    rw [Mfd.action] at h
    unfold actFrame at h
    cases h1 : f.values gd with
    | error e => rw [h1] at h; cases h
    | ok v =>
      rw [h1] at h; dsimp only at h
      cases h2 : f.jacobians gd with
      | error e => rw [h2] at h; cases h
      | ok J =>
        rw [h2] at h; dsimp only at h
        rw [← Except.ok.inj h, (values_ok h1).2, (jacobians_ok h2).2]
        simp [Tan.unroll, Mfd.moves]
        rfl
  | .empty, w, h => by
    rw [Mfd.action] at h; rw [← Except.ok.inj h]
    simp [Tan.unroll, Mfd.moves]
  | .compound ms, w, h => by
    rw [Mfd.action] at h
    cases h1 : Mfd.actionAll f ms with
    | error e => rw [h1] at h; cases h
    | ok ts =>
      rw [h1] at h; rw [← Except.ok.inj h, Tan.unroll, Mfd.moves]
      exact actionAll_moves ms h1
theorem actionAll_moves {f : FieldExpr d} : (ms : List (Mfd d)) → {ws : List (Tan d)} → Mfd.actionAll f ms = .ok ws →
    (Tan.unrollAll ws).flatten = Mfd.movesAll (fieldVal f) (fieldJac f) ms
  | [], w, h => by
    rw [Mfd.actionAll] at h; rw [← Except.ok.inj h]
    simp [Tan.unrollAll, Mfd.movesAll]
  | m :: ms, w, h => by
    rw [Mfd.actionAll] at h
    cases h1 : Mfd.action f m with
    | error e => rw [h1] at h; cases h
    | ok t =>
      rw [h1] at h; dsimp only at h
      cases h2 : Mfd.actionAll f ms with
      | error e => rw [h2] at h; cases h
      | ok ts =>
        rw [h2] at h
        rw [← Except.ok.inj h, Tan.unrollAll, Mfd.movesAll, List.flatten_append, action_moves m h1, actionAll_moves ms h2]
end

mutual
theorem action_avail {f : FieldExpr d} (h0 : Avail 0 f) (h1 : Avail 1 f) : (M : Mfd d) → ∃ w, M.action f = .ok w
  | .landmarks gd _ => by rw [Mfd.action]; unfold actLandmarks; rw [h0.values]; exact ⟨_, rfl⟩
  | .direction t gd dir _ _ => by
    rw [Mfd.action]; unfold actDirection; rw [h0.values]; dsimp only; rw [h1.jacobians]
    cases t <;> exact ⟨_, rfl⟩
  | .frame gd R _ _ => by
    rw [Mfd.action]; unfold actFrame; rw [h0.values]; dsimp only; rw [h1.jacobians]; exact ⟨_, rfl⟩
  | .empty => by rw [Mfd.action]; exact ⟨_, rfl⟩
  | .compound ms => by
    obtain ⟨ws, hw⟩ := actionAll_avail h0 h1 ms
    rw [Mfd.action, hw]; exact ⟨_, rfl⟩
theorem actionAll_avail {f : FieldExpr d} (h0 : Avail 0 f) (h1 : Avail 1 f) : (ms : List (Mfd d)) → ∃ ws, Mfd.actionAll f ms = .ok ws
  | [] => by rw [Mfd.actionAll]; exact ⟨_, rfl⟩
  | m :: ms => by
    obtain ⟨w, hw⟩ := action_avail h0 h1 m
    obtain ⟨ws, hws⟩ := actionAll_avail h0 h1 ms
    rw [Mfd.actionAll, hw]; dsimp only; rw [hws]; exact ⟨_, rfl⟩
end

/-! ## The Hamiltonian along a line of momenta -/

mutual
theorem inhabited_reset : (m : DefModule d) → (m.reset.Inhabited ↔ m.Inhabited)
  | .translations _ => by simp [DefModule.reset, DefModule.Inhabited]
  | .implicit0 _ => by simp [DefModule.reset, DefModule.Inhabited]
  | .oriented _ => by simp [DefModule.reset, DefModule.Inhabited]
  | .constrained _ => by simp [DefModule.reset, DefModule.Inhabited]
  | .globalTranslation _ => by simp [DefModule.reset, DefModule.Inhabited]
  | .linear _ => by simp [DefModule.reset, DefModule.Inhabited]
  | .implicit1 _ => by simp [DefModule.reset, DefModule.Inhabited]
  | .divFree _ => by simp [DefModule.reset, DefModule.Inhabited]
  | .arap _ => by simp [DefModule.reset, DefModule.Inhabited]
  | .silent _ => by simp [DefModule.reset, DefModule.Inhabited]
  | .compound ms => by
    rw [DefModule.reset, DefModule.Inhabited, DefModule.Inhabited, allInhabited_reset ms]
    cases ms <;> simp [DefModule.resetAll]
theorem allInhabited_reset : (ms : List (DefModule d)) → (DefModule.AllInhabited (DefModule.resetAll ms) ↔ DefModule.AllInhabited ms)
  | [] => by rw [DefModule.resetAll]
  | m :: ms => by
    rw [DefModule.resetAll, DefModule.AllInhabited, DefModule.AllInhabited, inhabited_reset m, allInhabited_reset ms]
end

theorem inhabited_of_geodesic {man : Mfd d} {m m' : DefModule d} (h : m.geodesic man = .ok m') (h' : m'.Inhabited) : m.Inhabited := by
  rw [← inhabited_reset, reset_geodesic h, inhabited_reset] at h'
  exact h'

/-- The Hamiltonian of `m` at the geodesic controls of a momentum on `man`. -/
def hamOn (m : DefModule d) (man : Mfd d) : Py ℝ :=
  match m.geodesic man with
  | .error e => .error e
  | .ok m' => hamiltonianOn man m'

/-- Along a line of momenta the Hamiltonian is a quadratic polynomial whose linear coefficient is
the pairing of the direction with the generated velocities. -/
theorem hamOn_line {m m' : DefModule d} {man : Mfd d} {p : Row} {off : Nat} {f : FieldExpr d}
    (hg : m.geodesic (man.withCot p off) = .ok m') (hf : m'.field = .ok f) (e : Row) :
    ∃ a c, ∀ t, hamOn m (man.withCot (p + t • e) off)
      = .ok (a + t * dotRow e off (man.moves (fieldVal f) (fieldJac f)) + t ^ 2 * c) := by
  obtain ⟨q⟩ := uquad_exists m (inhabited_of_geodesic hg (inhabited_of_field m' hf))
  letI := q.inst
  have hs : ∀ t, q.s (man.withCot (p + t • e) off) = q.s (man.withCot p off) + t • q.s (man.withCot e off) := fun t =>
    q.lin _ _ _ t fun v J => pair_withCot_add p e t man off v J
  obtain ⟨h0, hh0, e0⟩ := q.geo _ _ hg
  obtain ⟨m1, hm1⟩ := geodesic_mono (dualLike_withCot p (p + (1 : ℝ) • e) man off off) m hg
  obtain ⟨h1, hh1, e1⟩ := q.geo _ _ hm1
  have e1' := hs 1
  rw [one_smul] at e1' e1
  have ew : q.Q *ᵥ (h1 - h0) = q.s (man.withCot e off) := by
    rw [mulVec_sub, e1, e0, e1', one_smul, add_sub_cancel_left]
  refine ⟨1 / 2 * (h0 ⬝ᵥ q.s (man.withCot p off)), 1 / 2 * ((h1 - h0) ⬝ᵥ q.s (man.withCot e off)), fun t => ?_⟩
  obtain ⟨mt, hmt⟩ := geodesic_mono (dualLike_withCot p (p + t • e) man off off) m hg
  obtain ⟨ht, hht, et⟩ := q.geo _ _ hmt
  unfold hamOn
  rw [hmt]
  dsimp only
  rw [hamiltonian_geo (hht _) et]
  refine congrArg Except.ok ?_
  have hd : dotRow e off (man.moves (fieldVal f) (fieldJac f)) = h0 ⬝ᵥ q.s (man.withCot e off) := by
    obtain ⟨f', hf', -, -, hp, -⟩ := hh0 (man.withCot e off)
    rw [hf] at hf'
    rw [Except.ok.inj hf', ← pair_withCot, hp]
  have hq : q.Q *ᵥ ht = q.Q *ᵥ (h0 + t • (h1 - h0)) := by
    rw [et, hs, mulVec_add, mulVec_smul, ew, e0]
  have hx := dot_of_mulVec_eq q.symm hq
  have hsym : (h1 - h0) ⬝ᵥ q.s (man.withCot p off) = h0 ⬝ᵥ q.s (man.withCot e off) := by
    rw [← e0, ← ew]; exact dot_symm q.symm _ _
  rw [← et, hx, mulVec_add, mulVec_smul, ew, e0, hd]
  simp only [add_dotProduct, dotProduct_add, smul_dotProduct, dotProduct_smul, smul_eq_mul, hsym]
  ring

end
end Imodal
