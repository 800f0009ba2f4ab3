import Verif.Props.C31
import Verif.Lemmas.HamGrad
import Verif.Props.C78
/-!
# C30: total linear momentum is conserved
-/
set_option autoImplicit false
namespace Imodal
noncomputable section
variable {d : Nat}

/-! ## Displacements -/

mutual
theorem length_displacement (v : Vec d) : (M : Mfd d) → (M.displacement v).length = M.size
  | .landmarks gd cot => by rw [Mfd.displacement, length_flatVecs, Mfd.size]
  | .direction t gd dir cot cdir => by rw [Mfd.displacement, List.length_append, length_flatVecs, length_flatVecs, Mfd.size]
  | .frame gd R cot cR => by rw [Mfd.displacement, List.length_append, length_flatVecs, length_flatMats, Mfd.size]
  | .empty => by rw [Mfd.displacement, Mfd.size]; rfl
  | .compound ms => by rw [Mfd.displacement, Mfd.size, length_displacementAll v ms]
theorem length_displacementAll (v : Vec d) : (ms : List (Mfd d)) → (Mfd.displacementAll v ms).length = Mfd.sizeAll ms
  | [] => by rw [Mfd.displacementAll, Mfd.sizeAll]; rfl
  | m :: ms => by
    rw [Mfd.displacementAll, Mfd.sizeAll, List.length_append, length_displacement v m, length_displacementAll v ms]
end

theorem zipWith_zero {l l' : List ℝ} (hl : l'.length = l.length) (h : ∀ a ∈ l', a = 0) : List.zipWith (· + ·) l l' = l := by
  refine List.ext_getElem (by simp [hl]) fun j h1 h2 => ?_
  rw [List.getElem_zipWith, h _ (List.getElem_mem _), add_zero]

theorem zipWith_append_eq {a b a' b' : List ℝ} (h : a.length = a'.length) :
    List.zipWith (· + ·) (a ++ b) (a' ++ b') = List.zipWith (· + ·) a a' ++ List.zipWith (· + ·) b b' := List.zipWith_append h

mutual
/-- `Mfd.displacement` is what `Mfd.shift` adds. -/
theorem unrollGd_shift (v : Vec d) : (M : Mfd d) →
    (M.shift v).unrollGd.flatten = List.zipWith (· + ·) M.unrollGd.flatten (M.displacement v)
  | .landmarks gd cot => by simp [Mfd.shift, Mfd.unrollGd, Mfd.displacement, flatVecs_zip]
  | .direction t gd dir cot cdir => by
    simp only [Mfd.shift, Mfd.unrollGd, Mfd.displacement, List.flatten_cons, List.flatten_nil, List.append_nil, flatVecs_zip]
    rw [zipWith_append_eq (by simp [length_flatVecs]), zipWith_zero (l := flatVecs dir) (by simp [length_flatVecs])]
    intro a ha
    simp only [flatVecs, List.mem_ofFn] at ha
    obtain ⟨_, rfl⟩ := ha; rfl
  | .frame gd R cot cR => by
    simp only [Mfd.shift, Mfd.unrollGd, Mfd.displacement, List.flatten_cons, List.flatten_nil, List.append_nil, flatVecs_zip]
    rw [zipWith_append_eq (by simp [length_flatVecs]), zipWith_zero (l := flatMats R) (by simp [length_flatMats])]
    intro a ha
    simp only [flatMats, List.mem_ofFn] at ha
    obtain ⟨_, rfl⟩ := ha; rfl
  | .empty => by simp [Mfd.shift, Mfd.unrollGd, Mfd.displacement]
  | .compound ms => by rw [Mfd.shift, Mfd.unrollGd, Mfd.unrollGd, Mfd.displacement, unrollGdAll_shift v ms]
theorem unrollGdAll_shift (v : Vec d) : (ms : List (Mfd d)) →
    (Mfd.unrollGdAll (Mfd.shiftAll v ms)).flatten = List.zipWith (· + ·) (Mfd.unrollGdAll ms).flatten (Mfd.displacementAll v ms)
  | [] => by simp [Mfd.shiftAll, Mfd.unrollGdAll, Mfd.displacementAll]
  | m :: ms => by
    rw [Mfd.shiftAll, Mfd.unrollGdAll, Mfd.unrollGdAll, Mfd.displacementAll, List.flatten_append, List.flatten_append,
      zipWith_append_eq (by rw [Mfd.length_unrollGd, length_displacement]), unrollGd_shift v m, unrollGdAll_shift v ms]
end

theorem dotRow_const (p : Row) {n : Nat} (v : Vec d) (off : Nat) :
    dotRow p off (flatVecs fun _ : Fin n => v) = ∑ c, (∑ i : Fin n, viewVecs (fun j => p (off + j)) i c) * v c := by
  rw [dotRow_flatVecs, Finset.sum_comm]
  exact Finset.sum_congr rfl fun c _ => by rw [Finset.sum_mul]

theorem dotRow_zero_right (p : Row) : (l : List ℝ) → (off : Nat) → (∀ a ∈ l, a = 0) → dotRow p off l = 0
  | [], _, _ => rfl
  | a :: l, off, h => by
    rw [dotRow, h a List.mem_cons_self, dotRow_zero_right p l _ fun b hb => h b (List.mem_cons_of_mem _ hb)]; ring

theorem dotRow_zero_left : (l : List ℝ) → (off : Nat) → dotRow 0 off l = 0
  | [], _ => rfl
  | a :: l, off => by rw [dotRow, dotRow_zero_left l, Pi.zero_apply]; ring

mutual
theorem displacement_smul (s : ℝ) (v : Vec d) (M : Mfd d) : M.displacement (s • v) = (M.displacement v).map (s * ·) := by
  cases M with
  | landmarks gd cot => simp [Mfd.displacement, flatVecs, List.map_ofFn, Function.comp_def]
  | direction t gd dir cot cdir => simp [Mfd.displacement, flatVecs, List.map_ofFn, Function.comp_def]
  | frame gd R cot cR => simp [Mfd.displacement, flatVecs, flatMats, List.map_ofFn, Function.comp_def]
  | empty => simp [Mfd.displacement]
  | compound ms => rw [Mfd.displacement, Mfd.displacement, displacementAll_smul s v ms]
theorem displacementAll_smul (s : ℝ) (v : Vec d) : (ms : List (Mfd d)) →
    Mfd.displacementAll (s • v) ms = (Mfd.displacementAll v ms).map (s * ·)
  | [] => by simp [Mfd.displacementAll]
  | m :: ms => by
    rw [Mfd.displacementAll, Mfd.displacementAll, List.map_append, displacement_smul s v m, displacementAll_smul s v ms]
end

theorem rowOf_map_mul (s : ℝ) (l : List ℝ) (k : Nat) : rowOf (l.map (s * ·)) k = s * rowOf l k := by
  simp only [rowOf, List.getD_eq_getElem?_getD, List.getElem?_map]
  cases l[k]? <;> simp

mutual
/-- The total momentum paired with `v`. -/
theorem momentum_row (p : Row) (v : Vec d) : (M : Mfd d) → (off : Nat) →
    ∑ c, (M.withCot p off).momentum c * v c = dotRow p off (M.displacement v)
  | .landmarks gd cot, off => by rw [Mfd.withCot, Mfd.momentum, Mfd.displacement, dotRow_const]
  | .direction t gd dir cot cdir, off => by
    rw [Mfd.withCot, Mfd.momentum, Mfd.displacement, dotRow_append, dotRow_const, dotRow_zero_right, add_zero]
    intro a ha
    simp only [flatVecs, List.mem_ofFn] at ha
    obtain ⟨_, rfl⟩ := ha; rfl
  | .frame gd R cot cR, off => by
    rw [Mfd.withCot, Mfd.momentum, Mfd.displacement, dotRow_append, dotRow_const, dotRow_zero_right, add_zero]
    intro a ha
    simp only [flatMats, List.mem_ofFn] at ha
    obtain ⟨_, rfl⟩ := ha; rfl
  | .empty, off => by simp [Mfd.withCot, Mfd.momentum, Mfd.displacement, dotRow]
  | .compound ms, off => by rw [Mfd.withCot, Mfd.momentum, Mfd.displacement]; exact momentumAll_row p v ms off
theorem momentumAll_row (p : Row) (v : Vec d) : (ms : List (Mfd d)) → (off : Nat) →
    ∑ c, Mfd.momentumAll (Mfd.withCotAll p off ms) c * v c = dotRow p off (Mfd.displacementAll v ms)
  | [], off => by simp [Mfd.withCotAll, Mfd.momentumAll, Mfd.displacementAll, dotRow]
  | m :: ms, off => by
    rw [Mfd.withCotAll, Mfd.momentumAll, Mfd.displacementAll, dotRow_append, length_displacement, ← momentum_row p v m,
      ← momentumAll_row p v ms, ← Finset.sum_add_distrib]
    exact Finset.sum_congr rfl fun c _ => by rw [Pi.add_apply, add_mul]
end

mutual
theorem displacement_withGd (v : Vec d) (x : Row) : (M : Mfd d) → (off : Nat) → (M.withGd x off).displacement v = M.displacement v
  | .landmarks gd cot, off => by rw [Mfd.withGd, Mfd.displacement, Mfd.displacement]
  | .direction t gd dir cot cdir, off => by rw [Mfd.withGd, Mfd.displacement, Mfd.displacement]
  | .frame gd R cot cR, off => by rw [Mfd.withGd, Mfd.displacement, Mfd.displacement]
  | .empty, off => by rw [Mfd.withGd]
  | .compound ms, off => by rw [Mfd.withGd, Mfd.displacement, Mfd.displacement, displacementAll_withGd v x ms]
theorem displacementAll_withGd (v : Vec d) (x : Row) : (ms : List (Mfd d)) → (off : Nat) →
    Mfd.displacementAll v (Mfd.withGdAll x off ms) = Mfd.displacementAll v ms
  | [], off => by rw [Mfd.withGdAll]
  | m :: ms, off => by
    rw [Mfd.withGdAll, Mfd.displacementAll, Mfd.displacementAll, displacement_withGd v x m, displacementAll_withGd v x ms]
end

mutual
theorem displacement_withCot (v : Vec d) (x : Row) : (M : Mfd d) → (off : Nat) → (M.withCot x off).displacement v = M.displacement v
  | .landmarks gd cot, off => by rw [Mfd.withCot, Mfd.displacement, Mfd.displacement]
  | .direction t gd dir cot cdir, off => by rw [Mfd.withCot, Mfd.displacement, Mfd.displacement]
  | .frame gd R cot cR, off => by rw [Mfd.withCot, Mfd.displacement, Mfd.displacement]
  | .empty, off => by rw [Mfd.withCot]
  | .compound ms, off => by rw [Mfd.withCot, Mfd.displacement, Mfd.displacement, displacementAll_withCot v x ms]
theorem displacementAll_withCot (v : Vec d) (x : Row) : (ms : List (Mfd d)) → (off : Nat) →
    Mfd.displacementAll v (Mfd.withCotAll x off ms) = Mfd.displacementAll v ms
  | [], off => by rw [Mfd.withCotAll]
  | m :: ms, off => by
    rw [Mfd.withCotAll, Mfd.displacementAll, Mfd.displacementAll, displacement_withCot v x m, displacementAll_withCot v x ms]
end

theorem vec_eq_of_dot {a b : Vec d} (h : ∀ v : Vec d, ∑ c, a c * v c = ∑ c, b c * v c) : a = b := by
  funext c
  have := h (Pi.single c 1)
  simpa [Pi.single_apply] using this

/-- Rows with the same pairing have the same total momentum. -/
theorem momentum_eq {m : DefModule d} {x y : Row × Row}
    (h : ∀ v, dotRow x.2 0 (m.manifold.displacement v) = dotRow y.2 0 (m.manifold.displacement v)) :
    (rowsMod m x).manifold.momentum = (rowsMod m y).manifold.momentum := by
  refine vec_eq_of_dot fun v => ?_
  rw [manifold_rowsMod, manifold_rowsMod, momentum_row, momentum_row, displacement_withGd, displacement_withGd, h]

/-! ## The Hamiltonian -/

/-- Moving all points by the same vector does not change the Hamiltonian (with geodesic controls). -/
def TranslationInvariant (m : DefModule d) : Prop :=
  ∀ q p v, ham m (q + rowOf (m.manifold.displacement v)) p = ham m q p

/-- The Hamiltonian (with geodesic controls) is differentiable wherever the controls exist. -/
def SmoothHam (m : DefModule d) : Prop :=
  ∀ x m', Hamiltonian.geodesicControls (rowsMod m x) = .ok m' → DifferentiableAt ℝ (hamV m) (entries (numCoords m) x)

/-- It is, if the parameters of the module are. -/
theorem C30_smooth {m : DefModule d} (h : m.Smooth 1) : SmoothHam m := fun _ m' hx =>
  (hamV_contDiffAt h ⟨m', hx⟩).2.differentiableAt one_ne_zero

/-- The derivatives with respect to the descriptors cancel along a common translation. -/
theorem grad_cancel {m : DefModule d} (hi : TranslationInvariant m) {x : Row × Row} (hd : DifferentiableAt ℝ (hamV m) (entries (numCoords m) x))
    (v : Vec d) : dotRow (partialQ (ham m) x.1 x.2) 0 (m.manifold.displacement v) = 0 := by
  have hlen : (m.manifold.displacement v).length = numCoords m := by rw [length_displacement, numCoords_size]
  have h := grad_const (x := x) (ham_reads m) hd (γ := fun s => x.1 + s • rowOf (m.manifold.displacement v)) (δ := fun _ => x.2) (t₀ := 0)
    (c := ham m x.1 x.2) (a := rowOf (m.manifold.displacement v)) (b := 0) (fun j _ => by simp) (fun j _ => rfl)
    (fun j _ => by
      have := ((hasDerivAt_id (0 : ℝ)).mul_const (rowOf (m.manifold.displacement v) j)).const_add (x.1 j)
      simpa using this)
    (fun j _ => hasDerivAt_const _ _)
    (fun s => by
      rw [← hi x.1 x.2 (s • v), displacement_smul, rowOf_mapMul])
  rw [dotRow_sum, ← h]
  refine Fintype.sum_equiv (finCongr hlen) _ _ fun k => ?_
  simp only [Nat.zero_add, finCongr_apply, Fin.val_cast, Pi.zero_apply, zero_mul, add_zero]
  rw [mul_comm, rowOf, List.getD_eq_getElem?_getD, List.getElem?_eq_getElem k.2]
  rfl

/-! ## Shooting -/

theorem gradH_cancel {m : DefModule d} (hi : TranslationInvariant m) (hs : SmoothHam m) {x : Row × Row} {m' : DefModule d}
    (hx : Hamiltonian.geodesicControls (rowsMod m x) = .ok m') (v : Vec d) :
    dotRow (gradH Hamiltonian.geodesicControls (rowsMod m x)).1 0 (m.manifold.displacement v) = 0 := by
  have hF : (fun q p => valD (hamFn Hamiltonian.geodesicControls (rowsMod m x) q p)) = ham m := by
    funext q p
    unfold ham
    rw [hamFn_same geodesic_resetFree (same_rowsMod m x)]
  unfold gradH
  rw [hF]
  dsimp only
  have hc := grad_cancel hi (x := (gdRow (rowsMod m x), cotRow (rowsMod m x)))
    (hs _ m' (by rw [← rowsMod_rowsMod m x, rowsMod_self]; exact hx)) v
  rw [numCoords_rowsMod, ← hc, dotRow_sum, dotRow_sum]
  refine Finset.sum_congr rfl fun k _ => ?_
  rw [cut_of_lt]
  have := k.2.trans_eq ((length_displacement v m.manifold).trans (numCoords_size m).symm)
  omega

/-- Directions that leave the total momentum as it is. -/
def momentumSub (M : Mfd d) : Submodule ℝ (Row × Row) where
  carrier := {x | ∀ v, dotRow x.2 0 (M.displacement v) = 0}
  add_mem' {a b} ha hb v := by
    have := dotRow_add a.2 b.2 1 (M.displacement v) 0
    rw [one_smul, ha v, hb v] at this
    rw [Prod.snd_add, this]; ring
  zero_mem' v := dotRow_zero_left _ _
  smul_mem' c x hx v := by
    have := dotRow_add 0 x.2 c (M.displacement v) 0
    rw [zero_add, hx v, dotRow_zero_left] at this
    rw [Prod.smul_snd, this]; ring

theorem tangent_momentum {m : DefModule d} (hi : TranslationInvariant m) (hs : SmoothHam m) :
    Tangent (rhs m) Set.univ (momentumSub m.manifold) where
  add _ _ _ _ := Set.mem_univ _
  dir y _ k hk := by
    unfold rhs at hk
    cases h : evalAt m y with
    | error e => rw [h] at hk; cases hk
    | ok m' =>
      rw [h] at hk
      cases hk
      intro v
      have := dotRow_add 0 (gradH Hamiltonian.geodesicControls (rowsMod m y)).1 (-1) (m.manifold.displacement v) 0
      rw [gradH_cancel hi hs (evalAt_geodesic h).choose_spec, dotRow_zero_left, zero_add, neg_one_smul] at this
      unfold hamVec
      dsimp only
      rw [this]; ring

theorem dotRow_of_mem {M : Mfd d} {x y w : Row × Row} (hw : w ∈ momentumSub M) (e : x = y + w) (v : Vec d) :
    dotRow x.2 0 (M.displacement v) = dotRow y.2 0 (M.displacement v) := by
  have := dotRow_add y.2 w.2 1 (M.displacement v) 0
  rw [one_smul, hw v] at this
  rw [e, Prod.snd_add, this]; ring

/-- **C30, ODE solvers.** If the Hamiltonian is translation invariant and differentiable in the
descriptors, then at every recorded state, and in the modules afterwards, the sum of the momenta of
the points is the initial one. -/
theorem C30_solver {ms : List (DefModule d)} (hi : TranslationInvariant (.compound ms)) (hs : SmoothHam (.compound ms))
    {s : Solver} {it : Nat} {t1 : ℝ} {r : Shot d} (h : shootMoments s it t1 (.compound ms) = .ok r) :
    (∀ S ∈ r.states, S.momentum = (DefModule.compound ms).manifold.momentum) ∧
      r.module.manifold.momentum = (DefModule.compound ms).manifold.momentum := by
  obtain ⟨hp, hn⟩ := shoot_plain h
  obtain ⟨xs, h1, h2, h3, -⟩ := shoot_ok hp hn h
  have hall : ∀ x ∈ xs, (rowsMod (.compound ms) x).manifold.momentum = (DefModule.compound ms).manifold.momentum := fun x hx => by
    obtain ⟨w, hw, e⟩ := (tangent_momentum hi hs).orbit (Set.mem_univ _) h1 x hx
    rw [momentum_eq (dotRow_of_mem hw e), rowsMod_self]
  constructor
  · intro S hS
    rw [h2] at hS
    obtain ⟨x, hx, rfl⟩ := List.mem_map.1 hS
    exact hall x hx
  · rw [manifold_of_reset h3]
    rcases getLastD_mem xs (gdRow (.compound ms), cotRow (.compound ms)) with e | e
    · rw [e, rowsMod_self]
    · exact hall _ e

theorem euler_momentum {m0 : DefModule d} (hi : TranslationInvariant m0) (hs : SmoothHam m0) {step : ℝ} {k : Nat} :
    ∀ {i : Nat} {x : Row × Row} {m : DefModule d} {r : Shot d}, m.reset = (rowsMod m0 x).reset → eulerLoop step none i k m = .ok r →
    (∀ S ∈ r.states, S.momentum = m.manifold.momentum) ∧ r.module.manifold.momentum = m.manifold.momentum := by
  induction k with
  | zero =>
    intro i x m r _ h
    cases h
    exact ⟨fun S hS => by rw [List.mem_singleton.1 hS], rfl⟩
  | succ k ih =>
    intro i x m r hx h
    rw [eulerLoop] at h
    cases h1 : eulerStep step none i m with
    | error e => rw [h1] at h; cases h
    | ok m' =>
      rw [h1] at h
      dsimp only at h
      obtain ⟨m1, v, e1, -, rfl⟩ := eulerStep_ok h1
      rw [show setControls (none : Option (List (Ctrl d))) i = Hamiltonian.geodesicControls from rfl,
        gradH_of_reset geodesic_resetFree hx] at h
      have hg : gdRow m = cut (numCoords m0) x.1 := by
        rw [gdRow, manifold_of_reset hx]; exact gdRow_rowsMod m0 x
      have hc : cotRow m = cut (numCoords m0) x.2 := by
        rw [cotRow, manifold_of_reset hx]; exact cotRow_rowsMod m0 x
      generalize hy : ((gdRow m + step • (gradH Hamiltonian.geodesicControls (rowsMod m0 x)).2,
        cotRow m + -step • (gradH Hamiltonian.geodesicControls (rowsMod m0 x)).1) : Row × Row) = y at h
      have hr : (rowsMod m1 y).reset = (rowsMod m0 y).reset := by
        have : Same m1 m0 := (same_of_reset (setControls_reset e1)).trans ((same_of_reset hx).trans (same_rowsMod m0 x))
        exact this y
      have hmom : (rowsMod m1 y).manifold.momentum = m.manifold.momentum := by
        rw [manifold_of_reset hr]
        have e2 : m.manifold = (rowsMod m0 (gdRow m, cotRow m)).manifold := by
          have : (rowsMod m (gdRow m, cotRow m)).reset = (rowsMod m0 (gdRow m, cotRow m)).reset :=
            ((same_of_reset hx).trans (same_rowsMod m0 x)) _
          rw [← manifold_of_reset this, rowsMod_self]
        rw [e2]
        refine momentum_eq fun v => ?_
        rw [← hy, dotRow_add, gradH_cancel hi hs (m' := m1) (by rw [← geodesicControls_of_reset hx]; exact e1)]; ring
      cases h2 : eulerLoop step none (i + 1) k (rowsMod m1 y) with
      | error e => rw [h2] at h; cases h
      | ok r' =>
        rw [h2] at h
        cases h
        obtain ⟨a, b⟩ := ih hr h2
        refine ⟨fun S hS => ?_, by rw [b, hmom]⟩
        rcases List.mem_cons.1 hS with rfl | hS
        · rfl
        · rw [a S hS, hmom]

/-- **C30, Euler.** The same for `torch_euler`. -/
theorem C30_euler {m : DefModule d} (hi : TranslationInvariant m) (hs : SmoothHam m) {it : Nat} {r : Shot d}
    (h : shootEuler it none m = .ok r) :
    (∀ S ∈ r.states, S.momentum = m.manifold.momentum) ∧ r.module.manifold.momentum = m.manifold.momentum := by
  unfold shootEuler at h
  split at h
  · cases h
  · exact euler_momentum hi hs (x := (gdRow m, cotRow m)) (by rw [rowsMod_self]) h

/-! ## A global translation with silent landmarks -/

/-! ### Which modules are invariant -/

/-- The motion of a row by a translation. -/
theorem gdMotion_translation (τ : Vec d) (M : Mfd d) (x : Row) : gdMotion (Rigid.translation τ) M x = cut M.size x + rowOf (M.displacement τ) := by
  unfold gdMotion
  rw [move_translation, unrollGd_shift, rowOf_zipAdd (by rw [Mfd.length_unrollGd, length_displacement]), rowOf_of_starts (Mfd.starts_withGd x M 0),
    Mfd.length_unrollGd, Mfd.size_withGd, displacement_withGd]

/-- Modules whose parameters do not single out a place have a translation-invariant Hamiltonian. -/
theorem C30_invariant {m : DefModule d} (h : ∀ τ, m.Movable (Rigid.translation τ)) : TranslationInvariant m := fun q p v => by
  have h1 := hamFn_move (prep_geodesic (Rigid.translation v)) (h v) q p
  rw [hamFn_same geodesic_resetFree (same_move _ m)] at h1
  unfold ham
  rw [← h1]
  rw [show cotMotion (Rigid.translation v) m.manifold p = cut m.manifold.size p from cotTurn_translation v _ p, gdMotion_translation,
    ← numCoords_eq]
  unfold hamFn
  rw [withRows_eq, withRows_eq]
  have key : rowsMod m (q + rowOf (m.manifold.displacement v), p)
      = rowsMod m (cut (numCoords m) q + rowOf (m.manifold.displacement v), cut (numCoords m) p) := by
    rw [← rowsMod_cut, ← rowsMod_cut m (cut (numCoords m) q + rowOf (m.manifold.displacement v), cut (numCoords m) p)]
    dsimp only
    rw [cut_cut]
    congr 2
    funext j
    unfold cut
    split
    · rw [Pi.add_apply, Pi.add_apply, if_pos (by assumption)]
    · rfl
  unfold rowsMod at key
  dsimp only at key ⊢
  rw [key]

/-- **C30.** Modules whose parameters single out no place and are continuously differentiable: whatever
the solver, a shooting that returns has the initial total momentum at every recorded state, and in
the modules afterwards. -/
theorem C30_modules {ms : List (DefModule d)} (h : ∀ τ, (DefModule.compound ms).Movable (Rigid.translation τ)) (hs : (DefModule.compound ms).Smooth 1)
    {r : Shot d} (hr : (∃ s it t1, shootMoments s it t1 (.compound ms) = .ok r) ∨ ∃ it, shootEuler it none (.compound ms) = .ok r) :
    (∀ S ∈ r.states, S.momentum = (DefModule.compound ms).manifold.momentum) ∧
      r.module.manifold.momentum = (DefModule.compound ms).manifold.momentum := by
  rcases hr with ⟨s, it, t1, hr⟩ | ⟨it, hr⟩
  · exact C30_solver (C30_invariant h) (C30_smooth hs) hr
  · exact C30_euler (C30_invariant h) (C30_smooth hs) hr

/-- A global translation acting on landmarks. -/
def carriedBy {k : Nat} (c : ℝ) (x p : Fin k → Vec d) : DefModule d :=
  .compound [.globalTranslation ⟨c, 0⟩, .silent (.landmarks x p)]

example {k : Nat} (x p : Fin k → Vec 3) : ∃ r, shootEuler 10 none (carriedBy 2 x p) = .ok r ∧
    ∀ S ∈ r.states, S.momentum = (carriedBy 2 x p).manifold.momentum := by
  have hr : (carriedBy 2 x p).Regular := by simp [carriedBy, DefModule.Regular, DefModule.AllRegular, Mfd.NoEmptyCompound, Mfd.NoDirections]
  obtain ⟨r, h⟩ := regular_shootEuler hr (show 10 ≠ 0 by norm_num)
  exact ⟨r, h, (C30_modules (fun τ => by simp [carriedBy, DefModule.Movable, DefModule.AllMovable]) (hr.smooth 1) (.inr ⟨_, h⟩)).1⟩

/-- The same for points attracted by points, beside shapes that are carried along. -/
example {k l : Nat} (T : Implicit0 2 l) (hν : 0 < T.ν) (hc : 0 < T.coeff) (x p : Fin k → Vec 2) (it : Nat) (hit : it ≠ 0) :
    ∃ r, shootEuler it none (.compound [.implicit0 T, .silent (.landmarks x p)]) = .ok r ∧
      ∀ S ∈ r.states, S.momentum = (DefModule.compound [.implicit0 T, .silent (.landmarks x p)]).manifold.momentum := by
  have hr : (DefModule.compound [.implicit0 T, .silent (.landmarks x p)]).Regular := by
    simp [DefModule.Regular, DefModule.AllRegular, Mfd.NoEmptyCompound, Mfd.NoDirections, hν, hc]
  obtain ⟨r, h⟩ := regular_shootEuler hr hit
  exact ⟨r, h, (C30_modules (fun τ => by simp [DefModule.Movable, DefModule.AllMovable]) (hr.smooth 1) (.inr ⟨_, h⟩)).1⟩

example (x p : Vec 2) : (carriedBy 2 (fun _ : Fin 1 => x) fun _ => p).manifold.momentum = p := by
  funext c
  simp [carriedBy, DefModule.manifold, DefModule.manifolds, Mfd.momentum, Mfd.momentumAll, GlobalTranslation.manifold]

end
end Imodal
