import Verif.Lemmas.Flow
import Mathlib.Analysis.Calculus.LocalExtr.Basic
/-!
# C29: zero momentum means no deformation
-/
set_option autoImplicit false
namespace Imodal
noncomputable section
variable {d : Nat}

mutual
theorem nonneg_withGd (x : Row) : (m : DefModule d) → (off : Nat) → m.NonnegWeights → (m.withGd x off).NonnegWeights
  | .translations _, _, h => by rw [DefModule.NonnegWeights] at h; rw [DefModule.withGd, DefModule.NonnegWeights]; exact h
  | .implicit0 _, _, h => by rw [DefModule.NonnegWeights] at h; rw [DefModule.withGd, DefModule.NonnegWeights]; exact h
  | .oriented _, _, h => by rw [DefModule.NonnegWeights] at h; rw [DefModule.withGd, DefModule.NonnegWeights]; exact h
  | .constrained _, _, h => by rw [DefModule.NonnegWeights] at h; rw [DefModule.withGd, DefModule.NonnegWeights]; exact h
  | .globalTranslation _, _, h => by rw [DefModule.NonnegWeights] at h; rw [DefModule.withGd, DefModule.NonnegWeights]; exact h
  | .linear _, _, h => by rw [DefModule.NonnegWeights] at h; rw [DefModule.withGd, DefModule.NonnegWeights]; exact h
  | .implicit1 _, _, h => by rw [DefModule.NonnegWeights] at h; rw [DefModule.withGd, DefModule.NonnegWeights]; exact h
  | .divFree _, _, h => by rw [DefModule.NonnegWeights] at h; rw [DefModule.withGd, DefModule.NonnegWeights]; exact h
  | .arap _, _, h => by rw [DefModule.NonnegWeights] at h; rw [DefModule.withGd, DefModule.NonnegWeights]; exact h
  | .silent _, _, _ => by rw [DefModule.withGd, DefModule.NonnegWeights]; trivial
  | .compound ms, off, h => by
    rw [DefModule.NonnegWeights] at h; rw [DefModule.withGd, DefModule.NonnegWeights]
    refine ⟨?_, nonneg_withGdAll x ms off h.2⟩
    cases ms with
    | nil => exact absurd rfl h.1
    | cons m ms => rw [DefModule.withGdAll]; exact List.cons_ne_nil _ _
theorem nonneg_withGdAll (x : Row) : (ms : List (DefModule d)) → (off : Nat) → DefModule.AllNonnegWeights ms →
    DefModule.AllNonnegWeights (DefModule.withGdAll x off ms)
  | [], _, h => by rw [DefModule.withGdAll]; exact h
  | m :: ms, off, h => by
    rw [DefModule.AllNonnegWeights] at h
    rw [DefModule.withGdAll, DefModule.AllNonnegWeights]
    exact ⟨nonneg_withGd x m off h.1, nonneg_withGdAll x ms _ h.2⟩
end

mutual
theorem nonneg_withCot (x : Row) : (m : DefModule d) → (off : Nat) → m.NonnegWeights → (m.withCot x off).NonnegWeights
  | .translations _, _, h => by rw [DefModule.NonnegWeights] at h; rw [DefModule.withCot, DefModule.NonnegWeights]; exact h
  | .implicit0 _, _, h => by rw [DefModule.NonnegWeights] at h; rw [DefModule.withCot, DefModule.NonnegWeights]; exact h
  | .oriented _, _, h => by rw [DefModule.NonnegWeights] at h; rw [DefModule.withCot, DefModule.NonnegWeights]; exact h
  | .constrained _, _, h => by rw [DefModule.NonnegWeights] at h; rw [DefModule.withCot, DefModule.NonnegWeights]; exact h
  | .globalTranslation _, _, h => by rw [DefModule.NonnegWeights] at h; rw [DefModule.withCot, DefModule.NonnegWeights]; exact h
  | .linear _, _, h => by rw [DefModule.NonnegWeights] at h; rw [DefModule.withCot, DefModule.NonnegWeights]; exact h
  | .implicit1 _, _, h => by rw [DefModule.NonnegWeights] at h; rw [DefModule.withCot, DefModule.NonnegWeights]; exact h
  | .divFree _, _, h => by rw [DefModule.NonnegWeights] at h; rw [DefModule.withCot, DefModule.NonnegWeights]; exact h
  | .arap _, _, h => by rw [DefModule.NonnegWeights] at h; rw [DefModule.withCot, DefModule.NonnegWeights]; exact h
  | .silent _, _, _ => by rw [DefModule.withCot, DefModule.NonnegWeights]; trivial
  | .compound ms, off, h => by
    rw [DefModule.NonnegWeights] at h; rw [DefModule.withCot, DefModule.NonnegWeights]
    refine ⟨?_, nonneg_withCotAll x ms off h.2⟩
    cases ms with
    | nil => exact absurd rfl h.1
    | cons m ms => rw [DefModule.withCotAll]; exact List.cons_ne_nil _ _
theorem nonneg_withCotAll (x : Row) : (ms : List (DefModule d)) → (off : Nat) → DefModule.AllNonnegWeights ms →
    DefModule.AllNonnegWeights (DefModule.withCotAll x off ms)
  | [], _, h => by rw [DefModule.withCotAll]; exact h
  | m :: ms, off, h => by
    rw [DefModule.AllNonnegWeights] at h
    rw [DefModule.withCotAll, DefModule.AllNonnegWeights]
    exact ⟨nonneg_withCot x m off h.1, nonneg_withCotAll x ms _ h.2⟩
end

mutual
theorem nonneg_reset : (m : DefModule d) → (m.reset.NonnegWeights ↔ m.NonnegWeights)
  | .translations _ => by rw [DefModule.reset, DefModule.NonnegWeights, DefModule.NonnegWeights]
  | .implicit0 _ => by rw [DefModule.reset, DefModule.NonnegWeights, DefModule.NonnegWeights]
  | .oriented _ => by rw [DefModule.reset, DefModule.NonnegWeights, DefModule.NonnegWeights]
  | .constrained _ => by rw [DefModule.reset, DefModule.NonnegWeights, DefModule.NonnegWeights]
  | .globalTranslation _ => by rw [DefModule.reset, DefModule.NonnegWeights, DefModule.NonnegWeights]
  | .linear _ => by rw [DefModule.reset, DefModule.NonnegWeights, DefModule.NonnegWeights]
  | .implicit1 _ => by rw [DefModule.reset, DefModule.NonnegWeights, DefModule.NonnegWeights]
  | .divFree _ => by rw [DefModule.reset, DefModule.NonnegWeights, DefModule.NonnegWeights]
  | .arap _ => by rw [DefModule.reset, DefModule.NonnegWeights, DefModule.NonnegWeights]
  | .silent _ => by rw [DefModule.reset]
  | .compound ms => by
    rw [DefModule.reset, DefModule.NonnegWeights, DefModule.NonnegWeights, nonneg_resetAll ms]
    cases ms <;> simp [DefModule.resetAll]
theorem nonneg_resetAll : (ms : List (DefModule d)) →
    (DefModule.AllNonnegWeights (DefModule.resetAll ms) ↔ DefModule.AllNonnegWeights ms)
  | [] => by rw [DefModule.resetAll]
  | m :: ms => by
    rw [DefModule.resetAll, DefModule.AllNonnegWeights, DefModule.AllNonnegWeights, nonneg_reset m, nonneg_resetAll ms]
end

theorem nonneg_rowsMod {m : DefModule d} (h : m.NonnegWeights) (x : Row × Row) : (rowsMod m x).NonnegWeights :=
  nonneg_withCot _ _ _ (nonneg_withGd _ _ _ h)

/-! ## The Hamiltonian is not negative, and zero without momenta -/

theorem hamFn_eq (m : DefModule d) (q p : Row) : hamFn Hamiltonian.geodesicControls m q p
    = match Hamiltonian.geodesicControls (rowsMod m (q, p)) with
      | .error e => .error e
      | .ok m' => Hamiltonian.value m' := by
  unfold hamFn
  rw [withRows_eq]
  rfl

theorem hamFn_geo {m m' : DefModule d} (hw : m.NonnegWeights) {q p : Row} (h : Hamiltonian.geodesicControls (rowsMod m (q, p)) = .ok m') :
    ∃ H f, hamFn Hamiltonian.geodesicControls m q p = .ok H ∧ m'.cost = .ok H ∧ m'.field = .ok f ∧
      (rowsMod m (q, p)).manifold.innerProd f = .ok (2 * H) ∧ 0 ≤ H := by
  obtain ⟨H, f, h1, h2, h3, h4, h5⟩ := C18_hamiltonian_is_cost _ _ _ (nonneg_rowsMod hw (q, p)) h
  refine ⟨H, f, ?_, h2, h3, h4, h5⟩
  rw [hamFn_eq, h]
  dsimp only
  unfold Hamiltonian.value
  rw [geodesic_manifold h]; exact h1

/-- The Hamiltonian as a real function. -/
def ham (m : DefModule d) (q p : Row) : ℝ := valD (hamFn Hamiltonian.geodesicControls m q p)

theorem ham_nonneg {m : DefModule d} (hw : m.NonnegWeights) (q p : Row) : 0 ≤ ham m q p := by
  unfold ham
  cases h : Hamiltonian.geodesicControls (rowsMod m (q, p)) with
  | error e => rw [hamFn_eq, h]; exact le_rfl
  | ok m' =>
    obtain ⟨H, f, h1, -, -, -, h5⟩ := hamFn_geo hw h
    rw [h1]; exact h5

theorem viewVecs_zero {n : Nat} (off : Nat) : (viewVecs fun j => (0 : Row) (off + j) : Fin n → Vec d) = 0 := rfl

mutual
theorem Mfd.innerProd_zeroCot (f : FieldExpr d) : (man : Mfd d) → (off : Nat) → {a : ℝ} → (man.withCot 0 off).innerProd f = .ok a → a = 0
  | .landmarks gd _, off, a, h => by
    rw [Mfd.withCot, viewVecs_zero, Mfd.innerProd] at h
    cases h1 : actLandmarks gd f with
    | error e => rw [h1] at h; cases h
    | ok v => rw [h1] at h; rw [← Except.ok.inj h]; simp [dotFlat]
  | .direction t gd dir _ _, off, a, h => by
    rw [Mfd.withCot, Mfd.innerProd] at h
    cases h1 : actDirection t gd dir f with
    | error e => rw [h1] at h; cases h
    | ok v => rw [h1] at h; rw [← Except.ok.inj h]; simp [dotFlat, viewVecs]
  | .frame gd R _ _, off, a, h => by
    rw [Mfd.withCot, Mfd.innerProd] at h
    cases h1 : actFrame gd R f with
    | error e => rw [h1] at h; cases h
    | ok v => rw [h1] at h; rw [← Except.ok.inj h]; simp [dotFlat, viewVecs, viewMats]
  | .empty, off, a, h => by rw [Mfd.withCot, Mfd.innerProd] at h; exact (Except.ok.inj h).symm
  | .compound ms, off, a, h => by
    rw [Mfd.withCot, Mfd.innerProd] at h
    exact Mfd.innerProdAll_zeroCot f ms off h
theorem Mfd.innerProdAll_zeroCot (f : FieldExpr d) : (ms : List (Mfd d)) → (off : Nat) → {a : ℝ} →
    Mfd.innerProdAll f (Mfd.withCotAll 0 off ms) = .ok a → a = 0
  | [], off, a, h => by rw [Mfd.withCotAll, Mfd.innerProdAll] at h; exact (Except.ok.inj h).symm
  | m :: ms, off, a, h => by
    rw [Mfd.withCotAll, Mfd.innerProdAll] at h
    cases h1 : (m.withCot 0 off).innerProd f with
    | error e => rw [h1] at h; cases h
    | ok u =>
      rw [h1] at h
      dsimp only at h
      cases h2 : Mfd.innerProdAll f (Mfd.withCotAll 0 (off + m.size) ms) with
      | error e => rw [h2] at h; cases h
      | ok v =>
        rw [h2] at h
        rw [← Except.ok.inj h, Mfd.innerProd_zeroCot f m off h1, Mfd.innerProdAll_zeroCot f ms _ h2, add_zero]
end

theorem ham_zero {m : DefModule d} (hw : m.NonnegWeights) (q : Row) : ham m q 0 = 0 := by
  unfold ham
  cases h : Hamiltonian.geodesicControls (rowsMod m (q, 0)) with
  | error e => rw [hamFn_eq, h]; rfl
  | ok m' =>
    obtain ⟨H, f, h1, -, -, h4, -⟩ := hamFn_geo hw h
    rw [h1]
    rw [manifold_rowsMod] at h4
    have := Mfd.innerProd_zeroCot f _ 0 h4
    show H = 0
    linarith

theorem gradH_zero {m : DefModule d} (hw : m.NonnegWeights) (h0 : cotRow m = 0) : gradH Hamiltonian.geodesicControls m = (0, 0) := by
  have hF : (fun q p => valD (hamFn Hamiltonian.geodesicControls m q p)) = ham m := rfl
  unfold gradH
  rw [hF, h0]
  have hq : partialQ (ham m) (gdRow m) 0 = 0 := by
    funext j
    unfold partialQ
    simp only [ham_zero hw]
    exact deriv_const _ _
  have hp : partialP (ham m) (gdRow m) 0 = 0 := by
    funext j
    unfold partialP
    apply IsLocalMin.deriv_eq_zero
    refine Filter.Eventually.of_forall fun s => ?_
    dsimp only
    rw [Pi.zero_apply, show Function.update (0 : Row) j 0 = 0 from Function.update_eq_self j (0 : Row)]
    rw [ham_zero hw]
    exact ham_nonneg hw _ _
  dsimp only
  rw [hq, hp]
  ext j <;> simp [cut]

/-! ## Shooting -/

/-- All momenta are zero. -/
def ZeroMomenta (m : DefModule d) : Prop := ∀ l ∈ m.manifold.unrollCot, ∀ a ∈ l, a = 0

theorem cotRow_of_zero {m : DefModule d} (h : ZeroMomenta m) : cotRow m = 0 := by
  funext j
  unfold cotRow rowOf
  rw [List.getD]
  cases h1 : m.manifold.unrollCot.flatten[j]? with
  | none => rfl
  | some a =>
    obtain ⟨l, hl, ha⟩ := List.mem_flatten.1 (List.mem_of_getElem? h1)
    exact h l hl a ha

theorem hamVec_zero {m : DefModule d} (hw : m.NonnegWeights) (q : Row) : hamVec m (q, 0) = 0 := by
  have : cotRow (rowsMod m (q, 0)) = 0 := by rw [cotRow_rowsMod]; funext j; simp [cut]
  unfold hamVec
  rw [gradH_zero (nonneg_rowsMod hw _) this]
  simp

theorem tangent_zero {m : DefModule d} (hw : m.NonnegWeights) : Tangent (rhs m) {x : Row × Row | x.2 = 0} ⊥ where
  add y hy w hw' := by rw [(Submodule.mem_bot ℝ).1 hw', add_zero]; exact hy
  dir y hy k hk := by
    unfold rhs at hk
    cases h : evalAt m y with
    | error e => rw [h] at hk; cases hk
    | ok m' =>
      rw [h] at hk
      cases hk
      obtain ⟨q, p⟩ := y
      obtain rfl : p = 0 := hy
      rw [hamVec_zero hw]; exact Submodule.zero_mem _

/-- With the ODE solver, every recorded state is the initial one, and so are the descriptors and
momenta left in the modules. -/
theorem C29_solver (ms : List (DefModule d)) (hw : (DefModule.compound ms).NonnegWeights)
    (h0 : ZeroMomenta (.compound ms)) {s : Solver} {it : Nat} {t1 : ℝ} {r : Shot d}
    (h : shootMoments s it t1 (.compound ms) = .ok r) :
    r.module.manifold = (DefModule.compound ms).manifold ∧ r.states = List.replicate (it + 1) (DefModule.compound ms).manifold := by
  obtain ⟨hp, hn⟩ := shoot_plain h
  obtain ⟨xs, h1, h2, h3, -⟩ := shoot_ok hp hn h
  have hall : ∀ x ∈ xs, x = (gdRow (.compound ms), cotRow (.compound ms)) := fun x hx => by
    obtain ⟨w, hw', e⟩ := (tangent_zero hw).orbit (cotRow_of_zero h0) h1 x hx
    rw [e, (Submodule.mem_bot ℝ).1 hw', add_zero]
  obtain ⟨hlen, -, -⟩ := orbit_steps h1
  have hxs : xs = List.replicate (it + 1) (gdRow (.compound ms), cotRow (.compound ms)) := List.eq_replicate_iff.2 ⟨hlen, hall⟩
  constructor
  · have hl : xs.getLastD (gdRow (.compound ms), cotRow (.compound ms)) = (gdRow (.compound ms), cotRow (.compound ms)) := by
      rw [hxs, List.getLastD_eq_getLast?, List.getLast?_replicate]
      rfl
    rw [manifold_of_reset h3, hl, rowsMod_self]
  · rw [h2, hxs, List.map_replicate, rowsMod_self]

theorem euler_zero {step : ℝ} {k : Nat} : ∀ {i : Nat} {m : DefModule d} {r : Shot d}, m.NonnegWeights → cotRow m = 0 →
    eulerLoop step none i k m = .ok r → r.module.manifold = m.manifold ∧ r.states = List.replicate (k + 1) m.manifold := by
  induction k with
  | zero => intro i m r _ _ h; cases h; exact ⟨rfl, rfl⟩
  | succ k ih =>
    intro i m r hw h0 h
    rw [eulerLoop] at h
    cases h1 : eulerStep step none i m with
    | error e => rw [h1] at h; cases h
    | ok m' =>
      rw [h1] at h
      dsimp only at h
      obtain ⟨m1, v, e1, -, rfl⟩ := eulerStep_ok h1
      have hz : gradH (setControls none i) m = (0, 0) := gradH_zero hw h0
      rw [hz] at h h1
      simp only [smul_zero, add_zero] at h
      have hre : (rowsMod m1 (gdRow m, cotRow m)).reset = m.reset := by
        rw [same_of_reset (setControls_reset e1), rowsMod_self]
      cases h2 : eulerLoop step none (i + 1) k (rowsMod m1 (gdRow m, cotRow m)) with
      | error e => rw [h2] at h; cases h
      | ok r' =>
        rw [h2] at h
        cases h
        have hman := manifold_of_reset hre
        obtain ⟨a, b⟩ := ih ((nonneg_reset _).1 (hre ▸ (nonneg_reset m).2 hw)) (by show rowOf (rowsMod m1 (gdRow m, cotRow m)).manifold.unrollCot.flatten = 0; rw [hman]; exact h0) h2
        exact ⟨by rw [a, hman], by rw [b, hman]; rfl⟩

/-- The same for `torch_euler`. -/
theorem C29_euler (m : DefModule d) (hw : m.NonnegWeights) (h0 : ZeroMomenta m) {it : Nat} {r : Shot d}
    (h : shootEuler it none m = .ok r) :
    r.module.manifold = m.manifold ∧ r.states = List.replicate (it + 1) m.manifold := by
  unfold shootEuler at h
  split at h
  · cases h
  · exact euler_zero hw (cotRow_of_zero h0) h

/-! Non-vacuity: a plain module and a silent point with zero momenta. -/
example (p q : Vec 2) : ∃ r, shootMoments .rk4 5 1 (.compound
    [.implicit0 (⟨.torch, fun _ => p, 0, 2, 1, 1, 0⟩ : Implicit0 2 1), .silent (.landmarks (fun _ : Fin 1 => q) 0)]) = .ok r
    ∧ r.module.manifold = .compound [.landmarks (fun _ : Fin 1 => p) 0, .landmarks (fun _ : Fin 1 => q) 0] := by
  have hr : (DefModule.compound [.implicit0 (⟨.torch, fun _ => p, 0, 2, 1, 1, 0⟩ : Implicit0 2 1), .silent (.landmarks (fun _ : Fin 1 => q) 0)]).Regular := by
    simp [DefModule.Regular, DefModule.AllRegular, Mfd.NoEmptyCompound, Mfd.NoDirections]
  have hp : PlainMembers [.implicit0 (⟨.torch, fun _ => p, 0, 2, 1, 1, 0⟩ : Implicit0 2 1), .silent (.landmarks (fun _ : Fin 1 => q) 0)] := by
    intro m hm
    simp only [DefModule.manifolds, DefModule.manifold, Implicit0.manifold, List.mem_cons, List.not_mem_nil, or_false] at hm
    rcases hm with rfl | rfl <;> exact Or.inr rfl
  have hn : 0 < numCoords (.compound [.implicit0 (⟨.torch, fun _ => p, 0, 2, 1, 1, 0⟩ : Implicit0 2 1), .silent (.landmarks (fun _ : Fin 1 => q) 0)]) := by
    simp [numCoords_eq, DefModule.manifold, DefModule.manifolds, Implicit0.manifold, Mfd.size, Mfd.sizeAll]
  obtain ⟨xs, hxs⟩ := orbit_total .rk4 (rhs_total hr) one_ne_zero 5 (gdRow _, cotRow _)
  have hc := shoot_cases hp hn .rk4 5 1
  rw [hxs] at hc
  obtain ⟨g, -, -, h3⟩ := hc
  refine ⟨_, h3, ?_⟩
  rw [(C29_solver _ (regular_nonneg _ hr) ?_ h3).1, DefModule.manifold, DefModule.manifolds, DefModule.manifolds, DefModule.manifolds,
    DefModule.manifold, DefModule.manifold, Implicit0.manifold]
  intro l hl a ha
  simp only [DefModule.manifold, DefModule.manifolds, Implicit0.manifold, Mfd.unrollCot, Mfd.unrollCotAll, List.mem_append,
    List.mem_singleton, List.not_mem_nil, or_false] at hl
  rcases hl with rfl | rfl <;> · simp [flatVecs] at ha; exact ha

end
end Imodal
