import Verif.Lemmas.ScaleAll
import Verif.Lemmas.RigidShoot
/-!
# Shooting with scaled momenta and controls
-/
set_option autoImplicit false
namespace Imodal
noncomputable section

/-! ## Solver runs related by a change of the unit of time -/

section
variable {σ V : Type} [AddCommGroup V] [Module ℝ V] {I : σ → Prop} {S : σ → σ} {T : V →ₗ[ℝ] V} {f f' : ℝ → V → Prog σ V} {a : ℝ}

theorem progScale_step (h : ∀ t y, ProgMap I S (fun k => a • T k) (f (a * t) y) (f' t (T y))) (t t' : ℝ) (y : V) (s : Solver) :
    ProgMap I S T (Solver.step f (a * t) (a * t') y s) (Solver.step f' t t' (T y) s) := by
  have h' : ∀ t t' y z, t = a * t' → z = T y → ProgMap I S (fun k => a • T k) (f t y) (f' t' z) := fun t t' y z e e' => by rw [e, e']; exact h t' y
  have hc : ∀ (c : ℝ) (k : V), T (y + (a * c) • k) = T y + c • (a • T k) := fun c k => by
    rw [map_add, map_smul, smul_smul, mul_comm a c]
  have h1 : a * t' - a * t = a * (t' - t) := by ring
  cases s with
  | euler => exact (h _ _).bind fun k => ProgMap.pure (by rw [h1]; exact (hc _ _).symm)
  | midpoint =>
    refine (h _ _).bind fun k => (h' (a * t + 0.5 * (a * t' - a * t)) _ (y + (0.5 * (a * t' - a * t)) • k) _ (by ring) ?_).bind fun l => ProgMap.pure ?_
    · rw [h1, show 0.5 * (a * (t' - t)) = a * (0.5 * (t' - t)) by ring, hc]
    · rw [h1]; exact (hc _ _).symm
  | rk4 =>
    refine (h _ _).bind fun k₁ => ?_
    refine (h' (a * t + (a * t' - a * t) * (1 / 3)) _ (y + ((a * t' - a * t) * (1 / 3)) • k₁) _ (by ring) ?_).bind fun k₂ => ?_
    · rw [h1, show a * (t' - t) * (1 / 3) = a * ((t' - t) * (1 / 3)) by ring, hc]
    refine (h' (a * t + (a * t' - a * t) * (2 / 3)) _ (y + (a * t' - a * t) • (k₂ - (1 / 3 : ℝ) • k₁)) _ (by ring) ?_).bind fun k₃ => ?_
    · rw [h1, hc, map_sub, map_smul, smul_sub a, smul_comm a (1 / 3 : ℝ)]
    refine (h' (a * t') _ (y + (a * t' - a * t) • (k₁ - k₂ + k₃)) _ rfl ?_).bind fun k₄ => ?_
    · rw [h1, hc, map_add, map_sub, smul_add a, smul_sub a]
    refine ProgMap.pure ?_
    rw [h1, show a * (t' - t) * 0.125 = a * ((t' - t) * 0.125) by ring, hc, map_add, map_add, map_smul, map_add]
    simp only [smul_add, smul_comm a (3 : ℝ)]

theorem progScale_loop (h : ∀ t y, ProgMap I S (fun k => a • T k) (f (a * t) y) (f' t (T y))) (s : Solver) (t1 : ℝ) (it k : Nat) :
    ∀ (i : Nat) (y : V), ProgMap I S (List.map T) (odeLoop s f (a * t1) it i k y) (odeLoop s f' t1 it i k (T y)) := by
  induction k with
  | zero => intro i y; exact ProgMap.pure rfl
  | succ k ih =>
    intro i y
    have hg : ∀ i, gridTime (a * t1) it i = a * gridTime t1 it i := fun i => by unfold gridTime; ring
    rw [odeLoop, odeLoop, hg, hg]
    exact (progScale_step h _ _ y s).bind fun y' => (ih (i + 1) y').bind fun l => ProgMap.pure rfl

theorem progScale_odeint (ha : a ≠ 0) (h : ∀ t y, ProgMap I S (fun k => a • T k) (f (a * t) y) (f' t (T y))) (s : Solver) (t1 : ℝ) (it : Nat)
    (y : V) : ProgMap I S (List.map T) (odeint s f (a * t1) it y) (odeint s f' t1 it (T y)) := by
  intro w hw
  unfold odeint
  have e : (it ≠ 0 ∧ a * t1 = 0) ↔ (it ≠ 0 ∧ t1 = 0) := by rw [mul_eq_zero, or_iff_right ha]
  by_cases hc : it ≠ 0 ∧ t1 = 0
  · rw [if_pos hc, if_pos (e.2 hc)]; exact ⟨hw, rfl⟩
  · rw [if_neg hc, if_neg fun h' => hc (e.1 h')]; exact progScale_loop h s t1 it it 0 y w hw
end

theorem tToIt_scale {a : ℝ} (ha : a ≠ 0) (t1 t : ℝ) (it : Nat) : tToIt (a * t1) it (a * t) = tToIt t1 it t := by
  unfold tToIt
  rw [mul_div_assoc a t1, mul_div_mul_left _ _ ha]
theorem addCost_scale {a : ℝ} (ha : a ≠ 0) (i j : Int) (t : ℝ) : addCost i j (a * t) = addCost i j t := by
  unfold addCost
  simp only [mul_eq_zero, or_iff_right ha]

variable {d : Nat} (a : ℝ)

/-! ## Rows -/

mutual
theorem mfd_size_scale : (m : Mfd d) → (m.scale a).size = m.size
  | .landmarks _ _ => by simp only [Mfd.scale, Mfd.size]
  | .direction _ _ _ _ _ => by simp only [Mfd.scale, Mfd.size]
  | .frame _ _ _ _ => by simp only [Mfd.scale, Mfd.size]
  | .empty => by rw [Mfd.scale]
  | .compound ms => by rw [Mfd.scale, Mfd.size, Mfd.size, mfds_size_scale ms]
theorem mfds_size_scale : (ms : List (Mfd d)) → Mfd.sizeAll (Mfd.scaleAll a ms) = Mfd.sizeAll ms
  | [] => by rw [Mfd.scaleAll]
  | m :: ms => by rw [Mfd.scaleAll, Mfd.sizeAll, Mfd.sizeAll, mfd_size_scale m, mfds_size_scale ms]
end

mutual
theorem mfd_scale_withGd (x : Row) : (m : Mfd d) → (o : Nat) → (m.scale a).withGd x o = (m.withGd x o).scale a
  | .landmarks _ _, _ => by simp [Mfd.withGd, Mfd.scale]
  | .direction _ _ _ _ _, _ => by simp [Mfd.withGd, Mfd.scale]
  | .frame _ _ _ _, _ => by simp [Mfd.withGd, Mfd.scale]
  | .empty, _ => by simp [Mfd.withGd, Mfd.scale]
  | .compound ms, o => by rw [Mfd.withGd, Mfd.scale, Mfd.withGd, Mfd.scale, mfds_scale_withGd x ms]
theorem mfds_scale_withGd (x : Row) : (ms : List (Mfd d)) → (o : Nat) → Mfd.withGdAll x o (Mfd.scaleAll a ms) = Mfd.scaleAll a (Mfd.withGdAll x o ms)
  | [], _ => by simp [Mfd.withGdAll, Mfd.scaleAll]
  | m :: ms, o => by
    rw [Mfd.withGdAll, Mfd.scaleAll, Mfd.withGdAll, Mfd.scaleAll, mfd_scale_withGd x m, mfds_scale_withGd x ms, mfd_size_scale]
end

mutual
theorem mfd_scale_withCot (x : Row) : (m : Mfd d) → (o : Nat) → (m.scale a).withCot (a • x) o = (m.withCot x o).scale a
  | .landmarks _ _, _ => by simp only [Mfd.withCot, Mfd.scale]; rfl
  | .direction _ _ _ _ _, _ => by simp only [Mfd.withCot, Mfd.scale]; rfl
  | .frame _ _ _ _, _ => by simp only [Mfd.withCot, Mfd.scale]; rfl
  | .empty, _ => by simp only [Mfd.withCot, Mfd.scale]
  | .compound ms, o => by rw [Mfd.withCot, Mfd.scale, Mfd.withCot, Mfd.scale, mfds_scale_withCot x ms]
theorem mfds_scale_withCot (x : Row) : (ms : List (Mfd d)) → (o : Nat) →
    Mfd.withCotAll (a • x) o (Mfd.scaleAll a ms) = Mfd.scaleAll a (Mfd.withCotAll x o ms)
  | [], _ => by simp [Mfd.withCotAll, Mfd.scaleAll]
  | m :: ms, o => by
    rw [Mfd.withCotAll, Mfd.scaleAll, Mfd.withCotAll, Mfd.scaleAll, mfd_scale_withCot x m, mfds_scale_withCot x ms, mfd_size_scale]
end

mutual
theorem scale_withGd (x : Row) : (m : DefModule d) → (o : Nat) → (m.scale a).withGd x o = (m.withGd x o).scale a
  | .translations _, _ => by simp [DefModule.withGd, DefModule.scale]
  | .implicit0 _, _ => by simp [DefModule.withGd, DefModule.scale]
  | .oriented _, _ => by simp [DefModule.withGd, DefModule.scale]
  | .constrained _, _ => by simp [DefModule.withGd, DefModule.scale]
  | .globalTranslation _, _ => by simp [DefModule.withGd, DefModule.scale]
  | .linear _, _ => by simp [DefModule.withGd, DefModule.scale]
  | .implicit1 _, _ => by simp [DefModule.withGd, DefModule.scale]
  | .divFree _, _ => by simp [DefModule.withGd, DefModule.scale]
  | .arap _, _ => by simp [DefModule.withGd, DefModule.scale]
  | .silent man, o => by rw [DefModule.withGd, DefModule.scale, DefModule.withGd, DefModule.scale, mfd_scale_withGd]
  | .compound ms, o => by rw [DefModule.withGd, DefModule.scale, DefModule.withGd, DefModule.scale, scaleAll_withGd x ms]
theorem scaleAll_withGd (x : Row) : (ms : List (DefModule d)) → (o : Nat) →
    DefModule.withGdAll x o (DefModule.scaleAll a ms) = DefModule.scaleAll a (DefModule.withGdAll x o ms)
  | [], _ => by simp [DefModule.withGdAll, DefModule.scaleAll]
  | m :: ms, o => by
    rw [DefModule.withGdAll, DefModule.scaleAll, DefModule.withGdAll, DefModule.scaleAll, scale_withGd x m, scaleAll_withGd x ms,
      manifold_scale, mfd_size_scale]
end

mutual
theorem scale_withCot (x : Row) : (m : DefModule d) → (o : Nat) → (m.scale a).withCot (a • x) o = (m.withCot x o).scale a
  | .translations _, _ => by simp only [DefModule.withCot, DefModule.scale]; rfl
  | .implicit0 _, _ => by simp only [DefModule.withCot, DefModule.scale]; rfl
  | .oriented _, _ => by simp only [DefModule.withCot, DefModule.scale]; rfl
  | .constrained _, _ => by simp only [DefModule.withCot, DefModule.scale]; rfl
  | .globalTranslation _, _ => by simp only [DefModule.withCot, DefModule.scale]
  | .linear _, _ => by simp only [DefModule.withCot, DefModule.scale]; rfl
  | .implicit1 _, _ => by simp only [DefModule.withCot, DefModule.scale]; rfl
  | .divFree _, _ => by simp only [DefModule.withCot, DefModule.scale]; rfl
  | .arap _, _ => by simp only [DefModule.withCot, DefModule.scale]; rfl
  | .silent man, o => by rw [DefModule.withCot, DefModule.scale, DefModule.withCot, DefModule.scale, mfd_scale_withCot]
  | .compound ms, o => by rw [DefModule.withCot, DefModule.scale, DefModule.withCot, DefModule.scale, scaleAll_withCot x ms]
theorem scaleAll_withCot (x : Row) : (ms : List (DefModule d)) → (o : Nat) →
    DefModule.withCotAll (a • x) o (DefModule.scaleAll a ms) = DefModule.scaleAll a (DefModule.withCotAll x o ms)
  | [], _ => by simp [DefModule.withCotAll, DefModule.scaleAll]
  | m :: ms, o => by
    rw [DefModule.withCotAll, DefModule.scaleAll, DefModule.withCotAll, DefModule.scaleAll, scale_withCot x m, scaleAll_withCot x ms,
      manifold_scale, mfd_size_scale]
end

/-- Scaling the state vector. -/
def rowsScale : Row × Row →ₗ[ℝ] Row × Row := LinearMap.id.prodMap (a • LinearMap.id)
theorem rowsScale_apply (x : Row × Row) : rowsScale a x = (x.1, a • x.2) := rfl

theorem rowsMod_scale (m : DefModule d) (x : Row × Row) : rowsMod (m.scale a) (rowsScale a x) = (rowsMod m x).scale a := by
  unfold rowsMod
  rw [rowsScale_apply, scale_withGd, scale_withCot]

theorem numCoords_scale (m : DefModule d) : numCoords (m.scale a) = numCoords m := by
  rw [numCoords_eq, numCoords_eq, manifold_scale, mfd_size_scale]

mutual
theorem unrollGd_scale : (m : Mfd d) → (m.scale a).unrollGd = m.unrollGd
  | .landmarks _ _ => by simp only [Mfd.scale, Mfd.unrollGd]
  | .direction _ _ _ _ _ => by simp only [Mfd.scale, Mfd.unrollGd]
  | .frame _ _ _ _ => by simp only [Mfd.scale, Mfd.unrollGd]
  | .empty => by rw [Mfd.scale]
  | .compound ms => by rw [Mfd.scale, Mfd.unrollGd, Mfd.unrollGd, unrollGdAll_scale ms]
theorem unrollGdAll_scale : (ms : List (Mfd d)) → Mfd.unrollGdAll (Mfd.scaleAll a ms) = Mfd.unrollGdAll ms
  | [] => by rw [Mfd.scaleAll]
  | m :: ms => by rw [Mfd.scaleAll, Mfd.unrollGdAll, Mfd.unrollGdAll, unrollGd_scale m, unrollGdAll_scale ms]
end

mutual
theorem unrollCot_scale : (m : Mfd d) → (m.scale a).unrollCot = m.unrollCot.map (List.map (a * ·))
  | .landmarks _ _ => by
    simp only [Mfd.scale, Mfd.unrollCot]; exact congrArg (fun l => [l]) (flatVecs_mul a _)
  | .direction _ _ _ _ _ => by
    simp only [Mfd.scale, Mfd.unrollCot]; exact congrArg₂ (fun l l' => [l, l']) (flatVecs_mul a _) (flatVecs_mul a _)
  | .frame _ _ _ _ => by
    simp only [Mfd.scale, Mfd.unrollCot]; exact congrArg₂ (fun l l' => [l, l']) (flatVecs_mul a _) (flatMats_mul a _)
  | .empty => by rw [Mfd.scale, Mfd.unrollCot]; rfl
  | .compound ms => by rw [Mfd.scale, Mfd.unrollCot, Mfd.unrollCot, unrollCotAll_scale ms]
theorem unrollCotAll_scale : (ms : List (Mfd d)) → Mfd.unrollCotAll (Mfd.scaleAll a ms) = (Mfd.unrollCotAll ms).map (List.map (a * ·))
  | [] => by rw [Mfd.scaleAll, Mfd.unrollCotAll]; rfl
  | m :: ms => by rw [Mfd.scaleAll, Mfd.unrollCotAll, Mfd.unrollCotAll, unrollCot_scale m, unrollCotAll_scale ms, List.map_append]
end

mutual
theorem unrollTan_scale : (v : Tan d) → (v.scale a).unroll = v.unroll.map (List.map (a * ·))
  | .landmarks _ => by
    simp only [Tan.scale, Tan.unroll]; exact congrArg (fun l => [l]) (flatVecs_mul a _)
  | .direction _ _ => by
    simp only [Tan.scale, Tan.unroll]; exact congrArg₂ (fun l l' => [l, l']) (flatVecs_mul a _) (flatVecs_mul a _)
  | .frame _ _ => by
    simp only [Tan.scale, Tan.unroll]; exact congrArg₂ (fun l l' => [l, l']) (flatVecs_mul a _) (flatMats_mul a _)
  | .empty => by rw [Tan.scale, Tan.unroll]; rfl
  | .compound ms => by rw [Tan.scale, Tan.unroll, Tan.unroll, unrollTans_scale ms]
theorem unrollTans_scale : (ms : List (Tan d)) → Tan.unrollAll (Tan.scaleAll a ms) = (Tan.unrollAll ms).map (List.map (a * ·))
  | [] => by rw [Tan.scaleAll, Tan.unrollAll]; rfl
  | m :: ms => by rw [Tan.scaleAll, Tan.unrollAll, Tan.unrollAll, unrollTan_scale m, unrollTans_scale ms, List.map_append]
end

theorem gdRow_scale (m : DefModule d) : gdRow (m.scale a) = gdRow m := by
  rw [gdRow, manifold_scale, unrollGd_scale]; rfl
theorem cotRow_scale (m : DefModule d) : cotRow (m.scale a) = a • cotRow m := by
  rw [cotRow, manifold_scale, unrollCot_scale, ← List.map_flatten, rowOf_mapMul]; rfl

/-! ## Structure -/

mutual
theorem mfd_lenGd_scale : (m : Mfd d) → (m.scale a).lenGd = m.lenGd
  | .landmarks _ _ => by simp only [Mfd.scale, Mfd.lenGd]
  | .direction _ _ _ _ _ => by simp only [Mfd.scale, Mfd.lenGd]
  | .frame _ _ _ _ => by simp only [Mfd.scale, Mfd.lenGd]
  | .empty => by rw [Mfd.scale]
  | .compound ms => by rw [Mfd.scale, Mfd.lenGd, Mfd.lenGd, mfds_lenGd_scale ms]
theorem mfds_lenGd_scale : (ms : List (Mfd d)) → Mfd.lenGdAll (Mfd.scaleAll a ms) = Mfd.lenGdAll ms
  | [] => by rw [Mfd.scaleAll]
  | m :: ms => by rw [Mfd.scaleAll, Mfd.lenGdAll, Mfd.lenGdAll, mfd_lenGd_scale m, mfds_lenGd_scale ms]
end

theorem plain_scale (m : Mfd d) : (m.scale a).Plain ↔ m.Plain := by
  unfold Mfd.Plain
  rw [mfd_lenGd_scale]
  cases m <;> simp [Mfd.scale, Mfd.hasShapeGd]

theorem mfdScaleAll_eq (ms : List (Mfd d)) : Mfd.scaleAll a ms = ms.map (Mfd.scale a) := by
  induction ms with
  | nil => rw [Mfd.scaleAll]; rfl
  | cons m ms ih => rw [Mfd.scaleAll, ih]; rfl

theorem plainMembers_scale (ms : List (DefModule d)) : PlainMembers (DefModule.scaleAll a ms) ↔ PlainMembers ms := by
  unfold PlainMembers
  rw [manifolds_scale, mfdScaleAll_eq]
  simp only [List.mem_map, forall_exists_index, and_imp, forall_apply_eq_imp_iff₂, plain_scale]

mutual
theorem reset_scale : (m : DefModule d) → (m.reset.scale a).reset = (m.scale a).reset
  | .translations _ => by simp [DefModule.reset, DefModule.scale]
  | .implicit0 _ => by simp [DefModule.reset, DefModule.scale]
  | .oriented _ => by simp [DefModule.reset, DefModule.scale]
  | .constrained _ => by simp [DefModule.reset, DefModule.scale]
  | .globalTranslation _ => by simp [DefModule.reset, DefModule.scale]
  | .linear _ => by simp [DefModule.reset, DefModule.scale]
  | .implicit1 _ => by simp [DefModule.reset, DefModule.scale]
  | .divFree _ => by simp [DefModule.reset, DefModule.scale]
  | .arap _ => by simp [DefModule.reset, DefModule.scale]
  | .silent man => by simp [DefModule.reset, DefModule.scale]
  | .compound ms => by rw [DefModule.reset, DefModule.scale, DefModule.reset, DefModule.scale, DefModule.reset, resetAll_scale ms]
theorem resetAll_scale : (ms : List (DefModule d)) →
    DefModule.resetAll (DefModule.scaleAll a (DefModule.resetAll ms)) = DefModule.resetAll (DefModule.scaleAll a ms)
  | [] => by simp [DefModule.resetAll, DefModule.scaleAll]
  | m :: ms => by
    rw [DefModule.resetAll, DefModule.scaleAll, DefModule.resetAll, DefModule.scaleAll, DefModule.resetAll, reset_scale m, resetAll_scale ms]
end

theorem Same.scale (ha : a ≠ 0) {m m' : DefModule d} (h : Same m m') : Same (m.scale a) (m'.scale a) := fun y => by
  have e : y = rowsScale a (y.1, a⁻¹ • y.2) := by rw [rowsScale_apply, smul_inv_smul₀ ha]
  rw [e, rowsMod_scale, rowsMod_scale, ← reset_scale, h, reset_scale]

theorem SameGd.scale {m m' : DefModule d} (h : SameGd m m') : SameGd (m.scale a) (m'.scale a) := fun y => by
  rw [scale_withGd, scale_withGd, ← reset_scale, h y, reset_scale]

/-! ## Derivatives -/

theorem value_scale (m : DefModule d) : Hamiltonian.value (m.scale a) = (Hamiltonian.value m).map (a ^ 2 * ·) := by
  unfold Hamiltonian.value hamiltonianOn
  rw [cost_scale, field_scale, manifold_scale]
  cases m.field with
  | error e => cases m.cost <;> rfl
  | ok f =>
    dsimp only [Except.map]
    rw [innerProd_scale]
    cases m.manifold.innerProd f with
    | error e => cases m.cost <;> rfl
    | ok x =>
      cases m.cost with
      | error e => rfl
      | ok c => exact congrArg Except.ok (mul_sub _ _ _).symm

theorem geodesicControls_scale (m : DefModule d) :
    Hamiltonian.geodesicControls (m.scale a) = (Hamiltonian.geodesicControls m).map (DefModule.scale a) := by
  unfold Hamiltonian.geodesicControls
  rw [manifold_scale]; exact geodesic_scale a m.manifold m

theorem valD_map_mul (c : ℝ) (r : Py ℝ) : valD (r.map (c * ·)) = c * valD r := by
  cases r with
  | error e => exact (mul_zero c).symm
  | ok x => rfl

theorem hamFn_scale (m : DefModule d) (q p : Row) :
    hamFn Hamiltonian.geodesicControls (m.scale a) q (a • p) = (hamFn Hamiltonian.geodesicControls m q p).map (a ^ 2 * ·) := by
  unfold hamFn
  rw [withRows_eq, withRows_eq]
  dsimp only
  rw [scale_withGd, scale_withCot, geodesicControls_scale]
  cases Hamiltonian.geodesicControls ((m.withGd q 0).withCot p 0) with
  | error e => rfl
  | ok m' => exact value_scale a m'

theorem update_smul_row (p : Row) (j : Nat) (s : ℝ) : Function.update (a • p) j (a * s) = a • Function.update p j s := by
  funext k
  by_cases hk : k = j
  · subst hk; simp
  · simp [hk]

theorem gradH_scale (ha : a ≠ 0) (m : DefModule d) :
    gradH Hamiltonian.geodesicControls (m.scale a) = (a ^ 2 • (gradH Hamiltonian.geodesicControls m).1, a • (gradH Hamiltonian.geodesicControls m).2) := by
  unfold gradH
  dsimp only
  rw [numCoords_scale, gdRow_scale, cotRow_scale]
  refine Prod.ext (funext fun j => ?_) (funext fun j => ?_)
  · dsimp only
    rw [Pi.smul_apply, smul_eq_mul]
    unfold cut partialQ
    split
    · simp only [hamFn_scale, valD_map_mul]
      exact deriv_const_mul_field _
    · exact (mul_zero _).symm
  · dsimp only
    rw [Pi.smul_apply, smul_eq_mul]
    unfold cut partialP
    split
    · have e : (fun s => valD (hamFn Hamiltonian.geodesicControls (m.scale a) (gdRow m) (Function.update (a • cotRow m) j s)))
          = fun s => a ^ 2 * (fun s => valD (hamFn Hamiltonian.geodesicControls m (gdRow m) (Function.update (cotRow m) j s))) (a⁻¹ * s) := by
        funext s
        dsimp only
        rw [← valD_map_mul, ← hamFn_scale, ← update_smul_row, mul_inv_cancel_left₀ ha]
      rw [e, deriv_const_mul_field, deriv_comp_mul_left a⁻¹ (fun s => valD (hamFn Hamiltonian.geodesicControls m (gdRow m) (Function.update (cotRow m) j s)))]
      rw [Pi.smul_apply, smul_eq_mul, smul_eq_mul, inv_mul_cancel_left₀ ha, ← mul_assoc, pow_two, mul_assoc a a, mul_inv_cancel₀ ha, mul_one]
    · exact (mul_zero _).symm

/-! ## Shooting from momenta -/

/-- The callback with everything it holds scaled. -/
def GradObj.scale (w : GradObj d) : GradObj d := ⟨w.module.scale a, w.it, w.trueIt, w.costs.map (a ^ 2 * ·), w.ctrls.map (Ctrl.scale a)⟩

theorem evalAt_scale (m : DefModule d) (x : Row × Row) : evalAt (m.scale a) (rowsScale a x) = (evalAt m x).map (DefModule.scale a) := by
  unfold evalAt
  rw [rowsMod_scale, geodesicControls_scale]
  cases Hamiltonian.geodesicControls (rowsMod m x) with
  | error e => rfl
  | ok m' =>
    dsimp only [Except.map]
    rw [value_scale]
    cases Hamiltonian.value m' <;> rfl

theorem hamVec_scale (ha : a ≠ 0) (m : DefModule d) (x : Row × Row) : hamVec (m.scale a) (rowsScale a x) = a • rowsScale a (hamVec m x) := by
  unfold hamVec
  rw [rowsMod_scale, gradH_scale a ha]
  refine Prod.ext rfl ?_
  show -(a ^ 2 • (gradH Hamiltonian.geodesicControls (rowsMod m x)).1) = a • (a • -(gradH Hamiltonian.geodesicControls (rowsMod m x)).1)
  rw [smul_neg, smul_neg, smul_smul, pow_two]

theorem after_scale (ha : a ≠ 0) (w : GradObj d) (m' : DefModule d) (t1 : ℝ) (it : Nat) (t : ℝ) :
    (w.scale a).after t1 it t (m'.scale a) = (w.after (a * t1) it (a * t) m').scale a := by
  unfold GradObj.after GradObj.scale
  dsimp only
  rw [cost_scale, valD_map_mul, controls_scale, List.map_append, tToIt_scale ha, addCost_scale ha]
  congr 1
  split <;> simp

theorem forward_scale (ha : a ≠ 0) (ms : List (DefModule d)) (t1 : ℝ) (it : Nat) (t : ℝ) (x : Row × Row) :
    ProgMap (Inv ms) (GradObj.scale a) (fun k => a • rowsScale a k) (forwardMoments (a * t1) it (a * t) x)
      (forwardMoments t1 it t (rowsScale a x)) := by
  intro w hI
  have hI' : Inv (DefModule.scaleAll a ms) (w.scale a) := by
    obtain ⟨ms', e, hp, hs⟩ := hI
    refine ⟨DefModule.scaleAll a ms', ?_, (plainMembers_scale a ms').2 hp, ?_⟩
    · show w.module.scale a = _
      rw [e, DefModule.scale]
    · rw [← DefModule.scale, ← DefModule.scale]; exact hs.scale a ha
  rw [forward_run hI, forward_run hI', ← DefModule.scale, evalAt_scale]
  cases h1 : evalAt (.compound ms) x with
  | error e => exact ⟨hI, rfl⟩
  | ok m' =>
    refine ⟨inv_after hI h1 .., ?_⟩
    dsimp only [Except.map]
    rw [hamVec_scale a ha, after_scale a ha]

/-- Shooting from scaled momenta is shooting for a scaled time. -/
theorem shootMoments_scale (ha : a ≠ 0) (ms : List (DefModule d)) (s : Solver) (it : Nat) (t1 : ℝ) :
    shootMoments s it t1 ((DefModule.compound ms).scale a) = (shootMoments s it (a * t1) (.compound ms)).map (Shot.scale a) := by
  have hnc : numCoords (DefModule.compound (DefModule.scaleAll a ms)) = numCoords (.compound ms) := by
    rw [← DefModule.scale]; exact numCoords_scale a _
  by_cases hn : 0 < numCoords (.compound ms)
  swap
  · rw [DefModule.scale, shootMoments, shootMoments, C07_no_coordinates (DefModule.compound ms) (by omega), C07_no_coordinates (.compound (DefModule.scaleAll a ms)) (by rw [hnc]; omega)]; rfl
  by_cases hp : PlainMembers ms
  swap
  · rw [DefModule.scale, shoot_not_plain hp hn, shoot_not_plain (fun h' => hp ((plainMembers_scale a ms).1 h')) (hnc ▸ hn)]; simp only [Except.map, mul_eq_zero, ha, false_or]
  have hrun := progScale_odeint ha (forward_scale a ha ms t1 it) s t1 it
    (gdRow (.compound ms), cotRow (.compound ms)) (GradObj.init (.compound ms)) (inv_init hp)
  cases hr : odeint s (forwardMoments (a * t1) it) (a * t1) it (gdRow (.compound ms), cotRow (.compound ms)) (GradObj.init (.compound ms)) with
  | mk r w =>
    rw [hr] at hrun
    obtain ⟨hI, hrun⟩ := hrun
    have e0 : rowsScale a (gdRow (.compound ms), cotRow (.compound ms))
        = (gdRow (.compound (DefModule.scaleAll a ms)), cotRow (.compound (DefModule.scaleAll a ms))) := by
      rw [← DefModule.scale, gdRow_scale, cotRow_scale]; rfl
    have e1 : (GradObj.init (.compound ms)).scale a = GradObj.init (.compound (DefModule.scaleAll a ms)) := by
      rw [← DefModule.scale]; rfl
    rw [e0, e1] at hrun
    rw [DefModule.scale, shoot_of_run ((plainMembers_scale a ms).2 hp) (hnc ▸ hn) s it t1 hrun, shoot_of_run hp hn s it (a * t1) hr]
    cases r with
    | error e => rfl
    | ok xs =>
      dsimp only [Except.map]
      refine congrArg Except.ok ?_
      unfold Shot.scale
      dsimp only
      rw [← e0, getLastD_map, List.map_map, List.map_map]
      congr 1
      · exact rowsMod_scale a w.module _
      · refine List.map_congr_left fun x _ => ?_
        show (rowsMod (.compound (DefModule.scaleAll a ms)) _).manifold = _
        rw [← DefModule.scale, rowsMod_scale, manifold_scale]; rfl

/-! ## Shooting with controls -/

theorem ctrlEval_scale (m : DefModule d) (c : Ctrl d) (x : Row) :
    ctrlEval (m.scale a) (c.scale a) x = (ctrlEval m c x).map fun r => (r.1.scale a, a • r.2) := by
  unfold ctrlEval
  rw [scale_withGd, fillControls_scale]
  cases (m.withGd x 0).fillControls c with
  | error e => rfl
  | ok m' =>
    dsimp only [Except.map]
    rw [cost_scale]
    cases m'.cost with
    | error e => rfl
    | ok b =>
      dsimp only [Except.map]
      rw [field_scale]
      cases m'.field with
      | error e => rfl
      | ok f =>
        dsimp only [Except.map]
        rw [manifold_scale, action_scale]
        cases m'.manifold.action f with
        | error e => rfl
        | ok v =>
          dsimp only [Except.map]
          rw [unrollTan_scale, ← List.map_flatten, rowOf_mapMul]

theorem forwardC_scale (ha : a ≠ 0) (ms : List (DefModule d)) (controls : List (Ctrl d)) (t1 : ℝ) (it : Nat) (t : ℝ) (x : Row) :
    ProgMap (InvC ms) (GradObj.scale a) (fun k => a • (LinearMap.id : Row →ₗ[ℝ] Row) k) (forwardControl controls (a * t1) it (a * t) x)
      (forwardControl (controls.map (Ctrl.scale a)) t1 it t ((LinearMap.id : Row →ₗ[ℝ] Row) x)) := by
  intro w hI
  have hI' : InvC (DefModule.scaleAll a ms) (w.scale a) := by
    obtain ⟨ms', e, hp, hs⟩ := hI
    refine ⟨DefModule.scaleAll a ms', ?_, (plainMembers_scale a ms').2 hp, ?_⟩
    · show w.module.scale a = _
      rw [e, DefModule.scale]
    · rw [← DefModule.scale, ← DefModule.scale]; exact hs.scale a
  rw [forwardC_run hI, forwardC_run hI', ← DefModule.scale, tToIt_scale ha]
  have hpick : pickControls (controls.map (Ctrl.scale a)) it (tToIt t1 it t) (w.scale a).it
      = (pickControls controls it (tToIt t1 it t) w.it).map (Ctrl.scale a) := by
    show pickControls _ it _ w.it = _
    unfold pickControls
    rw [List.length_map]
    dsimp only
    rw [List.getElem?_map]
    cases controls[if controls.length = it then (tToIt t1 it t).toNat else if it < controls.length then w.it else 0]? <;> rfl
  rw [hpick]
  cases h0 : pickControls controls it (tToIt t1 it t) w.it with
  | error e => exact ⟨hI, rfl⟩
  | ok c =>
    dsimp only [Except.map, LinearMap.id_apply]
    rw [ctrlEval_scale]
    cases h1 : ctrlEval (.compound ms) c x with
    | error e => exact ⟨hI, rfl⟩
    | ok r =>
      refine ⟨invC_after hI h1 .., ?_⟩
      dsimp only [Except.map]
      rw [after_scale a ha]

/-- Shooting with scaled controls is shooting for a scaled time. -/
theorem shootControls_scale (ha : a ≠ 0) (ms : List (DefModule d)) (s : Solver) (it : Nat) (t1 : ℝ) (controls : List (Ctrl d)) :
    shootControls s it t1 (controls.map (Ctrl.scale a)) ((DefModule.compound ms).scale a)
      = (shootControls s it (a * t1) controls (.compound ms)).map (Shot.scale a) := by
  have hnc : numCoords (DefModule.compound (DefModule.scaleAll a ms)) = numCoords (.compound ms) := by
    rw [← DefModule.scale]; exact numCoords_scale a _
  by_cases hn : 0 < numCoords (.compound ms)
  swap
  · rw [DefModule.scale, shootControls, shootControls, C07_no_coordinates (DefModule.compound ms) (by omega), C07_no_coordinates (.compound (DefModule.scaleAll a ms)) (by rw [hnc]; omega)]; rfl
  by_cases hp : PlainMembers ms
  swap
  · rw [DefModule.scale, shootC_not_plain hp hn, shootC_not_plain (fun h' => hp ((plainMembers_scale a ms).1 h')) (hnc ▸ hn)]; simp only [Except.map, mul_eq_zero, ha, false_or]
  have hrun := progScale_odeint ha (forwardC_scale a ha ms controls t1 it) s t1 it (gdRow (.compound ms)) (GradObj.init (.compound ms)) (invC_init hp)
  cases hr : odeint s (forwardControl controls (a * t1) it) (a * t1) it (gdRow (.compound ms)) (GradObj.init (.compound ms)) with
  | mk r w =>
    rw [hr] at hrun
    obtain ⟨hI, hrun⟩ := hrun
    have e0 : (LinearMap.id : Row →ₗ[ℝ] Row) (gdRow (.compound ms)) = gdRow (.compound (DefModule.scaleAll a ms)) := by
      rw [← DefModule.scale, gdRow_scale]; rfl
    have e1 : (GradObj.init (.compound ms)).scale a = GradObj.init (.compound (DefModule.scaleAll a ms)) := by
      rw [← DefModule.scale]; rfl
    rw [e0, e1] at hrun
    rw [DefModule.scale, shootC_of_run ((plainMembers_scale a ms).2 hp) (hnc ▸ hn) s it t1 _ hrun, shootC_of_run hp hn s it (a * t1) _ hr]
    cases r with
    | error e => rfl
    | ok xs =>
      dsimp only [Except.map]
      refine congrArg Except.ok ?_
      unfold Shot.scale
      dsimp only
      rw [← e0, getLastD_map, List.map_map, List.map_map]
      congr 1
      · exact scale_withGd a _ w.module 0
      · refine List.map_congr_left fun x _ => ?_
        show ((DefModule.compound (DefModule.scaleAll a ms)).withGd _ 0).manifold = _
        rw [← DefModule.scale, scale_withGd, manifold_scale]; rfl

end
end Imodal
