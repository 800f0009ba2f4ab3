import Verif.Lemmas.SmoothHam
import Verif.Spec.Smooth
import Verif.Lemmas.Uniform
/-!
# Smoothness of the Hamiltonian as a function of the entries of the state
-/
set_option autoImplicit false
namespace Imodal
noncomputable section
open Matrix Filter Topology
variable {d : Nat} {n : WithTop ℕ∞} {J : Prop}

mutual
theorem Mfd.noEmpty_gd (x : Row) : (m : Mfd d) → (o : Nat) → ((m.withGd x o).NoEmptyCompound ↔ m.NoEmptyCompound)
  | .landmarks _ _, _ => by simp only [Mfd.withGd, Mfd.NoEmptyCompound]
  | .direction _ _ _ _ _, _ => by simp only [Mfd.withGd, Mfd.NoEmptyCompound]
  | .frame _ _ _ _, _ => by simp only [Mfd.withGd, Mfd.NoEmptyCompound]
  | .empty, _ => by simp only [Mfd.withGd]
  | .compound ms, o => by
    simp only [Mfd.withGd, Mfd.NoEmptyCompound, Mfd.noEmpty_gdAll x ms o]
    refine and_congr_left fun _ => ?_
    cases ms with
    | nil => simp only [Mfd.withGdAll]
    | cons m ms => simp only [Mfd.withGdAll, ne_eq, reduceCtorEq]
theorem Mfd.noEmpty_gdAll (x : Row) : (ms : List (Mfd d)) → (o : Nat) → (Mfd.AllNoEmptyCompound (Mfd.withGdAll x o ms) ↔ Mfd.AllNoEmptyCompound ms)
  | [], _ => by simp only [Mfd.withGdAll]
  | m :: ms, o => by
    simp only [Mfd.withGdAll, Mfd.AllNoEmptyCompound, Mfd.noEmpty_gd x m o, Mfd.noEmpty_gdAll x ms _]
end
mutual
theorem Mfd.noEmpty_cot (x : Row) : (m : Mfd d) → (o : Nat) → ((m.withCot x o).NoEmptyCompound ↔ m.NoEmptyCompound)
  | .landmarks _ _, _ => by simp only [Mfd.withCot, Mfd.NoEmptyCompound]
  | .direction _ _ _ _ _, _ => by simp only [Mfd.withCot, Mfd.NoEmptyCompound]
  | .frame _ _ _ _, _ => by simp only [Mfd.withCot, Mfd.NoEmptyCompound]
  | .empty, _ => by simp only [Mfd.withCot]
  | .compound ms, o => by
    simp only [Mfd.withCot, Mfd.NoEmptyCompound, Mfd.noEmpty_cotAll x ms o]
    refine and_congr_left fun _ => ?_
    cases ms with
    | nil => simp only [Mfd.withCotAll]
    | cons m ms => simp only [Mfd.withCotAll, ne_eq, reduceCtorEq]
theorem Mfd.noEmpty_cotAll (x : Row) : (ms : List (Mfd d)) → (o : Nat) → (Mfd.AllNoEmptyCompound (Mfd.withCotAll x o ms) ↔ Mfd.AllNoEmptyCompound ms)
  | [], _ => by simp only [Mfd.withCotAll]
  | m :: ms, o => by
    simp only [Mfd.withCotAll, Mfd.AllNoEmptyCompound, Mfd.noEmpty_cot x m o, Mfd.noEmpty_cotAll x ms _]
end
mutual
theorem Mfd.noDir_gd (x : Row) : (m : Mfd d) → (o : Nat) → ((m.withGd x o).NoDirections ↔ m.NoDirections)
  | .landmarks _ _, _ => by simp only [Mfd.withGd, Mfd.NoDirections]
  | .direction _ _ _ _ _, _ => by simp only [Mfd.withGd, Mfd.NoDirections]
  | .frame _ _ _ _, _ => by simp only [Mfd.withGd, Mfd.NoDirections]
  | .empty, _ => by simp only [Mfd.withGd]
  | .compound ms, o => by simp only [Mfd.withGd, Mfd.NoDirections, Mfd.noDir_gdAll x ms o]
theorem Mfd.noDir_gdAll (x : Row) : (ms : List (Mfd d)) → (o : Nat) → (Mfd.AllNoDirections (Mfd.withGdAll x o ms) ↔ Mfd.AllNoDirections ms)
  | [], _ => by simp only [Mfd.withGdAll]
  | m :: ms, o => by simp only [Mfd.withGdAll, Mfd.AllNoDirections, Mfd.noDir_gd x m o, Mfd.noDir_gdAll x ms _]
end
mutual
theorem Mfd.noDir_cot (x : Row) : (m : Mfd d) → (o : Nat) → ((m.withCot x o).NoDirections ↔ m.NoDirections)
  | .landmarks _ _, _ => by simp only [Mfd.withCot, Mfd.NoDirections]
  | .direction _ _ _ _ _, _ => by simp only [Mfd.withCot, Mfd.NoDirections]
  | .frame _ _ _ _, _ => by simp only [Mfd.withCot, Mfd.NoDirections]
  | .empty, _ => by simp only [Mfd.withCot]
  | .compound ms, o => by simp only [Mfd.withCot, Mfd.NoDirections, Mfd.noDir_cotAll x ms o]
theorem Mfd.noDir_cotAll (x : Row) : (ms : List (Mfd d)) → (o : Nat) → (Mfd.AllNoDirections (Mfd.withCotAll x o ms) ↔ Mfd.AllNoDirections ms)
  | [], _ => by simp only [Mfd.withCotAll]
  | m :: ms, o => by simp only [Mfd.withCotAll, Mfd.AllNoDirections, Mfd.noDir_cot x m o, Mfd.noDir_cotAll x ms _]
end

mutual
theorem smooth_tame (x : Row) : (m : DefModule d) → (o : Nat) → m.SmoothParts n J → (m.withGd x o).Tame n J
  | .translations _, _, h => by rw [DefModule.withGd, DefModule.Tame]; trivial
  | .implicit0 _, _, h => by rw [DefModule.withGd, DefModule.Tame]; trivial
  | .oriented _, _, h => by rw [DefModule.withGd, DefModule.Tame]; trivial
  | .constrained _, _, h => by
    rw [DefModule.SmoothParts] at h; rw [DefModule.withGd, DefModule.Tame]; exact ⟨h.1.contDiffAt, h.2.contDiffAt⟩
  | .globalTranslation _, _, h => by rw [DefModule.withGd, DefModule.Tame]; trivial
  | .linear _, _, h => by rw [DefModule.withGd, DefModule.Tame]; trivial
  | .implicit1 _, _, h => by rw [DefModule.SmoothParts] at h; rw [DefModule.withGd, DefModule.Tame]; exact h
  | .divFree _, _, h => by rw [DefModule.SmoothParts] at h; rw [DefModule.withGd, DefModule.Tame]; exact h
  | .arap _, _, h => by rw [DefModule.SmoothParts] at h; rw [DefModule.withGd, DefModule.Tame]; exact h
  | .silent _, _, h => by rw [DefModule.withGd, DefModule.Tame]; trivial
  | .compound ms, o, h => by
    rw [DefModule.SmoothParts] at h
    rw [DefModule.withGd, DefModule.Tame]
    refine ⟨?_, smooth_allTame x ms o h.2⟩
    cases ms with
    | nil => exact absurd rfl h.1
    | cons m ms => rw [DefModule.withGdAll]; exact List.cons_ne_nil _ _
theorem smooth_allTame (x : Row) : (ms : List (DefModule d)) → (o : Nat) → DefModule.AllSmoothParts n J ms →
    DefModule.AllTame n J (DefModule.withGdAll x o ms)
  | [], _, _ => by rw [DefModule.withGdAll, DefModule.AllTame]; trivial
  | m :: ms, o, h => by
    rw [DefModule.AllSmoothParts] at h
    rw [DefModule.withGdAll, DefModule.AllTame]
    exact ⟨smooth_tame x m o h.1, smooth_allTame x ms _ h.2⟩
end

mutual
theorem smooth_noEmpty : (m : DefModule d) → m.SmoothParts n J → m.manifold.NoEmptyCompound
  | .translations _, _ => by rw [DefModule.manifold, Translations.manifold, Mfd.NoEmptyCompound]; trivial
  | .implicit0 _, _ => by rw [DefModule.manifold, Implicit0.manifold, Mfd.NoEmptyCompound]; trivial
  | .oriented _, _ => by rw [DefModule.manifold, Oriented.manifold, Mfd.NoEmptyCompound]; trivial
  | .constrained _, _ => by rw [DefModule.manifold, Constrained.manifold, Mfd.NoEmptyCompound]; trivial
  | .globalTranslation _, _ => by rw [DefModule.manifold, GlobalTranslation.manifold, Mfd.NoEmptyCompound]; trivial
  | .linear _, _ => by rw [DefModule.manifold, Linear.manifold, Mfd.NoEmptyCompound]; trivial
  | .implicit1 _, _ => by rw [DefModule.manifold, Implicit1.manifold, Mfd.NoEmptyCompound]; trivial
  | .divFree _, _ => by rw [DefModule.manifold, DivFree.manifold, Mfd.NoEmptyCompound]; trivial
  | .arap _, _ => by rw [DefModule.manifold, Arap.manifold, Mfd.NoEmptyCompound]; trivial
  | .silent _, h => by rw [DefModule.SmoothParts] at h; rw [DefModule.manifold]; exact h
  | .compound ms, h => by
    rw [DefModule.SmoothParts] at h
    rw [DefModule.manifold, Mfd.NoEmptyCompound]
    exact ⟨DefModule.manifolds_ne_nil h.1, smooth_allNoEmpty ms h.2⟩
theorem smooth_allNoEmpty : (ms : List (DefModule d)) → DefModule.AllSmoothParts n J ms → Mfd.AllNoEmptyCompound (DefModule.manifolds ms)
  | [], _ => by rw [DefModule.manifolds, Mfd.AllNoEmptyCompound]; trivial
  | m :: ms, h => by
    rw [DefModule.AllSmoothParts] at h
    rw [DefModule.manifolds, Mfd.AllNoEmptyCompound]
    exact ⟨smooth_noEmpty m h.1, smooth_allNoEmpty ms h.2⟩
end

mutual
theorem regular_smooth (hJ : J) : (m : DefModule d) → m.Regular → m.SmoothParts n J
  | .translations _, h => by rw [DefModule.SmoothParts]; trivial
  | .implicit0 _, h => by rw [DefModule.SmoothParts]; trivial
  | .oriented _, h => by rw [DefModule.SmoothParts]; trivial
  | .constrained _, h => by rw [DefModule.Regular] at h; exact h.elim
  | .globalTranslation _, h => by rw [DefModule.SmoothParts]; trivial
  | .linear _, h => by rw [DefModule.SmoothParts]; trivial
  | .implicit1 _, h => by rw [DefModule.SmoothParts]; exact hJ
  | .divFree _, h => by rw [DefModule.SmoothParts]; exact hJ
  | .arap _, h => by rw [DefModule.SmoothParts]; exact hJ
  | .silent _, h => by rw [DefModule.Regular] at h; rw [DefModule.SmoothParts]; exact h.1
  | .compound ms, h => by
    rw [DefModule.Regular] at h; rw [DefModule.SmoothParts]; exact ⟨h.1, regular_allSmooth hJ ms h.2⟩
theorem regular_allSmooth (hJ : J) : (ms : List (DefModule d)) → DefModule.AllRegular ms → DefModule.AllSmoothParts n J ms
  | [], _ => by rw [DefModule.AllSmoothParts]; trivial
  | m :: ms, h => by
    rw [DefModule.AllRegular] at h; rw [DefModule.AllSmoothParts]; exact ⟨regular_smooth hJ m h.1, regular_allSmooth hJ ms h.2⟩
end

theorem DefModule.Regular.smooth {m : DefModule d} (h : m.Regular) (n : WithTop ℕ∞) : m.Smooth n :=
  regular_smooth (regular_manifold m h).2 m h

/-- If the geodesic controls exist at `e₀` they exist nearby, and the Hamiltonian is smooth there. -/
theorem ham_smooth {E : Type} [NormedAddCommGroup E] [NormedSpace ℝ E] {e₀ : E} {m : DefModule d} (hm : m.Smooth n) {q p : E → Row}
    (hq : ∀ j, ContDiffAt ℝ n (fun e => q e j) e₀) (hp : ∀ j, ContDiffAt ℝ n (fun e => p e j) e₀)
    (hok : ∃ m', Hamiltonian.geodesicControls (rowsMod m (q e₀, p e₀)) = .ok m') :
    (∀ᶠ e in 𝓝 e₀, ∃ m', evalAt m (q e, p e) = .ok m') ∧ ContDiffAt ℝ n (fun e => ham m (q e) (p e)) e₀ := by
  have hman : ∀ e, (rowsMod m (q e, p e)).manifold = (m.manifold.withGd (q e) 0).withCot (p e) 0 := fun e => by
    unfold rowsMod; rw [DefModule.manifold_withCot, DefModule.manifold_withGd]
  have h := ok_smGeo (n := n) (e₀ := e₀) (man := fun e => (rowsMod m (q e, p e)).manifold) (J := m.manifold.NoDirections)
    (by simp only [hman]; exact sm_momAtoms hq hp _ _ _)
    (fun e => by rw [hman, Mfd.noEmpty_cot, Mfd.noEmpty_gd]; exact smooth_noEmpty m hm)
    (fun hJ e => by rw [hman, Mfd.noDir_cot, Mfd.noDir_gd]; exact hJ)
    p hq m 0 0 (smooth_tame _ m 0 hm) hok
  obtain ⟨H, hH, h⟩ := h
  constructor
  · filter_upwards [h] with e ⟨m', hm', ι, i, Q, s, h, a1, a2, a3⟩
    have : Hamiltonian.geodesicControls (rowsMod m (q e, p e)) = .ok m' := hm'
    refine ⟨m', ?_⟩
    unfold evalAt
    rw [this]
    dsimp only
    unfold Hamiltonian.value
    rw [geodesic_manifold this, hamiltonian_geo a1 a2]
  · refine hH.congr_of_eventuallyEq ?_
    filter_upwards [h] with e ⟨m', hm', ι, i, Q, s, h, a1, a2, a3⟩
    unfold ham
    rw [hamFn_eq]
    have : Hamiltonian.geodesicControls (rowsMod m (q e, p e)) = .ok m' := hm'
    rw [this]
    dsimp only
    unfold Hamiltonian.value
    rw [geodesic_manifold this, hamiltonian_geo a1 a2, a3]
    rfl

end
end Imodal
