import Verif.Lemmas.Shoot
import Verif.Props.C20
import Verif.Props.C18
/-!
# Modules whose geodesic controls exist everywhere
-/
set_option autoImplicit false
namespace Imodal
noncomputable section
variable {d : Nat}

mutual
/-- Implicit modules of order 0, divergence free and as-rigid-as-possible modules with positive
regularisation, global translations, linear deformations, all with positive weights, silent
modules without directions, and compounds of these. -/
def DefModule.Regular : DefModule d → Prop
  | .translations _ => False
  | .implicit0 m => 0 < m.ν ∧ 0 < m.coeff
  | .oriented _ => False
  | .constrained _ => False
  | .globalTranslation m => 0 < m.coeff
  | .linear m => 0 < m.coeff
  | .implicit1 _ => False
  | .divFree m => 0 < m.ν ∧ 0 < m.coeff
  | .arap m => 0 < m.ν ∧ 0 < m.coeff
  | .silent man => man.NoEmptyCompound ∧ man.NoDirections
  | .compound ms => ms ≠ [] ∧ DefModule.AllRegular ms
def DefModule.AllRegular : List (DefModule d) → Prop
  | [] => True
  | m :: ms => m.Regular ∧ DefModule.AllRegular ms
end

mutual
theorem regular_reset : (m : DefModule d) → (m.reset.Regular ↔ m.Regular)
  | .translations _ => by rw [DefModule.reset, DefModule.Regular, DefModule.Regular]
  | .implicit0 _ => by rw [DefModule.reset, DefModule.Regular, DefModule.Regular]
  | .oriented _ => by rw [DefModule.reset, DefModule.Regular, DefModule.Regular]
  | .constrained _ => by rw [DefModule.reset, DefModule.Regular, DefModule.Regular]
  | .globalTranslation _ => by rw [DefModule.reset, DefModule.Regular, DefModule.Regular]
  | .linear _ => by rw [DefModule.reset, DefModule.Regular, DefModule.Regular]
  | .implicit1 _ => by rw [DefModule.reset, DefModule.Regular, DefModule.Regular]
  | .divFree _ => by rw [DefModule.reset, DefModule.Regular, DefModule.Regular]
  | .arap _ => by rw [DefModule.reset, DefModule.Regular, DefModule.Regular]
  | .silent _ => by rw [DefModule.reset]
  | .compound ms => by
    rw [DefModule.reset, DefModule.Regular, DefModule.Regular, regular_resetAll ms]
    cases ms <;> simp [DefModule.resetAll]
theorem regular_resetAll : (ms : List (DefModule d)) →
    (DefModule.AllRegular (DefModule.resetAll ms) ↔ DefModule.AllRegular ms)
  | [] => by rw [DefModule.resetAll]
  | m :: ms => by
    rw [DefModule.resetAll, DefModule.AllRegular, DefModule.AllRegular, regular_reset m, regular_resetAll ms]
end

mutual
theorem regular_nonneg : (m : DefModule d) → m.Regular → m.NonnegWeights
  | .translations _, h => by rw [DefModule.Regular] at h; exact h.elim
  | .implicit0 _, h => by rw [DefModule.Regular] at h; rw [DefModule.NonnegWeights]; exact ⟨h.2.le, h.1.le⟩
  | .oriented _, h => by rw [DefModule.Regular] at h; exact h.elim
  | .constrained _, h => by rw [DefModule.Regular] at h; exact h.elim
  | .globalTranslation _, h => by rw [DefModule.Regular] at h; rw [DefModule.NonnegWeights]; exact h.le
  | .linear _, h => by rw [DefModule.Regular] at h; rw [DefModule.NonnegWeights]; exact h.le
  | .implicit1 _, h => by rw [DefModule.Regular] at h; exact h.elim
  | .divFree _, h => by rw [DefModule.Regular] at h; rw [DefModule.NonnegWeights]; exact ⟨h.2.le, h.1.le⟩
  | .arap _, h => by rw [DefModule.Regular] at h; rw [DefModule.NonnegWeights]; exact ⟨h.2.le, h.1.le⟩
  | .silent _, _ => by rw [DefModule.NonnegWeights]; trivial
  | .compound ms, h => by
    rw [DefModule.Regular] at h; rw [DefModule.NonnegWeights]
    exact ⟨h.1, regular_nonnegAll ms h.2⟩
theorem regular_nonnegAll : (ms : List (DefModule d)) → DefModule.AllRegular ms → DefModule.AllNonnegWeights ms
  | [], _ => by rw [DefModule.AllNonnegWeights]; trivial
  | m :: ms, h => by
    rw [DefModule.AllRegular] at h; rw [DefModule.AllNonnegWeights]
    exact ⟨regular_nonneg m h.1, regular_nonnegAll ms h.2⟩
end

theorem DefModule.manifolds_ne_nil {ms : List (DefModule d)} (h : ms ≠ []) : DefModule.manifolds ms ≠ [] := by
  cases ms with
  | nil => exact absurd rfl h
  | cons m ms => rw [DefModule.manifolds]; exact List.cons_ne_nil _ _

mutual
theorem regular_manifold : (m : DefModule d) → m.Regular → m.manifold.NoEmptyCompound ∧ m.manifold.NoDirections
  | .translations _, h => by rw [DefModule.Regular] at h; exact h.elim
  | .implicit0 _, _ => by simp [DefModule.manifold, Implicit0.manifold, Mfd.NoEmptyCompound, Mfd.NoDirections]
  | .oriented _, h => by rw [DefModule.Regular] at h; exact h.elim
  | .constrained _, h => by rw [DefModule.Regular] at h; exact h.elim
  | .globalTranslation _, _ => by simp [DefModule.manifold, GlobalTranslation.manifold, Mfd.NoEmptyCompound, Mfd.NoDirections]
  | .linear _, _ => by simp [DefModule.manifold, Linear.manifold, Mfd.NoEmptyCompound, Mfd.NoDirections]
  | .implicit1 _, h => by rw [DefModule.Regular] at h; exact h.elim
  | .divFree _, _ => by simp [DefModule.manifold, DivFree.manifold, Mfd.NoEmptyCompound, Mfd.NoDirections]
  | .arap _, _ => by simp [DefModule.manifold, Arap.manifold, Mfd.NoEmptyCompound, Mfd.NoDirections]
  | .silent _, h => by rw [DefModule.Regular] at h; rw [DefModule.manifold]; exact h
  | .compound ms, h => by
    rw [DefModule.Regular] at h; rw [DefModule.manifold, Mfd.NoEmptyCompound, Mfd.NoDirections]
    obtain ⟨a, b⟩ := regular_manifolds ms h.2
    exact ⟨⟨DefModule.manifolds_ne_nil h.1, a⟩, b⟩
theorem regular_manifolds : (ms : List (DefModule d)) → DefModule.AllRegular ms →
    Mfd.AllNoEmptyCompound (DefModule.manifolds ms) ∧ Mfd.AllNoDirections (DefModule.manifolds ms)
  | [], _ => by rw [DefModule.manifolds, Mfd.AllNoEmptyCompound, Mfd.AllNoDirections]; exact ⟨trivial, trivial⟩
  | m :: ms, h => by
    rw [DefModule.AllRegular] at h
    rw [DefModule.manifolds, Mfd.AllNoEmptyCompound, Mfd.AllNoDirections]
    obtain ⟨a, b⟩ := regular_manifold m h.1
    obtain ⟨a', b'⟩ := regular_manifolds ms h.2
    exact ⟨⟨a, a'⟩, b, b'⟩
end

theorem collect_total {n : Nat} {f : Fin n → Py ℝ} (h : ∀ i, ∃ a, f i = .ok a) : ∃ g, collect f = .ok g := by
  induction n with
  | zero => exact ⟨_, rfl⟩
  | succ n ih =>
    obtain ⟨a, ha⟩ := h 0
    obtain ⟨g, hg⟩ := ih (f := fun i => f i.succ) fun i => h i.succ
    rw [collect, ha]
    dsimp only
    rw [hg]
    exact ⟨_, rfl⟩

mutual
/-- Geodesic controls exist, wherever the points are. -/
theorem regular_geodesic {man : Mfd d} (he : man.NoEmptyCompound) (hd : man.NoDirections) : (m : DefModule d) → m.Regular →
    ∃ m', m.geodesic man = .ok m'
  | .translations _, h => by rw [DefModule.Regular] at h; exact h.elim
  | .oriented _, h => by rw [DefModule.Regular] at h; exact h.elim
  | .constrained _, h => by rw [DefModule.Regular] at h; exact h.elim
  | .implicit1 _, h => by rw [DefModule.Regular] at h; exact h.elim
  | .implicit0 m, h => by
    rw [DefModule.Regular] at h
    obtain ⟨m', hm⟩ := C20_implicit0 m h.1 h.2.ne' man he
    rw [DefModule.geodesic, hm]; exact ⟨_, rfl⟩
  | .globalTranslation m, h => by
    rw [DefModule.Regular] at h
    have : ∀ i, ∃ a, m.entry man i = .ok a := fun i => by
      obtain ⟨a, ha⟩ := innerProd_avail (avail_const 0 fun c => if c = i then (1 : ℝ) else 0)
        (avail_const 1 fun c => if c = i then (1 : ℝ) else 0) man
      unfold GlobalTranslation.entry
      rw [ha]
      exact ⟨_, tdiv_of_ne h.ne'⟩
    obtain ⟨g, hg⟩ := collect_total this
    rw [DefModule.geodesic, GlobalTranslation.geodesic, hg]
    exact ⟨_, rfl⟩
  | .linear m, h => by
    rw [DefModule.Regular] at h
    obtain ⟨a, ha⟩ := innerProd_avail (avail_affine 0 m.A m.gd 0) (avail_affine 1 m.A m.gd 0) man
    rw [DefModule.geodesic, Linear.geodesic, ha]
    dsimp only
    rw [tdiv_of_ne h.ne']
    exact ⟨_, rfl⟩
  | .divFree m, h => by
    rw [DefModule.Regular] at h
    obtain ⟨m', hm⟩ := (C20_divFree m h.1).2 h.2.ne' man he hd
    rw [DefModule.geodesic, hm]; exact ⟨_, rfl⟩
  | .arap m, h => by
    rw [DefModule.Regular] at h
    obtain ⟨m', hm⟩ := (C20_arap m h.1).2 h.2.ne' man he hd
    rw [DefModule.geodesic, hm]; exact ⟨_, rfl⟩
  | .silent s, _ => ⟨_, by rw [DefModule.geodesic]⟩
  | .compound ms, h => by
    rw [DefModule.Regular] at h
    obtain ⟨ms', hm⟩ := regular_geodesics he hd ms h.2
    rw [DefModule.geodesic, hm]; exact ⟨_, rfl⟩
theorem regular_geodesics {man : Mfd d} (he : man.NoEmptyCompound) (hd : man.NoDirections) : (ms : List (DefModule d)) →
    DefModule.AllRegular ms → ∃ ms', DefModule.geodesics man ms = .ok ms'
  | [], _ => ⟨_, by rw [DefModule.geodesics]⟩
  | m :: ms, h => by
    rw [DefModule.AllRegular] at h
    obtain ⟨m', hm⟩ := regular_geodesic he hd m h.1
    obtain ⟨ms', hms⟩ := regular_geodesics he hd ms h.2
    rw [DefModule.geodesics, hm, hms]
    exact ⟨_, rfl⟩
end

mutual
theorem Mfd.noEmpty_withGd (x : Row) : (m : Mfd d) → (off : Nat) → (m.NoEmptyCompound ∧ m.NoDirections) →
    ((m.withGd x off).NoEmptyCompound ∧ (m.withGd x off).NoDirections)
  | .landmarks _ _, _, _ => by rw [Mfd.withGd, Mfd.NoEmptyCompound, Mfd.NoDirections]; exact ⟨trivial, trivial⟩
  | .direction _ _ _ _ _, _, h => by rw [Mfd.NoDirections] at h; exact h.2.elim
  | .frame _ _ _ _, _, _ => by rw [Mfd.withGd, Mfd.NoEmptyCompound, Mfd.NoDirections]; exact ⟨trivial, trivial⟩
  | .empty, _, h => by rw [Mfd.withGd]; exact h
  | .compound ms, off, h => by
    rw [Mfd.NoEmptyCompound, Mfd.NoDirections] at h
    rw [Mfd.withGd, Mfd.NoEmptyCompound, Mfd.NoDirections]
    obtain ⟨a, b⟩ := Mfd.noEmpty_withGdAll x ms off ⟨h.1.2, h.2⟩
    refine ⟨⟨?_, a⟩, b⟩
    cases ms with
    | nil => exact absurd rfl h.1.1
    | cons m ms => rw [Mfd.withGdAll]; exact List.cons_ne_nil _ _
theorem Mfd.noEmpty_withGdAll (x : Row) : (ms : List (Mfd d)) → (off : Nat) → (Mfd.AllNoEmptyCompound ms ∧ Mfd.AllNoDirections ms) →
    (Mfd.AllNoEmptyCompound (Mfd.withGdAll x off ms) ∧ Mfd.AllNoDirections (Mfd.withGdAll x off ms))
  | [], _, h => by rw [Mfd.withGdAll]; exact h
  | m :: ms, off, h => by
    rw [Mfd.AllNoEmptyCompound, Mfd.AllNoDirections] at h
    rw [Mfd.withGdAll, Mfd.AllNoEmptyCompound, Mfd.AllNoDirections]
    obtain ⟨a, b⟩ := Mfd.noEmpty_withGd x m off ⟨h.1.1, h.2.1⟩
    obtain ⟨a', b'⟩ := Mfd.noEmpty_withGdAll x ms (off + m.size) ⟨h.1.2, h.2.2⟩
    exact ⟨⟨a, a'⟩, b, b'⟩
end

mutual
theorem regular_withGd (x : Row) : (m : DefModule d) → (off : Nat) → m.Regular → (m.withGd x off).Regular
  | .translations _, _, h => by rw [DefModule.Regular] at h; exact h.elim
  | .implicit0 _, _, h => by rw [DefModule.Regular] at h; rw [DefModule.withGd, DefModule.Regular]; exact h
  | .oriented _, _, h => by rw [DefModule.Regular] at h; exact h.elim
  | .constrained _, _, h => by rw [DefModule.Regular] at h; exact h.elim
  | .globalTranslation _, _, h => by rw [DefModule.Regular] at h; rw [DefModule.withGd, DefModule.Regular]; exact h
  | .linear _, _, h => by rw [DefModule.Regular] at h; rw [DefModule.withGd, DefModule.Regular]; exact h
  | .implicit1 _, _, h => by rw [DefModule.Regular] at h; exact h.elim
  | .divFree _, _, h => by rw [DefModule.Regular] at h; rw [DefModule.withGd, DefModule.Regular]; exact h
  | .arap _, _, h => by rw [DefModule.Regular] at h; rw [DefModule.withGd, DefModule.Regular]; exact h
  | .silent _, off, h => by
    rw [DefModule.Regular] at h; rw [DefModule.withGd, DefModule.Regular]; exact Mfd.noEmpty_withGd x _ off h
  | .compound ms, off, h => by
    rw [DefModule.Regular] at h; rw [DefModule.withGd, DefModule.Regular]
    refine ⟨?_, regular_withGdAll x ms off h.2⟩
    cases ms with
    | nil => exact absurd rfl h.1
    | cons m ms => rw [DefModule.withGdAll]; exact List.cons_ne_nil _ _
theorem regular_withGdAll (x : Row) : (ms : List (DefModule d)) → (off : Nat) → DefModule.AllRegular ms →
    DefModule.AllRegular (DefModule.withGdAll x off ms)
  | [], _, h => by rw [DefModule.withGdAll]; exact h
  | m :: ms, off, h => by
    rw [DefModule.AllRegular] at h
    rw [DefModule.withGdAll, DefModule.AllRegular]
    exact ⟨regular_withGd x m off h.1, regular_withGdAll x ms _ h.2⟩
end

mutual
theorem Mfd.noEmpty_withCot (x : Row) : (m : Mfd d) → (off : Nat) → (m.NoEmptyCompound ∧ m.NoDirections) →
    ((m.withCot x off).NoEmptyCompound ∧ (m.withCot x off).NoDirections)
  | .landmarks _ _, _, _ => by rw [Mfd.withCot, Mfd.NoEmptyCompound, Mfd.NoDirections]; exact ⟨trivial, trivial⟩
  | .direction _ _ _ _ _, _, h => by rw [Mfd.NoDirections] at h; exact h.2.elim
  | .frame _ _ _ _, _, _ => by rw [Mfd.withCot, Mfd.NoEmptyCompound, Mfd.NoDirections]; exact ⟨trivial, trivial⟩
  | .empty, _, h => by rw [Mfd.withCot]; exact h
  | .compound ms, off, h => by
    rw [Mfd.NoEmptyCompound, Mfd.NoDirections] at h
    rw [Mfd.withCot, Mfd.NoEmptyCompound, Mfd.NoDirections]
    obtain ⟨a, b⟩ := Mfd.noEmpty_withCotAll x ms off ⟨h.1.2, h.2⟩
    refine ⟨⟨?_, a⟩, b⟩
    cases ms with
    | nil => exact absurd rfl h.1.1
    | cons m ms => rw [Mfd.withCotAll]; exact List.cons_ne_nil _ _
theorem Mfd.noEmpty_withCotAll (x : Row) : (ms : List (Mfd d)) → (off : Nat) → (Mfd.AllNoEmptyCompound ms ∧ Mfd.AllNoDirections ms) →
    (Mfd.AllNoEmptyCompound (Mfd.withCotAll x off ms) ∧ Mfd.AllNoDirections (Mfd.withCotAll x off ms))
  | [], _, h => by rw [Mfd.withCotAll]; exact h
  | m :: ms, off, h => by
    rw [Mfd.AllNoEmptyCompound, Mfd.AllNoDirections] at h
    rw [Mfd.withCotAll, Mfd.AllNoEmptyCompound, Mfd.AllNoDirections]
    obtain ⟨a, b⟩ := Mfd.noEmpty_withCot x m off ⟨h.1.1, h.2.1⟩
    obtain ⟨a', b'⟩ := Mfd.noEmpty_withCotAll x ms (off + m.size) ⟨h.1.2, h.2.2⟩
    exact ⟨⟨a, a'⟩, b, b'⟩
end

mutual
theorem regular_withCot (x : Row) : (m : DefModule d) → (off : Nat) → m.Regular → (m.withCot x off).Regular
  | .translations _, _, h => by rw [DefModule.Regular] at h; exact h.elim
  | .implicit0 _, _, h => by rw [DefModule.Regular] at h; rw [DefModule.withCot, DefModule.Regular]; exact h
  | .oriented _, _, h => by rw [DefModule.Regular] at h; exact h.elim
  | .constrained _, _, h => by rw [DefModule.Regular] at h; exact h.elim
  | .globalTranslation _, _, h => by rw [DefModule.Regular] at h; rw [DefModule.withCot, DefModule.Regular]; exact h
  | .linear _, _, h => by rw [DefModule.Regular] at h; rw [DefModule.withCot, DefModule.Regular]; exact h
  | .implicit1 _, _, h => by rw [DefModule.Regular] at h; exact h.elim
  | .divFree _, _, h => by rw [DefModule.Regular] at h; rw [DefModule.withCot, DefModule.Regular]; exact h
  | .arap _, _, h => by rw [DefModule.Regular] at h; rw [DefModule.withCot, DefModule.Regular]; exact h
  | .silent _, off, h => by
    rw [DefModule.Regular] at h; rw [DefModule.withCot, DefModule.Regular]; exact Mfd.noEmpty_withCot x _ off h
  | .compound ms, off, h => by
    rw [DefModule.Regular] at h; rw [DefModule.withCot, DefModule.Regular]
    refine ⟨?_, regular_withCotAll x ms off h.2⟩
    cases ms with
    | nil => exact absurd rfl h.1
    | cons m ms => rw [DefModule.withCotAll]; exact List.cons_ne_nil _ _
theorem regular_withCotAll (x : Row) : (ms : List (DefModule d)) → (off : Nat) → DefModule.AllRegular ms →
    DefModule.AllRegular (DefModule.withCotAll x off ms)
  | [], _, h => by rw [DefModule.withCotAll]; exact h
  | m :: ms, off, h => by
    rw [DefModule.AllRegular] at h
    rw [DefModule.withCotAll, DefModule.AllRegular]
    exact ⟨regular_withCot x m off h.1, regular_withCotAll x ms _ h.2⟩
end

theorem regular_rowsMod {m : DefModule d} (h : m.Regular) (x : Row × Row) : (rowsMod m x).Regular :=
  regular_withCot _ _ _ (regular_withGd _ _ _ h)

/-- The Hamiltonian and its controls can be evaluated at every state. -/
theorem regular_evalAt {m : DefModule d} (h : m.Regular) (x : Row × Row) : ∃ m', evalAt m x = .ok m' := by
  have hr := regular_rowsMod h x
  obtain ⟨a, b⟩ := regular_manifold _ hr
  obtain ⟨m', hm⟩ := regular_geodesic a b _ hr
  obtain ⟨H, f, h1, -⟩ := C18_hamiltonian_is_cost _ _ _ (regular_nonneg _ hr) hm
  refine ⟨m', ?_⟩
  unfold evalAt Hamiltonian.geodesicControls
  rw [hm]
  dsimp only
  unfold Hamiltonian.value
  rw [geodesic_manifold hm, h1]

end
end Imodal
