import Verif.Lemmas.HamFlow
/-!
# C79: the Hamiltonian is smooth
-/
set_option autoImplicit false
namespace Imodal
noncomputable section
open Filter Topology Set
variable {d : Nat}

/-- **C79, existence nearby.** Where geodesic controls exist, they exist at all states close by. -/
theorem C79_nearby {m : DefModule d} {n : WithTop ℕ∞} (hm : m.Smooth n) {q p : Row}
    (hok : ∃ m', Hamiltonian.geodesicControls (rowsMod m (q, p)) = .ok m') :
    ∃ ε > 0, ∀ q' p' : Row, (∀ j < numCoords m, |q' j - q j| < ε ∧ |p' j - p j| < ε) →
      ∃ m', Hamiltonian.geodesicControls (rowsMod m (q', p')) = .ok m' := by
  obtain ⟨h1, -⟩ := hamV_contDiffAt hm hok
  obtain ⟨ε, hε, hball⟩ := Metric.eventually_nhds_iff.1 h1
  refine ⟨ε, hε, fun q' p' h => ?_⟩
  have hd : dist (entries (numCoords m) (q', p')) (entries (numCoords m) (q, p)) < ε := by
    rw [Prod.dist_eq, max_lt_iff, dist_pi_lt_iff hε, dist_pi_lt_iff hε]
    exact ⟨fun j => (h j j.2).1, fun j => (h j j.2).2⟩
  obtain ⟨m', hm'⟩ := hball hd
  obtain ⟨m'', h2⟩ := evalAt_geodesic hm'
  have := rowsMod_entries m (q', p')
  unfold finRows at this
  rw [this] at h2
  exact ⟨m'', h2⟩

/-- **C79, smoothness.** There the value of the Hamiltonian with geodesic controls depends smoothly on descriptors and momenta, to the
order to which the parameters of the modules are smooth. -/
theorem C79_smooth {m : DefModule d} {n : WithTop ℕ∞} (hm : m.Smooth n) {q p : Row}
    (hok : ∃ m', Hamiltonian.geodesicControls (rowsMod m (q, p)) = .ok m') :
    ContDiffAt ℝ n (fun v : (Fin (numCoords m) → ℝ) × (Fin (numCoords m) → ℝ) => ham m (extRow v.1) (extRow v.2))
      (fun j => q j, fun j => p j) :=
  (hamV_contDiffAt hm hok).2

/-- **C79, gradient.** The derivatives with respect to the single entries, which shooting asks for, determine the derivative in every
direction: along every differentiable curve of states the Hamiltonian changes at the rate they give. -/
theorem C79_gradient {m : DefModule d} (hm : m.Smooth 1) {q p : ℝ → Row} {t : ℝ} {a b : Row}
    (hok : ∃ m', Hamiltonian.geodesicControls (rowsMod m (q t, p t)) = .ok m')
    (hq : ∀ j < numCoords m, HasDerivAt (fun s => q s j) (a j) t) (hp : ∀ j < numCoords m, HasDerivAt (fun s => p s j) (b j) t) :
    HasDerivAt (fun s => ham m (q s) (p s))
      (∑ j : Fin (numCoords m), (a j * (gradH Hamiltonian.geodesicControls (rowsMod m (q t, p t))).1 j
        + b j * (gradH Hamiltonian.geodesicControls (rowsMod m (q t, p t))).2 j)) t := by
  have h := ham_curve (ham_reads m) ((hamV_contDiffAt hm hok).2.differentiableAt one_ne_zero) (fun _ _ => rfl) (fun _ _ => rfl) hq hp
  have e : ∀ j : Fin (numCoords m), (gradH Hamiltonian.geodesicControls (rowsMod m (q t, p t))).1 j = partialQ (ham m) (q t) (p t) j ∧
      (gradH Hamiltonian.geodesicControls (rowsMod m (q t, p t))).2 j = partialP (ham m) (q t) (p t) j := fun j => by
    rw [gradH_rows geodesic_resetFree]
    exact ⟨cut_of_lt j.2, cut_of_lt j.2⟩
  simp only [e]
  exact h

/-- The modules of the library with positive regularisation have geodesic controls everywhere and are smooth. -/
theorem C79_regular {m : DefModule d} (hm : m.Regular) (n : WithTop ℕ∞) :
    (∀ q p : Row, ∃ m', Hamiltonian.geodesicControls (rowsMod m (q, p)) = .ok m') ∧
      ContDiff ℝ n (fun v : (Fin (numCoords m) → ℝ) × (Fin (numCoords m) → ℝ) => ham m (extRow v.1) (extRow v.2)) := by
  have h : ∀ q p : Row, ∃ m', Hamiltonian.geodesicControls (rowsMod m (q, p)) = .ok m' := fun q p => by
    obtain ⟨m', h⟩ := regular_evalAt hm (q, p)
    exact evalAt_geodesic h
  refine ⟨h, contDiff_iff_contDiffAt.2 fun v => ?_⟩
  have := (hamV_contDiffAt (x := finRows v) (hm.smooth n) (h _ _)).2
  rwa [entries_finRows] at this

example {k l : Nat} (D : Implicit0 2 l) (hν : 0 < D.ν) (hc : 0 < D.coeff) (x p : Fin k → Vec 2) :
    (DefModule.compound [.implicit0 D, .silent (.landmarks x p)]).Regular := by
  simp [DefModule.Regular, DefModule.AllRegular, Mfd.NoEmptyCompound, Mfd.NoDirections, hν, hc]

end
end Imodal
