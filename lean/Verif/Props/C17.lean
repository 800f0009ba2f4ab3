import Verif.Props.C20
/-!
# C17: geodesic controls maximise the Hamiltonian
-/
set_option autoImplicit false
namespace Imodal
noncomputable section
open Matrix
variable {d : Nat}

/-- After `compute_geodesic_control(man)` the Hamiltonian (pairing of the momentum of `man` with
the field, minus the cost) is at least its value for any other controls. -/
theorem C17_geodesic_controls_maximise (man : Mfd d) (m m' : DefModule d) (hw : m.NonnegWeights)
    (hg : m.geodesic man = .ok m') :
    ∃ H, hamiltonianOn man m' = .ok H ∧
      ∀ c mc, m.fillControls c = .ok mc → ∃ Hc, hamiltonianOn man mc = .ok Hc ∧ Hc ≤ H := by
  obtain ⟨q⟩ := quad_exists man m hw
  letI := q.inst
  obtain ⟨h, hh, hs⟩ := q.geo m' hg
  refine ⟨_, hamiltonianOn_has hh, fun c mc hc => ⟨_, hamiltonianOn_has (q.fill c mc hc), ?_⟩⟩
  exact quad_max q.Q q.symm q.psd hs (q.enc c)

/-- Geodesic controls are themselves a choice of controls: `compute_geodesic_control` leaves the
module that `fill_controls` with these values would leave. -/
theorem C17_geodesic_controls_are_controls (man : Mfd d) (m m' : DefModule d) (hg : m.geodesic man = .ok m') :
    m.fillControls m'.controls = .ok m' := geodesic_fill man m hg

/-- The same for `Hamiltonian(modules)`: the module's own manifold carries the momentum. -/
theorem C17_hamiltonian_geodesic (ms : List (DefModule d)) (m' : DefModule d)
    (hw : (mkHamiltonian ms).NonnegWeights) (hg : Hamiltonian.geodesicControls (mkHamiltonian ms) = .ok m') :
    ∃ H, hamiltonianOn (mkHamiltonian ms).manifold m' = .ok H ∧
      ∀ c mc, (mkHamiltonian ms).fillControls c = .ok mc →
        ∃ Hc, hamiltonianOn (mkHamiltonian ms).manifold mc = .ok Hc ∧ Hc ≤ H :=
  C17_geodesic_controls_maximise _ _ _ hw hg

/-! Two translations of points with momentum; the maximum is attained and is not zero. -/

example : ∃ m' : DefModule 2, (DefModule.translations ⟨.torch, ![0, 1], 0, 1, 0⟩).geodesic (.landmarks ![0, 1] ![1, 1]) = .ok m'
    ∧ (DefModule.translations (⟨.torch, ![0, 1], 0, 1, 0⟩ : Translations 2 2)).NonnegWeights := by
  obtain ⟨m', h⟩ := C20_translations (⟨.torch, ![0, 1], 0, 1, 0⟩ : Translations 2 2) (by norm_num)
    (by intro i j h; fin_cases i <;> fin_cases j <;> simp_all) (.landmarks ![0, 1] ![1, 1]) (by simp [Mfd.NoEmptyCompound])
  refine ⟨.translations m', ?_, by simp [DefModule.NonnegWeights]⟩
  rw [DefModule.geodesic, h]; rfl

/-- A linear deformation: geodesic control 2, Hamiltonian 2. -/
example : (DefModule.linear (⟨1, 0, 0, 1, 0⟩ : Linear 1)).geodesic (.landmarks ![fun _ => 1] ![fun _ => 2])
    = .ok (.linear ⟨1, 0, 0, 1, 2⟩) := by
  rw [DefModule.geodesic]
  unfold Linear.geodesic
  have h : Mfd.innerProd (.affine 1 0 0) (.landmarks ![fun _ => 1] ![fun _ => 2] : Mfd 1) = .ok 2 := by
    obtain ⟨a, ha⟩ := innerProd_avail (avail_affine 0 1 0 0) (avail_affine 1 1 0 0)
      (.landmarks ![fun _ => 1] ![fun _ => 2] : Mfd 1)
    rw [ha, innerProd_ok _ ha]
    simp [momAtoms, pair_cons, pair_nil, atom0_pair, fieldVal_affine]
  dsimp only
  rw [h]
  simp [tdiv_of_ne, wrap]

end
end Imodal
