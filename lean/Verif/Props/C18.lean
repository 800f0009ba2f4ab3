import Verif.Props.C17
/-!
# C18: at geodesic controls the Hamiltonian equals the cost
-/
set_option autoImplicit false
namespace Imodal
noncomputable section
open Matrix
variable {d : Nat}

/-- With geodesic controls, field, pairing and cost are available, the Hamiltonian is the cost,
the pairing is twice the cost, and the value is not negative. -/
theorem C18_hamiltonian_is_cost (man : Mfd d) (m m' : DefModule d) (hw : m.NonnegWeights)
    (hg : m.geodesic man = .ok m') :
    ∃ H f, hamiltonianOn man m' = .ok H ∧ m'.cost = .ok H ∧ m'.field = .ok f ∧
      man.innerProd f = .ok (2 * H) ∧ 0 ≤ H := by
  obtain ⟨q⟩ := quad_exists man m hw
  letI := q.inst
  obtain ⟨h, hh, hs⟩ := q.geo m' hg
  have hH := hamiltonianOn_has hh
  obtain ⟨f, hf, a0, a1, hp, hc⟩ := hh
  have hp' := q.psd h
  rw [hs] at hc hH hp'
  obtain ⟨a, ha⟩ := innerProd_avail a0 a1 man
  refine ⟨1 / 2 * (h ⬝ᵥ q.s), f, ?_, hc, hf, ?_, by linarith⟩
  · rw [hH]; congr 1; ring
  · rw [ha, innerProd_ok man ha, hp]; congr 1; ring

/-- `Hamiltonian.__call__` right after `geodesic_controls`. -/
theorem C18_hamiltonian_call (ms : List (DefModule d)) (m' : DefModule d)
    (hw : (mkHamiltonian ms).NonnegWeights) (hg : Hamiltonian.geodesicControls (mkHamiltonian ms) = .ok m') :
    ∃ H, Hamiltonian.value m' = .ok H ∧ m'.cost = .ok H ∧ 0 ≤ H := by
  obtain ⟨H, f, h1, h2, -, -, h5⟩ := C18_hamiltonian_is_cost _ _ _ hw hg
  refine ⟨H, ?_, h2, h5⟩
  unfold Hamiltonian.value
  rw [geodesic_manifold hg]; exact h1

example : ∃ m' : DefModule 2, (DefModule.compound [.globalTranslation ⟨2, 0⟩]).geodesic (.landmarks ![0, 1] ![1, 1]) = .ok m' ∧
    (DefModule.compound [.globalTranslation (⟨2, 0⟩ : GlobalTranslation 2)]).NonnegWeights := by
  have h : ∀ i, ∃ a, (⟨2, 0⟩ : GlobalTranslation 2).entry (.landmarks ![0, 1] ![1, 1]) i = .ok a := by
    intro i
    obtain ⟨a, ha⟩ := innerProd_avail (avail_const 0 fun c => if c = i then (1 : ℝ) else 0)
      (avail_const 1 fun c => if c = i then (1 : ℝ) else 0) (.landmarks ![0, 1] ![1, 1] : Mfd 2)
    unfold GlobalTranslation.entry
    rw [ha]
    exact ⟨_, tdiv_of_ne (by norm_num)⟩
  obtain ⟨a, ha⟩ := h 0
  obtain ⟨b, hb⟩ := h 1
  refine ⟨.compound [.globalTranslation ⟨2, Fin.cons a (Fin.cons b fun i => i.elim0)⟩], ?_,
    by simp [DefModule.NonnegWeights, DefModule.AllNonnegWeights]⟩
  rw [DefModule.geodesic, DefModule.geodesics, DefModule.geodesic, DefModule.geodesics]
  unfold GlobalTranslation.geodesic
  simp only [collect, ha]
  have hb' : (⟨2, 0⟩ : GlobalTranslation 2).entry (.landmarks ![0, 1] ![1, 1]) (Fin.succ 0) = .ok b := hb
  simp only [hb', wrap]

end
end Imodal
