import Verif.Lemmas.Solvable
/-! Geodesic controls exist when the matrices of the linear systems are positive definite. -/
set_option autoImplicit false
namespace Imodal
noncomputable section
open Matrix
variable {d : Nat}

theorem Implicit0.geodesic_of_det {n : Nat} (m : Implicit0 d n) (hd : (Matrix.of (kXX m.σ m.gd) + m.ν • (1 : Matrix (Fin n) (Fin n) ℝ)).det ≠ 0) (hc : m.coeff ≠ 0)
    (man : Mfd d) (hm : man.NoEmptyCompound) : ∃ m', m.geodesic man = .ok m' := by
  obtain ⟨vs, hv, h0⟩ := cotToVs_full m.σ m.r man hm
  unfold Implicit0.geodesic
  rw [hv]
  dsimp only
  rw [h0.values]
  dsimp only
  cases hr : m.r
  · dsimp only
    unfold linSolveCols; rw [if_neg hd, tdiv_of_ne hc]; exact ⟨_, rfl⟩
  · dsimp only
    have e : (Matrix.of fun i j => keopsGauss0 m.σ (m.gd i) (m.gd j)) = Matrix.of (kXX m.σ m.gd) := by
      funext i j; rw [Matrix.of_apply, Matrix.of_apply, keopsGauss0_eq, kXX_eq]
    rw [e]
    unfold keopsSolveCols; rw [if_neg hd, tdiv_of_ne hc]; exact ⟨_, rfl⟩

theorem Implicit1.geodesic_of_pos {n p : Nat} (m : Implicit1 d n p) (hpos : ∀ l, l ≠ 0 → 0 < l ⬝ᵥ m.sks *ᵥ l) (hc : m.coeff ≠ 0)
    (hinj : ∀ h : Fin p → ℝ, m.aqh h = 0 → h = 0) (man : Mfd d) (hm : man.NoEmptyCompound) (hd : man.NoDirections) :
    ∃ m', m.geodesic man = .ok m' := by
  obtain ⟨vs, hv, h0⟩ := cotToVs_full m.σ m.r man hm
  have h1 := cotToVs_jac man hd hv
  have hdet := det_ne_zero_of_pos hpos
  have hQ : (m.Aᵀ * m.sks⁻¹ * m.A).det ≠ 0 := by
    refine det_ne_zero_of_pos fun l hl => ?_
    rw [schur_quad]
    refine inv_pos' m.sks_symm hpos _ fun e => hl (hinj l ?_)
    rw [m.aqh_eq]; exact e
  unfold Implicit1.geodesic
  rw [hv]
  dsimp only
  rw [h1.jacobians]
  dsimp only
  rw [Implicit1.solve_of_det hdet]
  dsimp only
  rw [tdiv_of_ne hc]
  dsimp only
  rw [Implicit1.aqkiaq_of_det hdet]
  dsimp only
  rw [linSolve_of_det hQ]
  dsimp only
  rw [Implicit1.fill_of_det hdet]
  dsimp only
  cases m.r
  · exact ⟨_, Implicit1.computeMoments_of_det (m := m.done _) hdet⟩
  · exact ⟨_, rfl⟩

theorem DivFree.geodesic_of_pos {N P : Nat} (m : DivFree d N P) (hpos : ∀ l, l ≠ 0 → 0 < l ⬝ᵥ m.SKS *ᵥ l) :
    (∀ h, ∃ m', m.fill h = .ok m' ∧ m'.ctrl = h) ∧
    (m.coeff ≠ 0 → ∀ man : Mfd d, man.NoEmptyCompound → man.NoDirections → ∃ m', m.geodesic man = .ok m') := by
  have hdet := det_ne_zero_of_pos hpos
  refine ⟨fun h => ⟨_, DivFree.fill_of_det hdet h, rfl⟩, fun hc man hm hd => ?_⟩
  obtain ⟨vs, hv, h0⟩ := cotToVs_full m.σ .torch man hm
  have h1 := cotToVs_jac man hd hv
  unfold DivFree.geodesic
  rw [hv]
  dsimp only
  rw [h1.jacobians, h0.values]
  dsimp only
  rw [linSolve_of_det (block11_det hpos)]
  dsimp only
  rw [if_neg hc, DivFree.fill_of_det hdet]
  exact ⟨_, DivFree.computeMoments_of_det (m := m.done _) hdet⟩

theorem Arap.geodesic_of_pos {N P : Nat} (m : Arap d N P) (hpos : ∀ l, l ≠ 0 → 0 < l ⬝ᵥ m.SKS *ᵥ l) :
    (∀ h, ∃ m', m.fill h = .ok m' ∧ m'.ctrl = h) ∧
    (m.coeff ≠ 0 → ∀ man : Mfd d, man.NoEmptyCompound → man.NoDirections → ∃ m', m.geodesic man = .ok m') := by
  have hdet := det_ne_zero_of_pos hpos
  refine ⟨fun h => ⟨_, Arap.fill_of_det hdet h, rfl⟩, fun hc man hm hd => ?_⟩
  obtain ⟨vs, hv, h0⟩ := cotToVs_full m.σ .torch man hm
  have h1 := cotToVs_jac man hd hv
  unfold Arap.geodesic
  rw [hv]
  dsimp only
  rw [h1.jacobians, h0.values]
  dsimp only
  rw [linSolve_of_det (block11_det hpos)]
  dsimp only
  rw [if_neg hc, Arap.fill_of_det hdet]
  exact ⟨_, Arap.computeMoments_of_det (m := m.done _) hdet⟩

end
end Imodal
