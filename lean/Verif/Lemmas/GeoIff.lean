import Verif.Props.C20
import Verif.Lemmas.Mono
/-!
# When geodesic controls exist: determinants
-/
set_option autoImplicit false
namespace Imodal
noncomputable section
open Matrix
variable {d : Nat}

theorem keopsGauss_of {n : Nat} (σ : ℝ) (x : Fin n → Vec d) : (Matrix.of fun i j => keopsGauss σ (x i) (x j)) = Matrix.of (kXX σ x) := by
  funext i j; rw [Matrix.of_apply, Matrix.of_apply, keopsGauss_eq, kXX_eq]
theorem keopsGauss0_of {n : Nat} (σ : ℝ) (x : Fin n → Vec d) : (Matrix.of fun i j => keopsGauss0 σ (x i) (x j)) = Matrix.of (kXX σ x) := by
  funext i j; rw [Matrix.of_apply, Matrix.of_apply, keopsGauss0_eq, kXX_eq]
theorem gramMat_dir_of {n : Nat} (σ : ℝ) (x u : Fin n → Vec d) :
    gramMat σ (dirAtom x u) = Matrix.of fun i j => kXX σ x i j * ∑ c, u i c * u j c := by
  funext i j; exact gramMat_dir σ x u i j

theorem Translations.det_of_ok {n : Nat} {m m' : Translations d n} {man : Mfd d} (h : m.geodesic man = .ok m') : (Matrix.of (kXX m.σ m.gd)).det ≠ 0 := by
  unfold Translations.geodesic at h
  split at h
  · cases h
  · split at h
    · cases h
    · split at h
      · cases h
      · rename_i h3
        split at h3
        · exact (linSolveCols_ok h3).1
        · have := (keopsSolveCols_ok h3).1
          rwa [keopsGauss_of] at this

theorem Translations.ok_of_det {n : Nat} (m : Translations d n) (hd : (Matrix.of (kXX m.σ m.gd)).det ≠ 0) (man : Mfd d) (hm : man.NoEmptyCompound) :
    ∃ m', m.geodesic man = .ok m' := by
  obtain ⟨vs, hv, h0⟩ := cotToVs_full m.σ m.r man hm
  unfold Translations.geodesic
  rw [hv]
  dsimp only
  rw [h0.values]
  dsimp only
  cases hr : m.r
  · dsimp only
    unfold linSolveCols; rw [if_neg hd]; exact ⟨_, rfl⟩
  · dsimp only
    rw [keopsGauss_of]
    unfold keopsSolveCols; rw [if_neg hd]; exact ⟨_, rfl⟩

theorem Implicit0.det_of_ok {n : Nat} {m m' : Implicit0 d n} {man : Mfd d} (h : m.geodesic man = .ok m') :
    (Matrix.of (kXX m.σ m.gd) + m.ν • (1 : Matrix (Fin n) (Fin n) ℝ)).det ≠ 0 ∧ m.coeff ≠ 0 := by
  unfold Implicit0.geodesic at h
  split at h
  · cases h
  · split at h
    · cases h
    · split at h
      · cases h
      · rename_i h3
        split at h
        · cases h
        · rename_i h4
          refine ⟨?_, (tdiv_ok h4).1⟩
          split at h3
          · exact (linSolveCols_ok h3).1
          · have := (keopsSolveCols_ok h3).1
            rwa [keopsGauss0_of] at this

theorem Implicit0.ok_of_det {n : Nat} (m : Implicit0 d n) (hd : (Matrix.of (kXX m.σ m.gd) + m.ν • (1 : Matrix (Fin n) (Fin n) ℝ)).det ≠ 0)
    (hc : m.coeff ≠ 0) (man : Mfd d) (hm : man.NoEmptyCompound) : ∃ m', m.geodesic man = .ok m' := by
  obtain ⟨vs, hv, h0⟩ := cotToVs_full m.σ m.r man hm
  unfold Implicit0.geodesic
  rw [hv]
  dsimp only
  rw [h0.values]
  dsimp only
  cases hr : m.r
  · dsimp only
    unfold linSolveCols; rw [if_neg hd, tdiv_of_ne hc]; exact ⟨_, rfl⟩
  · dsimp only
    rw [keopsGauss0_of]
    unfold keopsSolveCols; rw [if_neg hd, tdiv_of_ne hc]; exact ⟨_, rfl⟩

theorem Oriented.det_of_ok {n : Nat} {m m' : Oriented d n} {man : Mfd d} (h : m.geodesic man = .ok m') :
    (gramMat m.σ (dirAtom m.gd m.dir)).det ≠ 0 ∧ m.coeff ≠ 0 := by
  unfold Oriented.geodesic at h
  split at h
  · cases h
  · split at h
    · cases h
    · split at h
      · cases h
      · rename_i h3
        split at h
        · cases h
        · rename_i h4
          rw [gramMat_dir_of]
          exact ⟨(linSolve_ok h3).1, (tdiv_ok h4).1⟩

theorem Oriented.ok_of_det {n : Nat} (m : Oriented d n) (hd : (gramMat m.σ (dirAtom m.gd m.dir)).det ≠ 0) (hc : m.coeff ≠ 0)
    (man : Mfd d) (hm : man.NoEmptyCompound) : ∃ m', m.geodesic man = .ok m' := by
  obtain ⟨vs, hv, h0⟩ := cotToVs_full m.σ .torch man hm
  unfold Oriented.geodesic
  rw [hv]
  dsimp only
  rw [h0.values]
  dsimp only
  rw [gramMat_dir_of] at hd
  rw [linSolve_of_det hd, tdiv_of_ne hc]
  exact ⟨_, rfl⟩

theorem Constrained.ne_of_ok {n p : Nat} {m m' : Constrained d n p} {man : Mfd d} (h : m.geodesic man = .ok m') : m.coeff * m.energy ≠ 0 := by
  unfold Constrained.geodesic at h
  split at h
  · cases h
  · split at h
    · cases h
    · rename_i h4; exact (tdiv_ok h4).1

theorem Constrained.ok_of_ne {n p : Nat} (m : Constrained d n p) (h : m.coeff * m.energy ≠ 0) (man : Mfd d) : ∃ m', m.geodesic man = .ok m' := by
  obtain ⟨a, ha⟩ := innerProd_avail (isRep_f0 .torch (m.fsupp m.gd) (m.fvec m.gd) m.σ).avail (avail_f0_one ..) man
  rw [Constrained.geodesic, ha]
  dsimp only
  rw [tdiv_of_ne h]
  exact ⟨_, rfl⟩

theorem GlobalTranslation.ne_of_ok {m m' : GlobalTranslation d} {man : Mfd d} (h : m.geodesic man = .ok m') (_ : Fin d) : m.coeff ≠ 0 := by
  rename_i i
  unfold GlobalTranslation.geodesic at h
  split at h
  · cases h
  · rename_i c h1
    have hi := collect_ok h1 i
    unfold GlobalTranslation.entry at hi
    split at hi
    · cases hi
    · exact (tdiv_ok hi).1

theorem GlobalTranslation.ok_of_ne (m : GlobalTranslation d) (h : Fin d → m.coeff ≠ 0) (man : Mfd d) : ∃ m', m.geodesic man = .ok m' := by
  have total : ∀ {n : Nat} {f : Fin n → Py ℝ}, (∀ i, ∃ a, f i = .ok a) → ∃ g, collect f = .ok g := by
    intro n
    induction n with
    | zero => intro f _; exact ⟨_, rfl⟩
    | succ n ih =>
      intro f h
      obtain ⟨a, ha⟩ := h 0
      obtain ⟨g, hg⟩ := ih (f := fun i => f i.succ) fun i => h i.succ
      rw [collect, ha]
      dsimp only
      rw [hg]
      exact ⟨_, rfl⟩
  have : ∀ i, ∃ a, m.entry man i = .ok a := fun i => by
    obtain ⟨a, ha⟩ := innerProd_avail (avail_const 0 fun c => if c = i then (1 : ℝ) else 0)
      (avail_const 1 fun c => if c = i then (1 : ℝ) else 0) man
    unfold GlobalTranslation.entry
    rw [ha]
    exact ⟨_, tdiv_of_ne (h i)⟩
  obtain ⟨g, hg⟩ := total this
  rw [GlobalTranslation.geodesic, hg]
  exact ⟨_, rfl⟩

theorem Linear.ne_of_ok {m m' : Linear d} {man : Mfd d} (h : m.geodesic man = .ok m') : m.coeff ≠ 0 := by
  unfold Linear.geodesic at h
  split at h
  · cases h
  · split at h
    · cases h
    · rename_i h4; exact (tdiv_ok h4).1

theorem Linear.ok_of_ne (m : Linear d) (h : m.coeff ≠ 0) (man : Mfd d) : ∃ m', m.geodesic man = .ok m' := by
  obtain ⟨a, ha⟩ := innerProd_avail (avail_affine 0 m.A m.gd 0) (avail_affine 1 m.A m.gd 0) man
  rw [Linear.geodesic, ha]
  dsimp only
  rw [tdiv_of_ne h]
  exact ⟨_, rfl⟩

theorem Implicit1.det_of_ok {n p : Nat} {m m' : Implicit1 d n p} {man : Mfd d} (h : m.geodesic man = .ok m') :
    m.sks.det ≠ 0 ∧ (m.Aᵀ * m.sks⁻¹ * m.A).det ≠ 0 ∧ m.coeff ≠ 0 := by
  have hd := (Implicit1.geo man h).choose_spec.2.2
  unfold Implicit1.geodesic at h
  rw [Implicit1.aqkiaq_of_det hd] at h
  split at h
  · cases h
  · split at h
    · cases h
    · split at h
      · cases h
      · split at h
        · cases h
        · rename_i h4
          split at h
          · cases h
          · rename_i h5
            cases h5
            split at h
            · cases h
            · rename_i h6
              exact ⟨hd, (linSolve_ok h6).1, (tdiv_ok h4).1⟩

theorem Implicit1.ok_of_det {n p : Nat} (m : Implicit1 d n p) (hdet : m.sks.det ≠ 0) (hQ : (m.Aᵀ * m.sks⁻¹ * m.A).det ≠ 0) (hc : m.coeff ≠ 0)
    (man : Mfd d) (hm : man.NoEmptyCompound) (hd : man.NoDirections) : ∃ m', m.geodesic man = .ok m' := by
  obtain ⟨vs, hv, h0⟩ := cotToVs_full m.σ m.r man hm
  have h1 := cotToVs_jac man hd hv
  unfold Implicit1.geodesic
  rw [hv]
  dsimp only
  rw [h1.jacobians]
  dsimp only
  rw [Implicit1.solve_of_det hdet]
  dsimp only
  rw [tdiv_of_ne hc]
  dsimp only
  rw [Implicit1.aqkiaq_of_det hdet]
  dsimp only
  rw [linSolve_of_det hQ]
  dsimp only
  rw [Implicit1.fill_of_det hdet]
  dsimp only
  cases m.r
  · exact ⟨_, Implicit1.computeMoments_of_det (m := m.done _) hdet⟩
  · exact ⟨_, rfl⟩

theorem DivFree.det_of_ok {N P : Nat} {m m' : DivFree d N P} {man : Mfd d} (h : m.geodesic man = .ok m') :
    m.SKS.det ≠ 0 ∧ m.SKS.toBlocks₁₁.det ≠ 0 ∧ m.coeff ≠ 0 := by
  have hd := (DivFree.geo man h).choose_spec.2.2
  unfold DivFree.geodesic at h
  split at h
  · cases h
  · split at h
    · cases h
    · split at h
      · cases h
      · split at h
        · cases h
        · rename_i h3
          split at h
          · cases h
          · rename_i hc; exact ⟨hd, (linSolve_ok h3).1, hc⟩

theorem DivFree.ok_of_det {N P : Nat} (m : DivFree d N P) (hdet : m.SKS.det ≠ 0) (h11 : m.SKS.toBlocks₁₁.det ≠ 0) (hc : m.coeff ≠ 0)
    (man : Mfd d) (hm : man.NoEmptyCompound) (hd : man.NoDirections) : ∃ m', m.geodesic man = .ok m' := by
  obtain ⟨vs, hv, h0⟩ := cotToVs_full m.σ .torch man hm
  have h1 := cotToVs_jac man hd hv
  unfold DivFree.geodesic
  rw [hv]
  dsimp only
  rw [h1.jacobians, h0.values]
  dsimp only
  rw [linSolve_of_det h11]
  dsimp only
  rw [if_neg hc, DivFree.fill_of_det hdet]
  exact ⟨_, DivFree.computeMoments_of_det (m := m.done _) hdet⟩

theorem Arap.det_of_ok {N P : Nat} {m m' : Arap d N P} {man : Mfd d} (h : m.geodesic man = .ok m') :
    m.SKS.det ≠ 0 ∧ m.SKS.toBlocks₁₁.det ≠ 0 ∧ m.coeff ≠ 0 := by
  have hd := (Arap.geo man h).choose_spec.2.2
  unfold Arap.geodesic at h
  split at h
  · cases h
  · split at h
    · cases h
    · split at h
      · cases h
      · split at h
        · cases h
        · rename_i h3
          split at h
          · cases h
          · rename_i hc; exact ⟨hd, (linSolve_ok h3).1, hc⟩

theorem Arap.ok_of_det {N P : Nat} (m : Arap d N P) (hdet : m.SKS.det ≠ 0) (h11 : m.SKS.toBlocks₁₁.det ≠ 0) (hc : m.coeff ≠ 0)
    (man : Mfd d) (hm : man.NoEmptyCompound) (hd : man.NoDirections) : ∃ m', m.geodesic man = .ok m' := by
  obtain ⟨vs, hv, h0⟩ := cotToVs_full m.σ .torch man hm
  have h1 := cotToVs_jac man hd hv
  unfold Arap.geodesic
  rw [hv]
  dsimp only
  rw [h1.jacobians, h0.values]
  dsimp only
  rw [linSolve_of_det h11]
  dsimp only
  rw [if_neg hc, Arap.fill_of_det hdet]
  exact ⟨_, Arap.computeMoments_of_det (m := m.done _) hdet⟩

/-- If the whole matrix and its first block are not singular then neither is the other block of the inverse. -/
theorem embed_det {κ ι : Type} [Fintype κ] [DecidableEq κ] [Fintype ι] [DecidableEq ι] {S : Matrix (κ ⊕ ι) (κ ⊕ ι) ℝ} (hS : S.det ≠ 0)
    (h11 : S.toBlocks₁₁.det ≠ 0) : ((embed : Matrix (κ ⊕ ι) ι ℝ)ᵀ * S⁻¹ * (embed : Matrix (κ ⊕ ι) ι ℝ)).det ≠ 0 := by
  intro h
  obtain ⟨l, hl, h0⟩ := Matrix.exists_mulVec_eq_zero_iff.mpr h
  apply hl
  rw [← mulVec_mulVec, ← mulVec_mulVec] at h0
  set z := S⁻¹ *ᵥ (embed : Matrix (κ ⊕ ι) ι ℝ) *ᵥ l with hz
  have hSz : S *ᵥ z = Sum.elim (fun _ => 0) l := by
    rw [hz, mulVec_mulVec, mul_nonsing_inv S (Ne.isUnit hS), one_mulVec, embed_mulVec]
  have ez : z = Sum.elim (z ∘ Sum.inl) 0 := by
    have e1 : z = Sum.elim (z ∘ Sum.inl) (z ∘ Sum.inr) := (Sum.elim_comp_inl_inr z).symm
    rw [e1, embed_transpose] at h0
    rw [e1, h0]; rfl
  have e2 : S *ᵥ z = Sum.elim (S.toBlocks₁₁ *ᵥ (z ∘ Sum.inl)) (S.toBlocks₂₁ *ᵥ (z ∘ Sum.inl)) := by
    conv_lhs => rw [ez, ← fromBlocks_toBlocks S]
    rw [fromBlocks_mulVec, Sum.elim_comp_inl, Sum.elim_comp_inr, mulVec_zero, mulVec_zero, add_zero, add_zero]
  rw [e2] at hSz
  have h1 : z ∘ Sum.inl = 0 := by
    by_contra hne
    refine h11 (Matrix.exists_mulVec_eq_zero_iff.mp ⟨_, hne, ?_⟩)
    funext i; exact congrFun hSz (Sum.inl i)
  funext j
  have := congrFun hSz (Sum.inr j)
  rw [h1] at this
  exact this.symm.trans (congrFun (mulVec_zero S.toBlocks₂₁) j)

end
end Imodal
