import Verif.Lemmas.ModCompound
/-! Solvability of the linear systems of the modules. -/
set_option autoImplicit false
namespace Imodal
noncomputable section
open Matrix
variable {d : Nat}

mutual
/-- The dual field of a manifold without empty compounds exists. -/
theorem cotToVs_exists (σ : ℝ) (r : Reduction) : (M : Mfd d) → M.NoEmptyCompound → ∃ vs, M.cotToVs σ r = .ok vs
  | .landmarks _ _, _ => ⟨_, rfl⟩
  | .direction .vector _ _ _ _, _ => ⟨_, rfl⟩
  | .direction .orthogonal _ _ _ _, _ => ⟨_, rfl⟩
  | .frame _ _ _ _, _ => ⟨_, rfl⟩
  | .empty, _ => ⟨_, rfl⟩
  | .compound ms, h => by
    rw [Mfd.NoEmptyCompound] at h
    obtain ⟨fs, hfs, hl⟩ := cotToVsAll_exists σ r ms h.2
    rw [Mfd.cotToVs, hfs]
    cases fs with
    | nil => exact absurd (List.length_eq_zero_iff.mp hl.symm) h.1
    | cons f fs => exact ⟨_, rfl⟩
theorem cotToVsAll_exists (σ : ℝ) (r : Reduction) : (ms : List (Mfd d)) → Mfd.AllNoEmptyCompound ms →
    ∃ fs, Mfd.cotToVsAll σ r ms = .ok fs ∧ fs.length = ms.length
  | [], _ => ⟨[], rfl, rfl⟩
  | m :: ms, h => by
    rw [Mfd.AllNoEmptyCompound] at h
    obtain ⟨f, hf⟩ := cotToVs_exists σ r m h.1
    obtain ⟨fs, hfs, hl⟩ := cotToVsAll_exists σ r ms h.2
    refine ⟨f :: fs, ?_, by rw [List.length_cons, List.length_cons, hl]⟩
    rw [Mfd.cotToVsAll, hf]
    dsimp only
    rw [hfs]
end

mutual
/-- Without directions its Jacobian is available. -/
theorem cotToVs_jac {σ : ℝ} {r : Reduction} : (M : Mfd d) → M.NoDirections → {vs : FieldExpr d} →
    M.cotToVs σ r = .ok vs → Avail 1 vs
  | .landmarks _ _, _, vs, h => by
    rw [Mfd.cotToVs] at h; rw [← Except.ok.inj h]; exact avail_f0_one ..
  | .frame _ _ _ _, _, vs, h => by
    rw [Mfd.cotToVs] at h
    rw [mkSumField_ok h]
    exact avail_sum_cons.mpr ⟨avail_f0_one .., avail_sum_cons.mpr ⟨avail_fm_one .., avail_sum_nil 1⟩⟩
  | .empty, _, vs, h => by
    rw [Mfd.cotToVs] at h; rw [← Except.ok.inj h]; exact ⟨_, fun _ => rfl⟩
  | .direction _ _ _ _ _, h, _, _ => by rw [Mfd.NoDirections] at h; exact h.elim
  | .compound ms, h, vs, hv => by
    rw [Mfd.NoDirections] at h
    rw [Mfd.cotToVs] at hv
    cases h1 : Mfd.cotToVsAll σ r ms with
    | error e => rw [h1] at hv; cases hv
    | ok fs =>
      rw [h1] at hv
      rw [mkSumField_ok hv]
      exact cotToVsAll_jac ms h h1
theorem cotToVsAll_jac {σ : ℝ} {r : Reduction} : (ms : List (Mfd d)) → Mfd.AllNoDirections ms →
    {fs : List (FieldExpr d)} → Mfd.cotToVsAll σ r ms = .ok fs → Avail 1 (.sum fs)
  | [], _, fs, h => by rw [Mfd.cotToVsAll] at h; rw [← Except.ok.inj h]; exact avail_sum_nil 1
  | m :: ms, h, fs, hv => by
    rw [Mfd.AllNoDirections] at h
    rw [Mfd.cotToVsAll] at hv
    cases h1 : Mfd.cotToVs σ r m with
    | error e => rw [h1] at hv; cases hv
    | ok f =>
      rw [h1] at hv
      dsimp only at hv
      cases h2 : Mfd.cotToVsAll σ r ms with
      | error e => rw [h2] at hv; cases hv
      | ok fs' =>
        rw [h2] at hv
        rw [← Except.ok.inj hv]
        exact avail_sum_cons.mpr ⟨cotToVs_jac m h.1 h1, cotToVsAll_jac ms h.2 h2⟩
end

theorem cotToVs_full (σ : ℝ) (r : Reduction) (M : Mfd d) (h : M.NoEmptyCompound) :
    ∃ vs, M.cotToVs σ r = .ok vs ∧ Avail 0 vs := by
  obtain ⟨vs, hv⟩ := cotToVs_exists σ r M h
  exact ⟨vs, hv, (cotToVs_isRep M hv).avail⟩

/-! Kernel matrices -/

theorem kXX_quad {n : Nat} (σ : ℝ) (x : Fin n → Vec d) (l : Fin n → ℝ) :
    l ⬝ᵥ (Matrix.of (kXX σ x)) *ᵥ l = ∑ i, ∑ j, l i * l j * kXY σ (x i) (x j) := by
  simp only [dotProduct, mulVec, Matrix.of_apply, Finset.mul_sum]
  exact Finset.sum_congr rfl fun i _ => Finset.sum_congr rfl fun j _ => by rw [kXX_eq]; ring

theorem kXX_psd {n : Nat} (σ : ℝ) (x : Fin n → Vec d) (l : Fin n → ℝ) : 0 ≤ l ⬝ᵥ (Matrix.of (kXX σ x)) *ᵥ l := by
  rw [kXX_quad]; exact gaussian_psd σ x l

theorem kXX_det {n : Nat} {σ : ℝ} (hσ : σ ≠ 0) (x : Fin n → Vec d) (hx : Function.Injective x) :
    (Matrix.of (kXX σ x)).det ≠ 0 := by
  refine det_ne_zero_of_pos fun l hl => (kXX_psd σ x l).lt_of_ne fun h => hl ?_
  rw [kXX_quad] at h
  exact gaussian_pd hσ x hx l h.symm

theorem kXX_nu_det {n : Nat} (σ : ℝ) (x : Fin n → Vec d) {ν : ℝ} (hν : 0 < ν) :
    (Matrix.of (kXX σ x) + ν • (1 : Matrix (Fin n) (Fin n) ℝ)).det ≠ 0 :=
  det_ne_zero_of_pos (smul_one_pos (kXX_psd σ x) hν)

theorem dir_pos {n : Nat} {σ : ℝ} (hσ : σ ≠ 0) (x u : Fin n → Vec d) (hx : Function.Injective x) (hu : ∀ i, u i ≠ 0)
    (l : Fin n → ℝ) (hl : l ≠ 0) : 0 < l ⬝ᵥ gramMat σ (dirAtom x u) *ᵥ l := by
  refine (gramMat_psd σ _ l).lt_of_ne fun h => hl ?_
  have e : l ⬝ᵥ gramMat σ (dirAtom x u) *ᵥ l
      = ∑ c, ∑ i, ∑ j, (l i * u i c) * (l j * u j c) * kXY σ (x i) (x j) := by
    simp only [dotProduct, mulVec, gramMat_dir, Finset.mul_sum, Finset.sum_mul]
    symm
    rw [Finset.sum_comm]
    refine Finset.sum_congr rfl fun i _ => ?_
    rw [Finset.sum_comm]
    refine Finset.sum_congr rfl fun j _ => Finset.sum_congr rfl fun c _ => ?_
    rw [kXX_eq]; ring
  rw [e] at h
  have hz := (Finset.sum_eq_zero_iff_of_nonneg fun c _ => gaussian_psd σ x fun i => l i * u i c).mp h.symm
  funext i
  obtain ⟨c, hc⟩ := Function.ne_iff.mp (hu i)
  have := congrFun (gaussian_pd hσ x hx (fun i => l i * u i c) (hz c (Finset.mem_univ c))) i
  exact (mul_eq_zero.mp this).resolve_right hc

section blocks
variable {κ ι : Type} [Fintype κ] [DecidableEq κ] [Fintype ι] [DecidableEq ι]

theorem block11_det {S : Matrix (κ ⊕ ι) (κ ⊕ ι) ℝ} (h : ∀ l, l ≠ 0 → 0 < l ⬝ᵥ S *ᵥ l) : S.toBlocks₁₁.det ≠ 0 := by
  refine det_ne_zero_of_pos fun l hl => ?_
  have h1 := h (Sum.elim l 0) (fun e => hl (by funext i; exact congrFun e (Sum.inl i)))
  have e : S *ᵥ Sum.elim l 0 = Sum.elim (S.toBlocks₁₁ *ᵥ l) (S.toBlocks₂₁ *ᵥ l) := by
    conv_lhs => rw [← fromBlocks_toBlocks S]
    rw [fromBlocks_mulVec, Sum.elim_comp_inl, Sum.elim_comp_inr, mulVec_zero, mulVec_zero, add_zero, add_zero]
  rw [e, block_dot, zero_dotProduct, add_zero] at h1
  exact h1

theorem inv_pos' {S : Matrix κ κ ℝ} (hsym : Sᵀ = S) (hpos : ∀ l, l ≠ 0 → 0 < l ⬝ᵥ S *ᵥ l) (l : κ → ℝ) (hl : l ≠ 0) :
    0 < l ⬝ᵥ S⁻¹ *ᵥ l := by
  have hd := det_ne_zero_of_pos hpos
  have hne : S⁻¹ *ᵥ l ≠ 0 := by
    intro e
    apply hl
    have : S *ᵥ (S⁻¹ *ᵥ l) = l := by rw [mulVec_mulVec, mul_nonsing_inv S (Ne.isUnit hd), one_mulVec]
    rw [← this, e, mulVec_zero]
  have h := hpos (S⁻¹ *ᵥ l) hne
  rw [mulVec_mulVec, mul_nonsing_inv S (Ne.isUnit hd), one_mulVec, dotProduct_comm] at h
  exact h
end blocks

theorem Implicit1.sks_pos {n p : Nat} (m : Implicit1 d n p) (hν : 0 < m.ν) (l : _ → ℝ) (hl : l ≠ 0) :
    0 < l ⬝ᵥ m.sks *ᵥ l := by rw [m.sks_eq]; exact smul_one_pos (gramMat_psd _ _) hν l hl
theorem DivFree.SKS_pos {N P : Nat} (m : DivFree d N P) (hν : 0 < m.ν) (l : _ → ℝ) (hl : l ≠ 0) :
    0 < l ⬝ᵥ m.SKS *ᵥ l := by rw [m.SKS_eq]; exact smul_one_pos (gramMat_psd _ _) hν l hl
theorem Arap.SKS_pos {N P : Nat} (m : Arap d N P) (hν : 0 < m.ν) (l : _ → ℝ) (hl : l ≠ 0) :
    0 < l ⬝ᵥ m.SKS *ᵥ l := by rw [m.SKS_eq]; exact smul_one_pos (gramMat_psd _ _) hν l hl

end
end Imodal
