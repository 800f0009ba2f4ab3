import Verif.Lemmas.SolvePos
/-!
# C20: geodesic controls exist whenever the regularisation is positive
-/
set_option autoImplicit false
namespace Imodal
noncomputable section
open Matrix
variable {d : Nat}

/-- Translations: distinct points are enough, in both backends. -/
theorem C20_translations {n : Nat} (m : Translations d n) (hσ : m.σ ≠ 0) (hx : Function.Injective m.gd)
    (man : Mfd d) (hm : man.NoEmptyCompound) : ∃ m', m.geodesic man = .ok m' := by
  obtain ⟨vs, hv, h0⟩ := cotToVs_full m.σ m.r man hm
  unfold Translations.geodesic
  rw [hv]
  dsimp only
  rw [h0.values]
  dsimp only
  have hd := kXX_det hσ m.gd hx
  cases hr : m.r
  · dsimp only
    unfold linSolveCols; rw [if_neg hd]; exact ⟨_, rfl⟩
  · dsimp only
    have e : (Matrix.of fun i j => keopsGauss m.σ (m.gd i) (m.gd j)) = Matrix.of (kXX m.σ m.gd) := by
      funext i j; rw [Matrix.of_apply, Matrix.of_apply, keopsGauss_eq, kXX_eq]
    rw [e]
    unfold keopsSolveCols; rw [if_neg hd]; exact ⟨_, rfl⟩

/-- Oriented translations: distinct points with non-zero directions. -/
theorem C20_oriented {n : Nat} (m : Oriented d n) (hσ : m.σ ≠ 0) (hx : Function.Injective m.gd)
    (hu : ∀ i, m.dir i ≠ 0) (hc : m.coeff ≠ 0) (man : Mfd d) (hm : man.NoEmptyCompound) :
    ∃ m', m.geodesic man = .ok m' := by
  obtain ⟨vs, hv, h0⟩ := cotToVs_full m.σ .torch man hm
  unfold Oriented.geodesic
  rw [hv]
  dsimp only
  rw [h0.values]
  dsimp only
  have hd := det_ne_zero_of_pos (dir_pos hσ m.gd m.dir hx hu)
  have eG : gramMat m.σ (dirAtom m.gd m.dir)
      = Matrix.of fun i j => kXX m.σ m.gd i j * ∑ c, m.dir i c * m.dir j c := by
    funext i j; exact gramMat_dir m.σ m.gd m.dir i j
  rw [eG] at hd
  rw [linSolve_of_det hd, tdiv_of_ne hc]
  exact ⟨_, rfl⟩

/-- Implicit modules of order 0: any points, coincident ones included. -/
theorem C20_implicit0 {n : Nat} (m : Implicit0 d n) (hν : 0 < m.ν) (hc : m.coeff ≠ 0)
    (man : Mfd d) (hm : man.NoEmptyCompound) : ∃ m', m.geodesic man = .ok m' :=
  m.geodesic_of_det (kXX_nu_det m.σ m.gd hν) hc man hm

/-- Implicit modules of order 1: `fill_controls` never meets a singular system. -/
theorem C20_implicit1_fill {n p : Nat} (m : Implicit1 d n p) (hν : 0 < m.ν) (h : Fin p → ℝ) :
    ∃ m', m.fill h = .ok m' ∧ m'.ctrl = h :=
  ⟨_, Implicit1.fill_of_det (det_ne_zero_of_pos (m.sks_pos hν)) h, rfl⟩

/-- Implicit modules of order 1: `compute_geodesic_control` succeeds if different controls
prescribe different strains. -/
theorem C20_implicit1_geodesic_partial {n p : Nat} (m : Implicit1 d n p) (hν : 0 < m.ν) (hc : m.coeff ≠ 0)
    (hinj : ∀ h : Fin p → ℝ, m.aqh h = 0 → h = 0) (man : Mfd d) (hm : man.NoEmptyCompound) (hd : man.NoDirections) :
    ∃ m', m.geodesic man = .ok m' :=
  m.geodesic_of_pos (m.sks_pos hν) hc hinj man hm hd

/-- Divergence constraint. -/
theorem C20_divFree {N P : Nat} (m : DivFree d N P) (hν : 0 < m.ν) :
    (∀ h, ∃ m', m.fill h = .ok m' ∧ m'.ctrl = h) ∧
    (m.coeff ≠ 0 → ∀ man : Mfd d, man.NoEmptyCompound → man.NoDirections → ∃ m', m.geodesic man = .ok m') :=
  m.geodesic_of_pos (m.SKS_pos hν)

/-- Strain constraint. -/
theorem C20_arap {N P : Nat} (m : Arap d N P) (hν : 0 < m.ν) :
    (∀ h, ∃ m', m.fill h = .ok m' ∧ m'.ctrl = h) ∧
    (m.coeff ≠ 0 → ∀ man : Mfd d, man.NoEmptyCompound → man.NoDirections → ∃ m', m.geodesic man = .ok m') :=
  m.geodesic_of_pos (m.SKS_pos hν)

/-- A positive regularisation is not enough for implicit modules of order 1: if some control has
no effect on the prescribed strains, `compute_geodesic_control` raises LinAlgError, for every
manifold. -/
theorem C20_implicit1_disagreement {n p : Nat} (m : Implicit1 d n p) (hν : 0 < m.ν) (hc : m.coeff ≠ 0)
    (h : Fin p → ℝ) (hh : h ≠ 0) (h0 : m.aqh h = 0) (man : Mfd d) (hm : man.NoEmptyCompound) (hd : man.NoDirections) :
    m.geodesic man = .error .linalg := by
  obtain ⟨vs, hv, -⟩ := cotToVs_full m.σ m.r man hm
  have h1 := cotToVs_jac man hd hv
  have hdet := det_ne_zero_of_pos (m.sks_pos hν)
  have hQ : (m.Aᵀ * m.sks⁻¹ * m.A).det = 0 := by
    refine Matrix.exists_mulVec_eq_zero_iff.mp ⟨h, hh, ?_⟩
    rw [m.aqh_eq] at h0
    rw [← mulVec_mulVec, h0, mulVec_zero]
  unfold Implicit1.geodesic
  rw [hv]
  dsimp only
  rw [h1.jacobians]
  dsimp only
  rw [Implicit1.solve_of_det hdet]
  dsimp only
  rw [tdiv_of_ne hc]
  dsimp only
  rw [Implicit1.aqkiaq_of_det hdet]
  dsimp only
  unfold linSolve
  rw [if_pos hQ]

/-- Points with directions have a dual field without Jacobian, so an implicit module of order 1
cannot compute its geodesic controls next to them: NotImplementedError. -/
theorem C20_directions_disagreement {n p k : Nat} (m : Implicit1 d n p) (t : Transport)
    (gd dir cot cdir : Fin k → Vec d) :
    m.geodesic (.direction t gd dir cot cdir) = .error .notImplemented := by
  have key : ∀ (r : Reduction) (a b c e : Fin k → Vec d),
      (FieldExpr.sum [.f0 r a b m.σ, .f0u r a c e m.σ]).jacobians m.gd = .error .notImplemented := by
    intro r a b c e
    unfold FieldExpr.jacobians FieldExpr.batch
    have : ∀ x, (FieldExpr.sum [.f0 r a b m.σ, .f0u r a c e m.σ]).eval 1 x = .error .notImplemented := by
      intro x
      rw [FieldExpr.eval, FieldExpr.evalSum, eval_f0_one, FieldExpr.evalSum, FieldExpr.eval]
      rfl
    rw [this]
  cases t <;>
  · unfold Implicit1.geodesic
    rw [Mfd.cotToVs]
    unfold mkSumField
    dsimp only
    rw [key]

/-! Cases with coincident points, and a growth tensor without effect. -/

example : ∃ m', (⟨.torch, ![0, 0], 0, 0, 0, fun _ b _ => if b = 0 then 1 else 0, 1, 0.1, 1, 0, none⟩ : Implicit1 2 2 1).fill
    (fun _ => 1) = .ok m' ∧ m'.ctrl = fun _ => 1 := C20_implicit1_fill _ (by norm_num) _
example : ∃ m', (⟨.torch, ![0, 0], 0, 1, 0.1, 2, 0⟩ : Implicit0 2 2).geodesic (.landmarks ![0, 0] ![1, 1]) = .ok m' :=
  C20_implicit0 _ (by norm_num) (by norm_num) _ (by simp [Mfd.NoEmptyCompound])
example : ∃ m', (⟨.keops, ![0, 1], 0, 1, 0⟩ : Translations 2 2).geodesic (.landmarks ![0, 1] ![1, 1]) = .ok m' :=
  C20_translations _ (by norm_num) (by intro i j h; fin_cases i <;> fin_cases j <;> simp_all) _ (by simp [Mfd.NoEmptyCompound])
/-- The growth tensor is zero, so the control has no effect. -/
example : (⟨.torch, ![0, 1], 1, 0, 0, 0, 1, 0.1, 1, 0, none⟩ : Implicit1 2 2 1).geodesic (.landmarks ![0, 1] ![1, 1])
    = .error .linalg := by
  refine C20_implicit1_disagreement _ (by norm_num) (by norm_num) (fun _ => 1) (fun e => ?_) ?_ _ (by simp [Mfd.NoEmptyCompound])
    (by simp [Mfd.NoDirections])
  · have := congrFun e 0; norm_num at this
  · funext q; simp [Implicit1.aqh]
/-- One growth direction per point: the hypothesis of `C20_implicit1_geodesic_partial`. -/
example : ∃ m', (⟨.torch, ![0, 1], 1, 0, 0, fun _ b _ => if b = 0 then 1 else 0, 1, 0.1, 1, 0, none⟩ : Implicit1 2 2 1).geodesic
    (.landmarks ![0, 1] ![1, 1]) = .ok m' := by
  refine C20_implicit1_geodesic_partial _ (by norm_num) (by norm_num) (fun h hh => ?_) _ (by simp [Mfd.NoEmptyCompound])
    (by simp [Mfd.NoDirections])
  have := congrFun hh (0, ⟨0, by decide⟩)
  simp [Implicit1.aqh, Fin.sum_univ_two, eye, etaOf_two, Matrix.one_apply] at this
  funext i; fin_cases i; exact this

end
end Imodal
