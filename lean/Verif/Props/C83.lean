import Verif.Lemmas.Hermite
import Verif.Lemmas.SolvePos
import Verif.Props.C21
/-!
# C83: without regularisation implicit modules work exactly on distinct points

`nu = 0` is the default of the implicit modules. `Function.Injective m.gd` says that the points are
pairwise distinct. A constraint point may coincide with a control point.
-/
set_option autoImplicit false
namespace Imodal
noncomputable section
open Matrix
variable {d : Nat}

theorem nu_zero {κ : Type} [Fintype κ] [DecidableEq κ] {G S : Matrix κ κ ℝ} {ν : ℝ} (h : S = G + ν • (1 : Matrix κ κ ℝ))
    (hν : ν = 0) : S = G := by rw [h, hν, zero_smul, add_zero]

/-- Equal functionals make the Gram matrix singular. -/
theorem gramMat_det_zero {κ : Type} [Fintype κ] [DecidableEq κ] {σ : ℝ} {a : κ → Atom d} {p q : κ} (hpq : p ≠ q)
    (h : a p = a q) : (gramMat σ a).det = 0 := by
  refine Matrix.det_zero_of_row_eq hpq ?_
  funext r
  show (a p).pair _ _ = (a q).pair _ _
  rw [h]

theorem not_injective {α β : Type} {f : α → β} (h : ¬ Function.Injective f) : ∃ i j, i ≠ j ∧ f i = f j := by
  unfold Function.Injective at h
  push Not at h
  obtain ⟨i, j, e, hne⟩ := h
  exact ⟨i, j, hne, e⟩

theorem kXX_det_zero {n : Nat} (σ : ℝ) {x : Fin n → Vec d} (hx : ¬ Function.Injective x) : (Matrix.of (kXX σ x)).det = 0 := by
  obtain ⟨i, j, hne, e⟩ := not_injective hx
  refine Matrix.det_zero_of_row_eq hne ?_
  funext k
  rw [Matrix.of_apply, Matrix.of_apply, kXX_eq, kXX_eq, e]

theorem values_point {n : Nat} (r : Reduction) (x c : Fin n → Vec d) (σ : ℝ) :
    (FieldExpr.f0 r x c σ).values x = .ok fun i b => ∑ j, kXY σ (x i) (x j) * c j b := by
  rw [(isRep_f0 r x c σ).avail.values]
  congr 1
  funext i b
  rw [fieldVal_of_eval (eval_f0_zero r x c σ (x i))]

/-! ### Order 0 -/

/-- The velocity at the points of a translation module with geodesic controls is the velocity of
the dual field. -/
theorem C83_translations_values {n : Nat} (m m' : Translations d n) (man : Mfd d) (h : m.geodesic man = .ok m') :
    ∃ vs V, man.cotToVs m.σ m.r = .ok vs ∧ vs.values m.gd = .ok V ∧ m'.field.values m.gd = .ok V := by
  obtain ⟨c, rfl, hc⟩ := m.geo man m' h
  unfold Translations.geodesic at h
  split at h
  · cases h
  · rename_i vs hv
    split at h
    · cases h
    · rename_i V hV
      refine ⟨vs, V, hv, hV, ?_⟩
      obtain ⟨-, rfl⟩ := values_ok hV
      refine (values_point m.r m.gd c m.σ).trans (congrArg Except.ok ?_)
      funext i b
      have := congrFun hc (i, b)
      rw [gramMat_point_mulVec, dualVec_point] at this
      rw [this, (cotToVs_isRep man hv).val]

/-- For an implicit module of order 0 the velocity at its points is the dual velocity divided by
`coeff`, up to `nu` times the control. -/
theorem C83_implicit0_values {n : Nat} (m m' : Implicit0 d n) (man : Mfd d) (h : m.geodesic man = .ok m') :
    ∃ vs V W, man.cotToVs m.σ m.r = .ok vs ∧ vs.values m.gd = .ok V ∧ m'.field.values m.gd = .ok W ∧
      ∀ i b, m.coeff * (W i b + m.ν * m'.ctrl i b) = V i b := by
  obtain ⟨c, rfl, hc⟩ := m.geo man m' h
  unfold Implicit0.geodesic at h
  split at h
  · cases h
  · rename_i vs hv
    split at h
    · cases h
    · rename_i V hV
      obtain ⟨-, rfl⟩ := values_ok hV
      refine ⟨vs, _, _, hv, hV, values_point m.r m.gd c m.σ, fun i b => ?_⟩
      have := congrFun hc (i, b)
      rw [smul_mulVec, Pi.smul_apply, smul_one_mulVec', gramMat_point_mulVec, dualVec_point, smul_eq_mul] at this
      rw [← (cotToVs_isRep man hv).val] at this
      exact this

/-- Distinct points: geodesic controls exist in both backends. -/
theorem C83_implicit0 {n : Nat} (m : Implicit0 d n) (hσ : m.σ ≠ 0) (hν : m.ν = 0) (hc : m.coeff ≠ 0)
    (hx : Function.Injective m.gd) (man : Mfd d) (hm : man.NoEmptyCompound) : ∃ m', m.geodesic man = .ok m' := by
  refine m.geodesic_of_det ?_ hc man hm
  rw [hν, zero_smul, add_zero]
  exact kXX_det hσ m.gd hx

/-- Coincident points: with the torch backend `compute_geodesic_control` raises LinAlgError. -/
theorem C83_implicit0_singular {n : Nat} (m : Implicit0 d n) (hr : m.r = .torch) (hν : m.ν = 0)
    (hx : ¬ Function.Injective m.gd) (man : Mfd d) (hm : man.NoEmptyCompound) : m.geodesic man = .error .linalg := by
  obtain ⟨vs, hv, h0⟩ := cotToVs_full m.σ m.r man hm
  have hd : (Matrix.of (kXX m.σ m.gd) + m.ν • (1 : Matrix (Fin n) (Fin n) ℝ)).det = 0 := by
    rw [hν, zero_smul, add_zero]; exact kXX_det_zero m.σ hx
  unfold Implicit0.geodesic
  rw [hv]
  dsimp only
  rw [h0.values]
  dsimp only
  rw [hr]
  dsimp only
  unfold linSolveCols
  rw [if_pos hd]

/-! ### Order 1 -/

theorem Implicit1.sks_pos_distinct {n p : Nat} (m : Implicit1 d n p) (hσ : m.σ ≠ 0) (hν : m.ν = 0) (hd : d = 2 ∨ d = 3)
    (hx : Function.Injective m.gd) (l : _ → ℝ) (hl : l ≠ 0) : 0 < l ⬝ᵥ m.sks *ᵥ l := by
  rw [nu_zero m.sks_eq hν]; exact strain_pos hσ hd m.gd hx l hl

/-- Distinct points: every control can be set, and the field has exactly the prescribed strain
`R diag(C h) Rᵀ` at every point. -/
theorem C83_implicit1 {n p : Nat} (m : Implicit1 d n p) (hσ : m.σ ≠ 0) (hν : m.ν = 0) (hd : d = 2 ∨ d = 3)
    (hx : Function.Injective m.gd) (h : Fin p → ℝ) :
    ∃ m' f J, m.fill h = .ok m' ∧ m'.field = .ok f ∧ f.jacobians m.gd = .ok J ∧ ∀ i b c,
      (J i b c + J i c b) / 2 = ∑ a, m.R i b a * (∑ k, m.C i a k * h k) * m.R i c a := by
  have hf := Implicit1.fill_of_det (det_ne_zero_of_pos (m.sks_pos_distinct hσ hν hd hx)) h
  obtain ⟨f, J, h1, h2, h3⟩ := C21_implicit1_exact m _ h hf hν hd
  exact ⟨_, f, J, hf, h1, h2, h3⟩

/-- Distinct points: geodesic controls exist if different controls prescribe different strains. -/
theorem C83_implicit1_geodesic {n p : Nat} (m : Implicit1 d n p) (hσ : m.σ ≠ 0) (hν : m.ν = 0) (hd : d = 2 ∨ d = 3)
    (hx : Function.Injective m.gd) (hc : m.coeff ≠ 0)
    (hinj : ∀ h : Fin p → ℝ, (∀ i b c, ∑ a, m.R i b a * (∑ k, m.C i a k * h k) * m.R i c a = 0) → h = 0)
    (man : Mfd d) (hm : man.NoEmptyCompound) (hdir : man.NoDirections) : ∃ m', m.geodesic man = .ok m' := by
  refine m.geodesic_of_pos (m.sks_pos_distinct hσ hν hd hx) hc (fun h h0 => hinj h fun i b c => ?_) man hm hdir
  obtain ⟨e, he⟩ := (C22_dimensions d).1.mpr hd
  rw [aqh_expand he]
  exact Finset.sum_eq_zero fun t _ => by rw [h0]; simp

/-- Coincident points: with the torch backend no control can be set. -/
theorem C83_implicit1_singular {n p : Nat} (m : Implicit1 d n p) (hr : m.r = .torch) (hν : m.ν = 0) (hd : d = 2 ∨ d = 3)
    (hx : ¬ Function.Injective m.gd) (h : Fin p → ℝ) : m.fill h = .error .linalg := by
  obtain ⟨i, j, hne, e⟩ := not_injective hx
  have t : Fin (symDim d) := ⟨0, by rcases hd with rfl | rfl <;> decide⟩
  have hdet : m.sks.det = 0 := by
    rw [nu_zero m.sks_eq hν]
    refine gramMat_det_zero (p := (i, t)) (q := (j, t)) (fun h => hne (congrArg Prod.fst h)) ?_
    unfold strainAtom
    rw [e]
  have hs : ∀ b, m.solve b = .error .linalg := by
    intro b; unfold Implicit1.solve; rw [hr]; dsimp only; unfold linSolve; rw [if_pos hdet]
  unfold Implicit1.fill Implicit1.computeMoments
  have : ∀ b, ({ m with ctrl := h } : Implicit1 d n p).solve b = .error .linalg := hs
  rw [this]

/-! ### Constraint and velocity at points -/

theorem DivFree.SKS_pos_distinct {N P : Nat} (m : DivFree d N P) (hσ : m.σ ≠ 0) (hν : m.ν = 0) (hα : m.coeffDiv ≠ 0)
    (hd : d ≠ 0) (hX : Function.Injective m.X) (hY : Function.Injective m.Y) (l : _ → ℝ) (hl : l ≠ 0) :
    0 < l ⬝ᵥ m.SKS *ᵥ l := by
  rw [nu_zero m.SKS_eq hν]; exact m.fam_pos hσ hα hd hX hY l hl

/-- Distinct points: the field takes the controls as velocities at the control points and has no
divergence at the constraint points; geodesic controls exist. -/
theorem C83_divFree {N P : Nat} (m : DivFree d N P) (hσ : m.σ ≠ 0) (hν : m.ν = 0) (hα : m.coeffDiv ≠ 0)
    (hd : d ≠ 0) (hX : Function.Injective m.X) (hY : Function.Injective m.Y) :
    (∀ h, ∃ m' f J, m.fill h = .ok m' ∧ m'.field = .ok f ∧ f.values m.Y = .ok h ∧ f.jacobians m.X = .ok J ∧
      ∀ i, ∑ k, J i k k = 0) ∧
    (m.coeff ≠ 0 → ∀ man : Mfd d, man.NoEmptyCompound → man.NoDirections → ∃ m', m.geodesic man = .ok m') := by
  have hpos := m.SKS_pos_distinct hσ hν hα hd hX hY
  refine ⟨fun h => ?_, (m.geodesic_of_pos hpos).2⟩
  have hf := DivFree.fill_of_det (det_ne_zero_of_pos hpos) h
  obtain ⟨f, J, h1, h2, h3, h4⟩ := C21_divFree_exact m _ h hf hν hα
  exact ⟨_, f, J, hf, h1, h3, h2, h4⟩

/-- Coincident constraint points or coincident control points: no control can be set. -/
theorem C83_divFree_singular {N P : Nat} (m : DivFree d N P) (hν : m.ν = 0) (hd : d ≠ 0)
    (hx : ¬ (Function.Injective m.X ∧ Function.Injective m.Y)) (h : Fin P → Vec d) : m.fill h = .error .linalg := by
  have hdet : m.SKS.det = 0 := by
    rw [nu_zero m.SKS_eq hν]
    by_cases hX : Function.Injective m.X
    · obtain ⟨i, j, hne, e⟩ := not_injective fun hY => hx ⟨hX, hY⟩
      refine gramMat_det_zero (p := .inr (i, ⟨0, Nat.pos_of_ne_zero hd⟩)) (q := .inr (j, ⟨0, Nat.pos_of_ne_zero hd⟩))
        (fun h => hne (congrArg Prod.fst (Sum.inr.inj h))) ?_
      show atom0 _ _ = atom0 _ _
      rw [e]
    · obtain ⟨i, j, hne, e⟩ := not_injective hX
      refine gramMat_det_zero (p := .inl i) (q := .inl j) (fun h => hne (Sum.inl.inj h)) ?_
      show atom1 _ _ = atom1 _ _
      rw [e]
  have hs : ∀ b, linSolve m.SKS b = .error .linalg := fun b => by unfold linSolve; rw [if_pos hdet]
  unfold DivFree.fill DivFree.computeMoments
  have : ∀ b, linSolve ({ m with ctrl := h } : DivFree d N P).SKS b = .error .linalg := hs
  rw [this]

theorem Arap.SKS_pos_distinct {N P : Nat} (m : Arap d N P) (hσ : m.σ ≠ 0) (hν : m.ν = 0) (hα : m.coeffArap ≠ 0)
    (hd : d = 2 ∨ d = 3) (hX : Function.Injective m.X) (hY : Function.Injective m.Y) (l : _ → ℝ) (hl : l ≠ 0) :
    0 < l ⬝ᵥ m.SKS *ᵥ l := by
  rw [nu_zero m.SKS_eq hν]; exact m.fam_pos hσ hα hd hX hY l hl

/-- Distinct points: the field takes the controls as velocities at the control points and has no
strain at the constraint points; geodesic controls exist. -/
theorem C83_arap {N P : Nat} (m : Arap d N P) (hσ : m.σ ≠ 0) (hν : m.ν = 0) (hα : m.coeffArap ≠ 0)
    (hd : d = 2 ∨ d = 3) (hX : Function.Injective m.X) (hY : Function.Injective m.Y) :
    (∀ h, ∃ m' f J, m.fill h = .ok m' ∧ m'.field = .ok f ∧ f.values m.Y = .ok h ∧ f.jacobians m.X = .ok J ∧
      ∀ i b c, J i b c + J i c b = 0) ∧
    (m.coeff ≠ 0 → ∀ man : Mfd d, man.NoEmptyCompound → man.NoDirections → ∃ m', m.geodesic man = .ok m') := by
  have hpos := m.SKS_pos_distinct hσ hν hα hd hX hY
  refine ⟨fun h => ?_, (m.geodesic_of_pos hpos).2⟩
  have hf := Arap.fill_of_det (det_ne_zero_of_pos hpos) h
  obtain ⟨f, J, h1, h2, h3, h4⟩ := C21_arap_exact m _ h hf hν hα hd
  exact ⟨_, f, J, hf, h1, h3, h2, h4⟩

theorem C83_arap_singular {N P : Nat} (m : Arap d N P) (hν : m.ν = 0) (hd : d = 2 ∨ d = 3)
    (hx : ¬ (Function.Injective m.X ∧ Function.Injective m.Y)) (h : Fin P → Vec d) : m.fill h = .error .linalg := by
  have hdet : m.SKS.det = 0 := by
    rw [nu_zero m.SKS_eq hν]
    by_cases hX : Function.Injective m.X
    · obtain ⟨i, j, hne, e⟩ := not_injective fun hY => hx ⟨hX, hY⟩
      have k : Fin d := ⟨0, by omega⟩
      refine gramMat_det_zero (p := .inr (i, k)) (q := .inr (j, k)) (fun h => hne (congrArg Prod.fst (Sum.inr.inj h))) ?_
      show atom0 _ _ = atom0 _ _
      rw [e]
    · obtain ⟨i, j, hne, e⟩ := not_injective hX
      have t : Fin (symDim d) := ⟨0, by rcases hd with rfl | rfl <;> decide⟩
      refine gramMat_det_zero (p := .inl (i, t)) (q := .inl (j, t)) (fun h => hne (congrArg Prod.fst (Sum.inl.inj h))) ?_
      show atom1 _ _ = atom1 _ _
      rw [e]
  have hs : ∀ b, linSolve m.SKS b = .error .linalg := fun b => by unfold linSolve; rw [if_pos hdet]
  unfold Arap.fill Arap.computeMoments
  have : ∀ b, linSolve ({ m with ctrl := h } : Arap d N P).SKS b = .error .linalg := hs
  rw [this]

/-! Two points with growth in the first direction; a divergence-free module whose constraint point
is also a control point; two coincident points. -/

theorem pair_injective : Function.Injective (![![0, 0], ![1, 0]] : Fin 2 → Vec 2) := by
  intro i j h
  have := congrFun h 0
  fin_cases i <;> fin_cases j <;> simp_all

example : ∃ m' f J, (⟨.keops, ![![0, 0], ![1, 0]], fun _ => 1, 0, 0, fun _ b _ => if b = 0 then 1 else 0, 1, 0, 1, 0, none⟩ :
    Implicit1 2 2 1).fill (fun _ => 3) = .ok m' ∧ m'.field = .ok f ∧ f.jacobians ![![0, 0], ![1, 0]] = .ok J ∧ J 1 0 0 = 3 := by
  obtain ⟨m', f, J, h1, h2, h3, h4⟩ := C83_implicit1 (⟨.keops, ![![0, 0], ![1, 0]], fun _ => 1, 0, 0, fun _ b _ => if b = 0 then 1 else 0, 1, 0, 1, 0, none⟩ :
    Implicit1 2 2 1) (by norm_num) rfl (Or.inl rfl) pair_injective (fun _ => 3)
  refine ⟨m', f, J, h1, h2, h3, ?_⟩
  have := h4 1 0 0
  simp [Fin.sum_univ_two, Matrix.one_apply] at this
  linarith

example : ∃ m' f J, (⟨fun _ => 0, 0, 1, 1, 0, 1, 0, none⟩ : DivFree 2 1 1).fill (fun _ => ![1, 2]) = .ok m' ∧
    m'.field = .ok f ∧ f.values (fun _ : Fin 1 => 0) = .ok (fun _ => ![1, 2]) ∧ f.jacobians (fun _ : Fin 1 => 0) = .ok J ∧
    J 0 0 0 + J 0 1 1 = 0 := by
  obtain ⟨m', f, J, h1, h2, h3, h4, h5⟩ := (C83_divFree (⟨fun _ => 0, 0, 1, 1, 0, 1, 0, none⟩ : DivFree 2 1 1) (by norm_num) rfl (by norm_num)
    (by norm_num) (fun i j _ => Subsingleton.elim i j) (fun i j _ => Subsingleton.elim i j)).1 (fun _ => ![1, 2])
  exact ⟨m', f, J, h1, h2, h3, h4, by have := h5 0; rwa [Fin.sum_univ_two] at this⟩

example : (⟨.torch, ![0, 0], fun _ => 1, 0, 0, fun _ _ _ => 1, 1, 0, 1, 0, none⟩ : Implicit1 2 2 1).fill (fun _ => 3) = .error .linalg :=
  C83_implicit1_singular _ rfl rfl (Or.inl rfl) (fun h => absurd (h (a₁ := 0) (a₂ := 1) rfl) (by decide)) _

example : ∃ m', (⟨.torch, ![![0, 0], ![1, 0]], 0, 1, 0, 2, 0⟩ : Implicit0 2 2).geodesic (.landmarks ![0, 0] ![1, 1]) = .ok m' :=
  C83_implicit0 _ (by norm_num) rfl (by norm_num) pair_injective _ (by simp [Mfd.NoEmptyCompound])

end
end Imodal
