import Verif.Lemmas.Uniform
import Verif.Lemmas.Regular
/-!
# Whether geodesic controls exist does not depend on the values of the momentum

The solves use the descriptors only, so a second manifold whose dual field exists and can be
evaluated as often as the first one gives controls too.
-/
set_option autoImplicit false
namespace Imodal
noncomputable section
open Matrix
variable {d : Nat}

/-- The dual field of `man'` can be evaluated wherever that of `man` can. -/
def DualLike (man man' : Mfd d) : Prop :=
  ∀ σ r vs, man.cotToVs σ r = .ok vs → ∃ vs', man'.cotToVs σ r = .ok vs' ∧ ∀ k ≤ 1, Avail k vs → Avail k vs'

theorem DualLike.refl (man : Mfd d) : DualLike man man := fun _ _ vs h => ⟨vs, h, fun _ _ a => a⟩

theorem linSolveCols_of_det {n : Nat} {A : Matrix (Fin n) (Fin n) ℝ} (hd : A.det ≠ 0) (B : Fin n → Vec d) :
    ∃ X, linSolveCols A B = .ok X := by
  unfold linSolveCols; rw [if_neg hd]; exact ⟨_, rfl⟩
theorem keopsSolveCols_of_det {n : Nat} {A : Matrix (Fin n) (Fin n) ℝ} (hd : A.det ≠ 0) (B : Fin n → Vec d) :
    ∃ X, keopsSolveCols A B = .ok X := by
  unfold keopsSolveCols; rw [if_neg hd]; exact ⟨_, rfl⟩

theorem Translations.geodesic_mono {man man' : Mfd d} (hd : DualLike man man') {n : Nat} {m m' : Translations d n}
    (h : m.geodesic man = .ok m') : ∃ m'', m.geodesic man' = .ok m'' := by
  unfold Translations.geodesic at h ⊢
  cases h1 : man.cotToVs m.σ m.r with
  | error e => rw [h1] at h; cases h
  | ok vs =>
    rw [h1] at h; dsimp only at h
    obtain ⟨vs', h1', hk⟩ := hd _ _ _ h1
    rw [h1']; dsimp only
    cases h2 : vs.values m.gd with
    | error e => rw [h2] at h; cases h
    | ok V =>
      rw [h2] at h; dsimp only at h
      rw [(hk 0 (by omega) (values_ok h2).1).values]; dsimp only
      cases hr : m.r <;> rw [hr] at h <;> dsimp only at h ⊢
      · cases h3 : linSolveCols (Matrix.of (kXX m.σ m.gd)) V with
        | error e => rw [h3] at h; cases h
        | ok c =>
          obtain ⟨X, hX⟩ := linSolveCols_of_det (linSolveCols_ok h3).1 fun i => fieldVal vs' (m.gd i)
          rw [hX]; exact ⟨_, rfl⟩
      · cases h3 : keopsSolveCols (Matrix.of fun i j => keopsGauss m.σ (m.gd i) (m.gd j)) V with
        | error e => rw [h3] at h; cases h
        | ok c =>
          obtain ⟨X, hX⟩ := keopsSolveCols_of_det (keopsSolveCols_ok h3).1 fun i => fieldVal vs' (m.gd i)
          rw [hX]; exact ⟨_, rfl⟩

theorem Implicit0.geodesic_mono {man man' : Mfd d} (hd : DualLike man man') {n : Nat} {m m' : Implicit0 d n}
    (h : m.geodesic man = .ok m') : ∃ m'', m.geodesic man' = .ok m'' := by
  unfold Implicit0.geodesic at h ⊢
  cases h1 : man.cotToVs m.σ m.r with
  | error e => rw [h1] at h; cases h
  | ok vs =>
    rw [h1] at h; dsimp only at h
    obtain ⟨vs', h1', hk⟩ := hd _ _ _ h1
    rw [h1']; dsimp only
    cases h2 : vs.values m.gd with
    | error e => rw [h2] at h; cases h
    | ok V =>
      rw [h2] at h; dsimp only at h
      rw [(hk 0 (by omega) (values_ok h2).1).values]; dsimp only
      cases hr : m.r <;> rw [hr] at h <;> dsimp only at h ⊢
      · cases h3 : linSolveCols (Matrix.of (kXX m.σ m.gd) + m.ν • (1 : Matrix (Fin n) (Fin n) ℝ)) V with
        | error e => rw [h3] at h; cases h
        | ok c =>
          rw [h3] at h; dsimp only at h
          obtain ⟨X, hX⟩ := linSolveCols_of_det (linSolveCols_ok h3).1 fun i => fieldVal vs' (m.gd i)
          rw [hX]; dsimp only
          cases h4 : tdiv 1 m.coeff with
          | error e => rw [h4] at h; cases h
          | ok u => exact ⟨_, rfl⟩
      · cases h3 : keopsSolveCols (Matrix.of (fun i j => keopsGauss0 m.σ (m.gd i) (m.gd j))
            + m.ν • (1 : Matrix (Fin n) (Fin n) ℝ)) V with
        | error e => rw [h3] at h; cases h
        | ok c =>
          rw [h3] at h; dsimp only at h
          obtain ⟨X, hX⟩ := keopsSolveCols_of_det (keopsSolveCols_ok h3).1 fun i => fieldVal vs' (m.gd i)
          rw [hX]; dsimp only
          cases h4 : tdiv 1 m.coeff with
          | error e => rw [h4] at h; cases h
          | ok u => exact ⟨_, rfl⟩

theorem Oriented.geodesic_mono {man man' : Mfd d} (hd : DualLike man man') {n : Nat} {m m' : Oriented d n}
    (h : m.geodesic man = .ok m') : ∃ m'', m.geodesic man' = .ok m'' := by
  unfold Oriented.geodesic at h ⊢
  cases h1 : man.cotToVs m.σ .torch with
  | error e => rw [h1] at h; cases h
  | ok vs =>
    rw [h1] at h; dsimp only at h
    obtain ⟨vs', h1', hk⟩ := hd _ _ _ h1
    rw [h1']; dsimp only
    cases h2 : vs.values m.gd with
    | error e => rw [h2] at h; cases h
    | ok V =>
      rw [h2] at h; dsimp only at h
      rw [(hk 0 (by omega) (values_ok h2).1).values]; dsimp only
      cases h3 : linSolve (Matrix.of fun i j => kXX m.σ m.gd i j * ∑ c, m.dir i c * m.dir j c)
          (fun i => ∑ c, V i c * m.dir i c) with
      | error e => rw [h3] at h; cases h
      | ok c =>
        rw [h3] at h; dsimp only at h
        rw [linSolve_of_det (linSolve_ok h3).1]; dsimp only
        cases h4 : tdiv 1 m.coeff with
        | error e => rw [h4] at h; cases h
        | ok u => exact ⟨_, rfl⟩

theorem Constrained.geodesic_mono (man man' : Mfd d) {n p : Nat} {m m' : Constrained d n p}
    (h : m.geodesic man = .ok m') : ∃ m'', m.geodesic man' = .ok m'' := by
  unfold Constrained.geodesic at h ⊢
  cases h1 : man.innerProd (.f0 .torch (m.fsupp m.gd) (m.fvec m.gd) m.σ) with
  | error e => rw [h1] at h; cases h
  | ok a =>
    rw [h1] at h; dsimp only at h
    obtain ⟨a', ha⟩ := innerProd_avail (isRep_f0 .torch (m.fsupp m.gd) (m.fvec m.gd) m.σ).avail
      (avail_f0_one .torch (m.fsupp m.gd) (m.fvec m.gd) m.σ) man'
    rw [ha]; dsimp only
    cases h2 : tdiv a (m.coeff * m.energy) with
    | error e => rw [h2] at h; cases h
    | ok c => rw [tdiv_of_ne (tdiv_ok h2).1]; exact ⟨_, rfl⟩

theorem Linear.geodesic_mono (man man' : Mfd d) {m m' : Linear d}
    (h : m.geodesic man = .ok m') : ∃ m'', m.geodesic man' = .ok m'' := by
  unfold Linear.geodesic at h ⊢
  cases h1 : man.innerProd (.affine m.A m.gd 0) with
  | error e => rw [h1] at h; cases h
  | ok a =>
    rw [h1] at h; dsimp only at h
    obtain ⟨a', ha⟩ := innerProd_avail (avail_affine 0 m.A m.gd 0) (avail_affine 1 m.A m.gd 0) man'
    rw [ha]; dsimp only
    cases h2 : tdiv a m.coeff with
    | error e => rw [h2] at h; cases h
    | ok c => rw [tdiv_of_ne (tdiv_ok h2).1]; exact ⟨_, rfl⟩

theorem GlobalTranslation.geodesic_mono (man man' : Mfd d) {m m' : GlobalTranslation d}
    (h : m.geodesic man = .ok m') : ∃ m'', m.geodesic man' = .ok m'' := by
  unfold GlobalTranslation.geodesic at h ⊢
  cases h1 : collect (m.entry man) with
  | error e => rw [h1] at h; cases h
  | ok g =>
    have : ∀ i, ∃ a, m.entry man' i = .ok a := fun i => by
      have hi := collect_ok h1 i
      unfold GlobalTranslation.entry at hi ⊢
      obtain ⟨a, ha⟩ := innerProd_avail (avail_const 0 fun c => if c = i then (1 : ℝ) else 0)
        (avail_const 1 fun c => if c = i then (1 : ℝ) else 0) man'
      rw [ha]; dsimp only
      cases h2 : man.innerProd (.const fun c => if c = i then 1 else 0) with
      | error e => rw [h2] at hi; cases hi
      | ok b =>
        rw [h2] at hi
        exact ⟨_, tdiv_of_ne (tdiv_ok hi).1⟩
    obtain ⟨g', hg⟩ := collect_total this
    rw [hg]; exact ⟨_, rfl⟩

theorem Implicit1.geodesic_mono {man man' : Mfd d} (hd : DualLike man man') {n p : Nat} {m m' : Implicit1 d n p}
    (h : m.geodesic man = .ok m') : ∃ m'', m.geodesic man' = .ok m'' := by
  unfold Implicit1.geodesic at h ⊢
  cases h1 : man.cotToVs m.σ m.r with
  | error e => rw [h1] at h; cases h
  | ok vs =>
    rw [h1] at h; dsimp only at h
    obtain ⟨vs', h1', hk⟩ := hd _ _ _ h1
    rw [h1']; dsimp only
    cases h2 : vs.jacobians m.gd with
    | error e => rw [h2] at h; cases h
    | ok J =>
      rw [h2] at h; dsimp only at h
      rw [(hk 1 le_rfl (jacobians_ok h2).1).jacobians]; dsimp only
      cases h3 : m.solve (strains J) with
      | error e => rw [h3] at h; cases h
      | ok tl =>
        rw [h3] at h; dsimp only at h
        have hS := (Implicit1.solve_ok h3).1
        rw [Implicit1.solve_of_det hS]; dsimp only
        cases h4 : tdiv 1 m.coeff with
        | error e => rw [h4] at h; cases h
        | ok u =>
          rw [h4] at h; dsimp only at h
          rw [Implicit1.aqkiaq_of_det hS] at h ⊢
          dsimp only at h ⊢
          cases h5 : linSolve (m.Aᵀ * m.sks⁻¹ * m.A) (fun i => ∑ q, m.aqCol i q * (tl q / m.coeff)) with
          | error e => rw [h5] at h; cases h
          | ok c =>
            rw [linSolve_of_det (linSolve_ok h5).1]; dsimp only
            rw [Implicit1.fill_of_det hS]; dsimp only
            cases m.r
            · exact ⟨_, Implicit1.computeMoments_of_det (m := m.done _) hS⟩
            · exact ⟨_, rfl⟩

theorem DivFree.geodesic_mono {man man' : Mfd d} (hd : DualLike man man') {N P : Nat} {m m' : DivFree d N P}
    (h : m.geodesic man = .ok m') : ∃ m'', m.geodesic man' = .ok m'' := by
  unfold DivFree.geodesic at h ⊢
  cases h1 : man.cotToVs m.σ .torch with
  | error e => rw [h1] at h; cases h
  | ok vs =>
    rw [h1] at h; dsimp only at h
    obtain ⟨vs', h1', hk⟩ := hd _ _ _ h1
    rw [h1']; dsimp only
    cases h2 : vs.jacobians m.X with
    | error e => rw [h2] at h; cases h
    | ok J =>
      rw [h2] at h; dsimp only at h
      rw [(hk 1 le_rfl (jacobians_ok h2).1).jacobians]; dsimp only
      cases h2' : vs.values m.Y with
      | error e => rw [h2'] at h; cases h
      | ok V =>
        rw [h2'] at h; dsimp only at h
        rw [(hk 0 (by omega) (values_ok h2').1).values]; dsimp only
        cases h3 : linSolve m.SKS.toBlocks₁₁ (fun i => m.coeffDiv * ∑ k, J i k k) with
        | error e => rw [h3] at h; cases h
        | ok x =>
          rw [h3] at h; dsimp only at h
          rw [linSolve_of_det (linSolve_ok h3).1]; dsimp only
          split at h
          · cases h
          · rename_i hc
            rw [if_neg hc]
            cases h4 : m.fill (fun j c => (1 / m.coeff) * (-(m.SKS.toBlocks₂₁.mulVec x) (j, c) + V j c)) with
            | error e => rw [h4] at h; cases h
            | ok a =>
              have hS := (DivFree.fill_ok h4).1
              rw [DivFree.fill_of_det hS]; dsimp only
              exact ⟨_, DivFree.computeMoments_of_det (m := m.done _) hS⟩

theorem Arap.geodesic_mono {man man' : Mfd d} (hd : DualLike man man') {N P : Nat} {m m' : Arap d N P}
    (h : m.geodesic man = .ok m') : ∃ m'', m.geodesic man' = .ok m'' := by
  unfold Arap.geodesic at h ⊢
  cases h1 : man.cotToVs m.σ .torch with
  | error e => rw [h1] at h; cases h
  | ok vs =>
    rw [h1] at h; dsimp only at h
    obtain ⟨vs', h1', hk⟩ := hd _ _ _ h1
    rw [h1']; dsimp only
    cases h2 : vs.jacobians m.X with
    | error e => rw [h2] at h; cases h
    | ok J =>
      rw [h2] at h; dsimp only at h
      rw [(hk 1 le_rfl (jacobians_ok h2).1).jacobians]; dsimp only
      cases h2' : vs.values m.Y with
      | error e => rw [h2'] at h; cases h
      | ok V =>
        rw [h2'] at h; dsimp only at h
        rw [(hk 0 (by omega) (values_ok h2').1).values]; dsimp only
        cases h3 : linSolve m.SKS.toBlocks₁₁ (strains fun i => m.coeffArap • J i) with
        | error e => rw [h3] at h; cases h
        | ok x =>
          rw [h3] at h; dsimp only at h
          rw [linSolve_of_det (linSolve_ok h3).1]; dsimp only
          split at h
          · cases h
          · rename_i hc
            rw [if_neg hc]
            cases h4 : m.fill (fun j c => (1 / m.coeff) * (-(m.SKS.toBlocks₂₁.mulVec x) (j, c) + V j c)) with
            | error e => rw [h4] at h; cases h
            | ok a =>
              have hS := (Arap.fill_ok h4).1
              rw [Arap.fill_of_det hS]; dsimp only
              exact ⟨_, Arap.computeMoments_of_det (m := m.done _) hS⟩

theorem wrap_exists {α : Type} {f : α → DefModule d} {x : Py α} (h : ∃ a, x = .ok a) : ∃ m, wrap f x = .ok m := by
  obtain ⟨a, rfl⟩ := h; exact ⟨_, rfl⟩

mutual
/-- Geodesic controls exist for every momentum as soon as they exist for one. -/
theorem geodesic_mono {man man' : Mfd d} (hd : DualLike man man') : (m : DefModule d) → {m' : DefModule d} →
    m.geodesic man = .ok m' → ∃ m'', m.geodesic man' = .ok m''
  | .translations m, m', h => by
    rw [DefModule.geodesic] at h ⊢; obtain ⟨a, ha, -⟩ := wrap_ok h
    exact wrap_exists (Translations.geodesic_mono hd ha)
  | .implicit0 m, m', h => by
    rw [DefModule.geodesic] at h ⊢; obtain ⟨a, ha, -⟩ := wrap_ok h
    exact wrap_exists (Implicit0.geodesic_mono hd ha)
  | .oriented m, m', h => by
    rw [DefModule.geodesic] at h ⊢; obtain ⟨a, ha, -⟩ := wrap_ok h
    exact wrap_exists (Oriented.geodesic_mono hd ha)
  | .constrained m, m', h => by
    rw [DefModule.geodesic] at h ⊢; obtain ⟨a, ha, -⟩ := wrap_ok h
    exact wrap_exists (Constrained.geodesic_mono man man' ha)
  | .globalTranslation m, m', h => by
    rw [DefModule.geodesic] at h ⊢; obtain ⟨a, ha, -⟩ := wrap_ok h
    exact wrap_exists (GlobalTranslation.geodesic_mono man man' ha)
  | .linear m, m', h => by
    rw [DefModule.geodesic] at h ⊢; obtain ⟨a, ha, -⟩ := wrap_ok h
    exact wrap_exists (Linear.geodesic_mono man man' ha)
  | .implicit1 m, m', h => by
    rw [DefModule.geodesic] at h ⊢; obtain ⟨a, ha, -⟩ := wrap_ok h
    exact wrap_exists (Implicit1.geodesic_mono hd ha)
  | .divFree m, m', h => by
    rw [DefModule.geodesic] at h ⊢; obtain ⟨a, ha, -⟩ := wrap_ok h
    exact wrap_exists (DivFree.geodesic_mono hd ha)
  | .arap m, m', h => by
    rw [DefModule.geodesic] at h ⊢; obtain ⟨a, ha, -⟩ := wrap_ok h
    exact wrap_exists (Arap.geodesic_mono hd ha)
  | .silent s, m', h => by rw [DefModule.geodesic]; exact ⟨_, rfl⟩
  | .compound ms, m', h => by
    obtain ⟨ms', h1, -⟩ := geodesic_compound h
    obtain ⟨ms'', h2⟩ := geodesics_mono hd ms h1
    rw [DefModule.geodesic, h2]; exact ⟨_, rfl⟩
theorem geodesics_mono {man man' : Mfd d} (hd : DualLike man man') : (ms : List (DefModule d)) → {ms' : List (DefModule d)} →
    DefModule.geodesics man ms = .ok ms' → ∃ ms'', DefModule.geodesics man' ms = .ok ms''
  | [], ms', h => ⟨_, by rw [DefModule.geodesics]⟩
  | m :: ms, ms', h => by
    rw [DefModule.geodesics] at h ⊢
    cases h1 : m.geodesic man with
    | error e => rw [h1] at h; cases h
    | ok a =>
      rw [h1] at h; dsimp only at h
      obtain ⟨a', ha⟩ := geodesic_mono hd m h1
      rw [ha]; dsimp only
      cases h2 : DefModule.geodesics man ms with
      | error e => rw [h2] at h; cases h
      | ok b =>
        obtain ⟨b', hb⟩ := geodesics_mono hd ms h2
        rw [hb]; exact ⟨_, rfl⟩
end

end
end Imodal
