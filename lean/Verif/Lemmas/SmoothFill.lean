import Verif.Lemmas.HamSmooth
import Verif.Lemmas.TurnGrad
import Verif.Spec.SmoothCtrl
/-!
# The Hamiltonian with given controls depends smoothly on descriptors and momenta
-/
set_option autoImplicit false
namespace Imodal
noncomputable section
open Matrix Filter Topology
variable {d : Nat} {E : Type} [NormedAddCommGroup E] [NormedSpace ℝ E] {n : WithTop ℕ∞} {e₀ : E}

/-- Near `e₀` the controls can be set, and the pairing of the momentum with the field minus the cost is a smooth
function. -/
def SmFill (n : WithTop ℕ∞) (e₀ : E) (man : E → Mfd d) (c : E → Ctrl d) (m : E → DefModule d) : Prop :=
  ∃ H : E → ℝ, ContDiffAt ℝ n H e₀ ∧ ∀ᶠ e in 𝓝 e₀, ∃ m', (m e).fillControls (c e) = .ok m' ∧
    ∃ (ι : Type) (_ : Fintype ι) (Q : Matrix ι ι ℝ) (s h : ι → ℝ), Has (man e) Q s h m' ∧ H e = h ⬝ᵥ s - 1 / 2 * (h ⬝ᵥ Q *ᵥ h)

def SmFillAll (n : WithTop ℕ∞) (e₀ : E) (man : E → Mfd d) (cs : E → List (Ctrl d)) (ms : E → List (DefModule d)) : Prop :=
  ∃ H : E → ℝ, ContDiffAt ℝ n H e₀ ∧ ∀ᶠ e in 𝓝 e₀, ∃ ms', DefModule.fillAll (ms e) (cs e) = .ok ms' ∧
    ∃ (ι : Type) (_ : Fintype ι) (Q : Matrix ι ι ℝ) (s h : ι → ℝ), HasAll (man e) Q s h ms' ∧ H e = h ⬝ᵥ s - 1 / 2 * (h ⬝ᵥ Q *ᵥ h)

/-! ## Varying controls -/

theorem smCtrl_vecs {c : E → Ctrl d} (hc : SmCtrl n e₀ c) {k : Nat} {h₀ : Fin k → Vec d} (h : c e₀ = .vecs h₀) :
    ∃ h : E → Fin k → Vec d, c = (fun e => .vecs (h e)) ∧ ∀ i b, ContDiffAt ℝ n (fun e => h e i b) e₀ := by
  cases hc with
  | vecs f hf =>
    have hk := (Ctrl.vecs.inj h).1
    subst hk
    exact ⟨f, rfl, hf⟩
  | _ => cases h

theorem smCtrl_scalars {c : E → Ctrl d} (hc : SmCtrl n e₀ c) {k : Nat} {h₀ : Fin k → ℝ} (h : c e₀ = .scalars h₀) :
    ∃ h : E → Fin k → ℝ, c = (fun e => .scalars (h e)) ∧ ∀ i, ContDiffAt ℝ n (fun e => h e i) e₀ := by
  cases hc with
  | scalars f hf =>
    have hk := (Ctrl.scalars.inj h).1
    subst hk
    exact ⟨f, rfl, hf⟩
  | _ => cases h

theorem smCtrl_scalar {c : E → Ctrl d} (hc : SmCtrl n e₀ c) {h₀ : ℝ} (h : c e₀ = .scalar h₀) :
    ∃ h : E → ℝ, c = (fun e => .scalar (h e)) ∧ ContDiffAt ℝ n h e₀ := by
  cases hc with
  | scalar f hf => exact ⟨f, rfl, hf⟩
  | _ => cases h

theorem smCtrl_vec {c : E → Ctrl d} (hc : SmCtrl n e₀ c) {h₀ : Vec d} (h : c e₀ = .vec h₀) :
    ∃ h : E → Vec d, c = (fun e => .vec (h e)) ∧ ∀ b, ContDiffAt ℝ n (fun e => h e b) e₀ := by
  cases hc with
  | vec f hf => exact ⟨f, rfl, hf⟩
  | _ => cases h

theorem smCtrl_list {c : E → Ctrl d} (hc : SmCtrl n e₀ c) {cs₀ : List (Ctrl d)} (h : c e₀ = .list cs₀) :
    ∃ cs : List (E → Ctrl d), c = (fun e => .list (cs.map fun c => c e)) ∧ (∀ c ∈ cs, SmCtrl n e₀ c) ∧ cs₀ = cs.map fun c => c e₀ := by
  cases hc with
  | list cs hcs => exact ⟨cs, rfl, hcs, (Ctrl.list.inj h).symm⟩
  | _ => cases h

mutual
theorem smCtrl_const : (c : Ctrl d) → SmCtrl n e₀ fun _ => c
  | .vecs h => .vecs (fun _ => h) fun _ _ => contDiffAt_const
  | .scalars h => .scalars (fun _ => h) fun _ => contDiffAt_const
  | .scalar h => .scalar (fun _ => h) contDiffAt_const
  | .vec h => .vec (fun _ => h) fun _ => contDiffAt_const
  | .none => .none
  | .list cs => by
    have h := SmCtrl.list (n := n) (e₀ := e₀) (cs.map fun c _ => c) fun c hc => smCtrl_consts cs c hc
    simp only [List.map_map, Function.comp_def, List.map_id'] at h
    exact h
theorem smCtrl_consts : (cs : List (Ctrl d)) → ∀ c ∈ cs.map (fun c (_ : E) => c), SmCtrl n e₀ c
  | [], c, hc => by cases hc
  | c' :: cs, c, hc => by
    rcases List.mem_cons.1 hc with rfl | hc
    · exact smCtrl_const c'
    · exact smCtrl_consts cs c hc
end

theorem smFill_leaf {κ : Type} [Fintype κ] {man : E → Mfd d} {c : E → Ctrl d} {m : E → DefModule d} {Q : E → Matrix κ κ ℝ} {s : E → κ → ℝ}
    {h : E → κ → ℝ} (hh : ∀ k, ContDiffAt ℝ n (fun e => h e k) e₀) (hQ : SmMat n e₀ Q) (hs : ∀ k, ContDiffAt ℝ n (fun e => s e k) e₀)
    (hg : ∀ᶠ e in 𝓝 e₀, ∃ m', (m e).fillControls (c e) = .ok m' ∧ Has (man e) (Q e) (s e) (h e) m') : SmFill n e₀ man c m := by
  refine ⟨fun e => h e ⬝ᵥ s e - 1 / 2 * (h e ⬝ᵥ Q e *ᵥ h e), ?_, ?_⟩
  · simp only [dotProduct]
    exact (sm_sum fun k => (hh k).mul (hs k)).sub
      (contDiffAt_const.mul (sm_sum fun k => (hh k).mul (hQ.mulVec (x := h) hh k)))
  · filter_upwards [hg] with e ⟨m', h1, h2⟩
    exact ⟨m', h1, κ, inferInstance, Q e, s e, h e, h2, rfl⟩

section leaves
variable {man : E → Mfd d} (hM : SmAtoms n e₀ fun e => momAtoms (man e)) {c : E → Ctrl d} (hc : SmCtrl n e₀ c)
include hM hc

theorem smFill_translations {k : Nat} (m : Translations d k) {x : E → Fin k → Vec d} (y : E → Fin k → Vec d) (hx : ∀ i, SmVec n e₀ fun e => x e i)
    (hok : ∃ m', (DefModule.translations { m with gd := x e₀, cot := y e₀ }).fillControls (c e₀) = .ok m') :
    SmFill n e₀ man c fun e => .translations { m with gd := x e, cot := y e } := by
  obtain ⟨_, hok⟩ := hok
  obtain ⟨h₀, h0, -⟩ := fill_translations hok
  obtain ⟨h, rfl, hh⟩ := smCtrl_vecs hc h0
  refine smFill_leaf (h := fun e q => h e q.1 q.2) (fun q => hh q.1 q.2) (sm_gramMat m.σ (sm_point hx)) (sm_dualVec m.σ (sm_point hx) hM) (.of_forall fun e => ?_)
  exact ⟨_, by rw [DefModule.fillControls, dif_pos rfl], Translations.has (man e) { m with gd := x e, cot := y e, ctrl := h e }⟩

theorem smFill_implicit0 {k : Nat} (m : Implicit0 d k) {x : E → Fin k → Vec d} (y : E → Fin k → Vec d) (hx : ∀ i, SmVec n e₀ fun e => x e i)
    (hok : ∃ m', (DefModule.implicit0 { m with gd := x e₀, cot := y e₀ }).fillControls (c e₀) = .ok m') :
    SmFill n e₀ man c fun e => .implicit0 { m with gd := x e, cot := y e } := by
  obtain ⟨_, hok⟩ := hok
  obtain ⟨h₀, h0, -⟩ := fill_implicit0 hok
  obtain ⟨h, rfl, hh⟩ := smCtrl_vecs hc h0
  refine smFill_leaf (h := fun e q => h e q.1 q.2) (fun q => hh q.1 q.2) (((sm_gramMat m.σ (sm_point hx)).add (smMat_const (m.ν • 1))).smul m.coeff)
    (sm_dualVec m.σ (sm_point hx) hM) (.of_forall fun e => ?_)
  exact ⟨_, by rw [DefModule.fillControls, dif_pos rfl], Implicit0.has (man e) { m with gd := x e, cot := y e, ctrl := h e }⟩

theorem smFill_oriented {k : Nat} (m : Oriented d k) {x u : E → Fin k → Vec d} (y y' : E → Fin k → Vec d) (hx : ∀ i, SmVec n e₀ fun e => x e i)
    (hu : ∀ i, SmVec n e₀ fun e => u e i)
    (hok : ∃ m', (DefModule.oriented { m with gd := x e₀, dir := u e₀, cot := y e₀, cdir := y' e₀ }).fillControls (c e₀) = .ok m') :
    SmFill n e₀ man c fun e => .oriented { m with gd := x e, dir := u e, cot := y e, cdir := y' e } := by
  obtain ⟨_, hok⟩ := hok
  obtain ⟨h₀, h0, -⟩ := fill_oriented hok
  obtain ⟨h, rfl, hh⟩ := smCtrl_scalars hc h0
  refine smFill_leaf (h := h) hh ((sm_gramMat m.σ (sm_dir hx hu)).smul m.coeff) (sm_dualVec m.σ (sm_dir hx hu) hM) (.of_forall fun e => ?_)
  exact ⟨_, by rw [DefModule.fillControls, dif_pos rfl],
    Oriented.has (man e) { m with gd := x e, dir := u e, cot := y e, cdir := y' e, ctrl := h e }⟩

theorem smFill_global (m : GlobalTranslation d) (hok : ∃ m', (DefModule.globalTranslation m).fillControls (c e₀) = .ok m') :
    SmFill n e₀ man c fun _ => .globalTranslation m := by
  obtain ⟨_, hok⟩ := hok
  obtain ⟨h₀, h0, -⟩ := fill_global hok
  obtain ⟨h, rfl, hh⟩ := smCtrl_vec hc h0
  refine smFill_leaf (h := h) hh (smMat_const (m.coeff • 1)) (s := fun e => constDual (man e)) (fun i => ?_) (.of_forall fun e => ?_)
  · unfold constDual
    refine sm_pair hM fun y hy => ⟨fun c => ?_, fun b c => ?_⟩
    · simp only [fieldVal_const]; exact contDiffAt_const
    · simp only [fieldJac_const]; exact contDiffAt_const
  · exact ⟨_, by rw [DefModule.fillControls], GlobalTranslation.has (man e) { m with ctrl := h e }⟩

theorem smFill_linear (m : Linear d) {x : E → Vec d} (y : E → Vec d) (hx : SmVec n e₀ x)
    (hok : ∃ m', (DefModule.linear { m with gd := x e₀, cot := y e₀ }).fillControls (c e₀) = .ok m') :
    SmFill n e₀ man c fun e => .linear { m with gd := x e, cot := y e } := by
  obtain ⟨_, hok⟩ := hok
  obtain ⟨h₀, h0, -⟩ := fill_linear hok
  obtain ⟨h, rfl, hh⟩ := smCtrl_scalar hc h0
  refine smFill_leaf (h := fun e _ => h e) (fun _ => hh) (smMat_const (Matrix.of fun _ _ : Unit => m.coeff))
    (s := fun e _ => Linear.unit { m with gd := x e, cot := y e } (man e)) (fun _ => ?_) (.of_forall fun e => ?_)
  · unfold Linear.unit
    refine sm_pair hM fun y hy => ⟨fun b => ?_, fun a b => ?_⟩
    · simp only [fieldVal_affine]
      exact (sm_sum fun k => ((hy k).sub (hx k)).mul contDiffAt_const).add contDiffAt_const
    · simp only [fieldJac_affine]; exact contDiffAt_const
  · exact ⟨_, by rw [DefModule.fillControls], Linear.has (man e) { m with gd := x e, cot := y e, ctrl := h e }⟩

theorem smFill_constrained {k p : Nat} (m : Constrained d k p) {x : E → Fin k → Vec d} (y : E → Fin k → Vec d) (hx : ∀ i, SmVec n e₀ fun e => x e i)
    (hs : ContDiffAt ℝ n m.fsupp (x e₀)) (hv : ContDiffAt ℝ n m.fvec (x e₀))
    (hok : ∃ m', (DefModule.constrained { m with gd := x e₀, cot := y e₀ }).fillControls (c e₀) = .ok m') :
    SmFill n e₀ man c fun e => .constrained { m with gd := x e, cot := y e } := by
  obtain ⟨_, hok⟩ := hok
  obtain ⟨h₀, h0, -⟩ := fill_constrained hok
  obtain ⟨h, rfl, hh⟩ := smCtrl_scalar hc h0
  have hx' : ContDiffAt ℝ n x e₀ := contDiffAt_pi.2 fun i => contDiffAt_pi.2 fun b => hx i b
  have hS : ∀ i, SmVec n e₀ fun e => m.fsupp (x e) i := fun i b => contDiffAt_pi.1 (contDiffAt_pi.1 (hs.comp e₀ hx') i) b
  have hV : ∀ i, SmVec n e₀ fun e => m.fvec (x e) i := fun i b => contDiffAt_pi.1 (contDiffAt_pi.1 (hv.comp e₀ hx') i) b
  have hE : ContDiffAt ℝ n (fun e => Constrained.energy { m with gd := x e, cot := y e }) e₀ := by
    simp only [Constrained.energy_eq, dotProduct]
    exact sm_sum fun q => (hV q.1 q.2).mul ((sm_gramMat m.σ (sm_point hS)).mulVec (fun q => hV q.1 q.2) q)
  refine smFill_leaf (h := fun e _ => h e) (fun _ => hh) (Q := fun e => Matrix.of fun _ _ : Unit => m.coeff * Constrained.energy { m with gd := x e, cot := y e })
    (s := fun e _ => Constrained.unit { m with gd := x e, cot := y e } (man e)) (fun _ _ => contDiffAt_const.mul hE) (fun _ => ?_)
    (.of_forall fun e => ?_)
  · unfold Constrained.unit
    exact sm_gram m.σ hM (smAtoms_ofFn fun i => smAtom0 (hS i) (hV i))
  · exact ⟨_, by rw [DefModule.fillControls], Constrained.has (man e) { m with gd := x e, cot := y e, ctrl := h e }⟩

theorem smFill_implicit1 {k p : Nat} (m : Implicit1 d k p) {x : E → Fin k → Vec d} {R : E → Fin k → Mat d} (y : E → Fin k → Vec d)
    (y' : E → Fin k → Mat d) (hx : ∀ i, SmVec n e₀ fun e => x e i) (hR : ∀ i, SmMat n e₀ fun e => R e i)
    (hok : ∃ m', (DefModule.implicit1 { m with gd := x e₀, R := R e₀, cot := y e₀, cR := y' e₀ }).fillControls (c e₀) = .ok m') :
    SmFill n e₀ man c fun e => .implicit1 { m with gd := x e, R := R e, cot := y e, cR := y' e } := by
  obtain ⟨_, hok⟩ := hok
  obtain ⟨h₀, a, h0, hf, -⟩ := fill_implicit1 hok
  obtain ⟨h, rfl, hh⟩ := smCtrl_scalars hc h0
  have hSd := (Implicit1.fill_ok hf).1
  have hA : SmMat n e₀ fun e => Implicit1.A { m with gd := x e, R := R e, cot := y e, cR := y' e } := fun q l => by
    unfold Implicit1.A
    simp only [Matrix.of_apply]
    refine sm_sum fun a => sm_sum fun i => sm_sum fun v => ?_
    exact (((hR _ _ _).mul contDiffAt_const).mul (hR _ _ _)).mul contDiffAt_const
  have hS : SmMat n e₀ fun e => Implicit1.sks { m with gd := x e, R := R e, cot := y e, cR := y' e } := by
    simp only [Implicit1.sks_eq]
    exact (sm_gramMat m.σ (sm_strain hx)).add (smMat_const (m.ν • 1))
  have hW := (hA.transpose.mul (hS.inv hSd)).mul hA
  refine smFill_leaf (h := h) hh (Q := fun e => Implicit1.Q { m with gd := x e, R := R e, cot := y e, cR := y' e }) (hW.smul m.coeff)
    (s := fun e => Implicit1.dual { m with gd := x e, R := R e, cot := y e, cR := y' e } (man e)) (fun i => ?_) ?_
  · exact hA.transpose.mulVec ((hS.inv hSd).mulVec (sm_dualVec m.σ (sm_strain hx) hM)) i
  · filter_upwards [det_eventually hS hSd] with e hse
    exact ⟨_, by rw [DefModule.fillControls, dif_pos rfl, Implicit1.fill_of_det hse]; rfl, Implicit1.has _ _ (h e)⟩

theorem smFill_divFree {N P : Nat} (m : DivFree d N P) {x : E → Fin (N + P) → Vec d} (y : E → Fin (N + P) → Vec d)
    (hx : ∀ i, SmVec n e₀ fun e => x e i) (hok : ∃ m', (DefModule.divFree { m with gd := x e₀, cot := y e₀ }).fillControls (c e₀) = .ok m') :
    SmFill n e₀ man c fun e => .divFree { m with gd := x e, cot := y e } := by
  obtain ⟨_, hok⟩ := hok
  obtain ⟨h₀, a, h0, hf, -⟩ := fill_divFree hok
  obtain ⟨h, rfl, hh⟩ := smCtrl_vecs hc h0
  have hSd := (DivFree.fill_ok hf).1
  have hF : ∀ q, SmAtom n e₀ fun e => DivFree.fam { m with gd := x e, cot := y e } q := by
    rintro (i | q)
    · exact sm_divAtom m.coeffDiv (x := fun e => DivFree.X { m with gd := x e, cot := y e }) (fun i => hx _) i
    · exact sm_point (x := fun e => DivFree.Y { m with gd := x e, cot := y e }) (fun i => hx _) q
  have hS : SmMat n e₀ fun e => DivFree.SKS { m with gd := x e, cot := y e } := by
    simp only [DivFree.SKS_eq]
    exact (sm_gramMat m.σ hF).add (smMat_const (m.ν • 1))
  refine smFill_leaf (h := fun e q => h e q.1 q.2) (fun q => hh q.1 q.2) (Q := fun e => DivFree.Q { m with gd := x e, cot := y e })
    (((smMat_const _).mul (hS.inv hSd)).mul (smMat_const _) |>.smul m.coeff)
    (s := fun e => DivFree.dual { m with gd := x e, cot := y e } (man e))
    (fun i => (smMat_const _).mulVec ((hS.inv hSd).mulVec (sm_dualVec m.σ hF hM)) i) ?_
  filter_upwards [det_eventually hS hSd] with e hse
  exact ⟨_, by rw [DefModule.fillControls, dif_pos rfl, DivFree.fill_of_det hse]; rfl, DivFree.has _ _ (h e)⟩

theorem smFill_arap {N P : Nat} (m : Arap d N P) {x : E → Fin (N + P) → Vec d} (y : E → Fin (N + P) → Vec d)
    (hx : ∀ i, SmVec n e₀ fun e => x e i) (hok : ∃ m', (DefModule.arap { m with gd := x e₀, cot := y e₀ }).fillControls (c e₀) = .ok m') :
    SmFill n e₀ man c fun e => .arap { m with gd := x e, cot := y e } := by
  obtain ⟨_, hok⟩ := hok
  obtain ⟨h₀, a, h0, hf, -⟩ := fill_arap hok
  obtain ⟨h, rfl, hh⟩ := smCtrl_vecs hc h0
  have hSd := (Arap.fill_ok hf).1
  have hF : ∀ q, SmAtom n e₀ fun e => Arap.fam { m with gd := x e, cot := y e } q := by
    rintro (i | q)
    · exact sm_arapAtom m.coeffArap (x := fun e => Arap.X { m with gd := x e, cot := y e }) (fun i => hx _) i
    · exact sm_point (x := fun e => Arap.Y { m with gd := x e, cot := y e }) (fun i => hx _) q
  have hS : SmMat n e₀ fun e => Arap.SKS { m with gd := x e, cot := y e } := by
    simp only [Arap.SKS_eq]
    exact (sm_gramMat m.σ hF).add (smMat_const (m.ν • 1))
  refine smFill_leaf (h := fun e q => h e q.1 q.2) (fun q => hh q.1 q.2) (Q := fun e => Arap.Q { m with gd := x e, cot := y e })
    (((smMat_const _).mul (hS.inv hSd)).mul (smMat_const _) |>.smul m.coeff)
    (s := fun e => Arap.dual { m with gd := x e, cot := y e } (man e))
    (fun i => (smMat_const _).mulVec ((hS.inv hSd).mulVec (sm_dualVec m.σ hF hM)) i) ?_
  filter_upwards [det_eventually hS hSd] with e hse
  exact ⟨_, by rw [DefModule.fillControls, dif_pos rfl, Arap.fill_of_det hse]; rfl, Arap.has _ _ (h e)⟩

end leaves

theorem smFill_silent (man : E → Mfd d) (c : E → Ctrl d) (s : E → Mfd d) : SmFill n e₀ man c fun e => .silent (s e) := by
  refine ⟨fun _ => 0, contDiffAt_const, .of_forall fun e => ⟨.silent (s e), by rw [DefModule.fillControls], ?_⟩⟩
  obtain ⟨h, h1, h2⟩ := (silentQuad (man e) (s e)).geo _ (by rw [DefModule.geodesic])
  refine ⟨Empty, inferInstance, 0, fun _ => 0, h, h1, ?_⟩
  simp [dotProduct]

theorem smFillAll_nil (man : E → Mfd d) (cs : E → List (Ctrl d)) : SmFillAll n e₀ man cs fun _ => [] :=
  ⟨fun _ => 0, contDiffAt_const, .of_forall fun e => ⟨[], fillAll_nil (cs e), Empty, inferInstance, 0, fun _ => 0, fun _ => 0,
    hasAll_nil (man e), by simp [dotProduct]⟩⟩

theorem smFillAll_cons {man : E → Mfd d} {c : E → Ctrl d} {cs : E → List (Ctrl d)} {m : E → DefModule d} {ms : E → List (DefModule d)}
    (h1 : SmFill n e₀ man c m) (h2 : SmFillAll n e₀ man cs ms) : SmFillAll n e₀ man (fun e => c e :: cs e) fun e => m e :: ms e := by
  obtain ⟨H, hH, h1⟩ := h1
  obtain ⟨K, hK, h2⟩ := h2
  refine ⟨fun e => H e + K e, hH.add hK, ?_⟩
  filter_upwards [h1, h2] with e ⟨m', g1, ι, i1, Q, s, h, a1, a2⟩ ⟨ms', g2, κ, i2, R, t, k, b1, b2⟩
  refine ⟨m' :: ms', by rw [DefModule.fillAll, g1]; dsimp only; rw [g2], ι ⊕ κ, inferInstance, _, _, _, hasAll_cons a1 b1, ?_⟩
  rw [fromBlocks_mulVec, zero_mulVec, zero_mulVec, add_zero, zero_add, Sum.elim_comp_inl, Sum.elim_comp_inr, block_dot, block_dot, a2, b2]; ring

theorem smFill_compound {man : E → Mfd d} {cs : E → List (Ctrl d)} {ms : E → List (DefModule d)} (hl : ∀ e, (cs e).length = (ms e).length)
    (hne : ∀ e, ms e ≠ []) (h : SmFillAll n e₀ man cs ms) : SmFill n e₀ man (fun e => .list (cs e)) fun e => .compound (ms e) := by
  obtain ⟨H, hH, h⟩ := h
  refine ⟨H, hH, ?_⟩
  filter_upwards [h] with e ⟨ms', g, ι, i, Q, s, h, a1, a2⟩
  refine ⟨.compound ms', by rw [DefModule.fillControls, if_pos (hl e), g], ι, i, Q, s, h, has_compound ?_ a1, a2⟩
  exact ne_nil_of_length (fillAll_length (hl e) g) (hne e)

theorem withAll_length (x y : Row) : (ms : List (DefModule d)) → (o o' : Nat) →
    (DefModule.withCotAll y o' (DefModule.withGdAll x o ms)).length = ms.length
  | [], _, _ => by rw [DefModule.withGdAll, DefModule.withCotAll]
  | m :: ms, o, o' => by rw [DefModule.withGdAll, DefModule.withCotAll, List.length_cons, List.length_cons, withAll_length x y ms]

section all
variable {man : E → Mfd d} (hM : SmAtoms n e₀ fun e => momAtoms (man e)) {J : Prop} {q : E → Row} (p : E → Row)
  (hq : ∀ j, ContDiffAt ℝ n (fun e => q e j) e₀)
include hM hq

mutual
/-- If the controls can be set at some descriptors and momenta, they can be set nearby, and the Hamiltonian with
these controls is smooth. -/
theorem ok_smFill : (m : DefModule d) → (o o' : Nat) → {c : E → Ctrl d} → SmCtrl n e₀ c → (m.withGd (q e₀) o).Tame n J →
    (∃ m', ((m.withGd (q e₀) o).withCot (p e₀) o').fillControls (c e₀) = .ok m') → SmFill n e₀ man c fun e => (m.withGd (q e) o).withCot (p e) o'
  | .translations m, o, o', c, hc, ht, h => by
    simp only [DefModule.withGd, DefModule.Tame, DefModule.withCot] at ht h ⊢
    exact smFill_translations hM hc m _ (sm_view hq _) h
  | .implicit0 m, o, o', c, hc, ht, h => by
    simp only [DefModule.withGd, DefModule.Tame, DefModule.withCot] at ht h ⊢
    exact smFill_implicit0 hM hc m _ (sm_view hq _) h
  | .oriented m, o, o', c, hc, ht, h => by
    simp only [DefModule.withGd, DefModule.Tame, DefModule.withCot] at ht h ⊢
    exact smFill_oriented hM hc m _ _ (sm_view hq _) (sm_view hq _) h
  | .constrained m, o, o', c, hc, ht, h => by
    simp only [DefModule.withGd, DefModule.Tame, DefModule.withCot] at ht h ⊢
    exact smFill_constrained hM hc m _ (sm_view hq _) ht.1 ht.2 h
  | .globalTranslation m, o, o', c, hc, ht, h => by
    simp only [DefModule.withGd, DefModule.Tame, DefModule.withCot] at ht h ⊢
    exact smFill_global hM hc m h
  | .linear m, o, o', c, hc, ht, h => by
    simp only [DefModule.withGd, DefModule.Tame, DefModule.withCot] at ht h ⊢
    exact smFill_linear hM hc m _ (sm_view hq _ 0) h
  | .implicit1 m, o, o', c, hc, ht, h => by
    simp only [DefModule.withGd, DefModule.Tame, DefModule.withCot] at ht h ⊢
    exact smFill_implicit1 hM hc m _ _ (sm_view hq _) (sm_viewMat hq _) h
  | .divFree m, o, o', c, hc, ht, h => by
    simp only [DefModule.withGd, DefModule.Tame, DefModule.withCot] at ht h ⊢
    exact smFill_divFree hM hc m _ (sm_view hq _) h
  | .arap m, o, o', c, hc, ht, h => by
    simp only [DefModule.withGd, DefModule.Tame, DefModule.withCot] at ht h ⊢
    exact smFill_arap hM hc m _ (sm_view hq _) h
  | .silent s, o, o', c, hc, ht, h => by
    simp only [DefModule.withGd, DefModule.withCot]
    exact smFill_silent man c _
  | .compound ms, o, o', c, hc, ht, h => by
    simp only [DefModule.withGd, DefModule.Tame, DefModule.withCot] at ht h ⊢
    obtain ⟨m', h⟩ := h
    obtain ⟨cs₀, ms', h0, hl, hf, -⟩ := fill_compound h
    obtain ⟨cs, rfl, hcs, rfl⟩ := smCtrl_list hc h0
    rw [withAll_length, List.length_map] at hl
    refine smFill_compound (fun e => by rw [List.length_map, hl, withAll_length]) (fun e => ?_) (ok_smFillAll ms o o' cs hcs ht.2 hl ⟨ms', hf⟩)
    cases ms with
    | nil => rw [DefModule.withGdAll] at ht; exact absurd rfl ht.1
    | cons m ms => rw [DefModule.withGdAll, DefModule.withCotAll]; exact List.cons_ne_nil _ _
theorem ok_smFillAll : (ms : List (DefModule d)) → (o o' : Nat) → (cs : List (E → Ctrl d)) → (∀ c ∈ cs, SmCtrl n e₀ c) → DefModule.AllTame n J (DefModule.withGdAll (q e₀) o ms) →
    cs.length = ms.length → (∃ ms', DefModule.fillAll (DefModule.withCotAll (p e₀) o' (DefModule.withGdAll (q e₀) o ms)) (cs.map fun c => c e₀) = .ok ms') →
    SmFillAll n e₀ man (fun e => cs.map fun c => c e) fun e => DefModule.withCotAll (p e) o' (DefModule.withGdAll (q e) o ms)
  | [], o, o', cs, hcs, ht, hl, h => by
    simp only [DefModule.withGdAll, DefModule.withCotAll]
    exact smFillAll_nil man _
  | m :: ms, o, o', [], hcs, ht, hl, h => by cases hl
  | m :: ms, o, o', c :: cs, hcs, ht, hl, h => by
    simp only [DefModule.withGdAll, DefModule.AllTame, DefModule.withCotAll, DefModule.manifold_withGd, Mfd.size_withGd] at ht h ⊢
    obtain ⟨ms', h⟩ := h
    rw [List.map_cons, DefModule.fillAll] at h
    split at h
    · cases h
    · rename_i m' hm
      split at h
      · cases h
      · rename_i ms'' hms
        exact smFillAll_cons (ok_smFill m o o' (hcs c (List.mem_cons_self ..)) ht.1 ⟨m', hm⟩)
          (ok_smFillAll ms _ _ cs (fun c hc => hcs c (List.mem_cons_of_mem _ hc)) ht.2 (by simpa using hl) ⟨ms'', hms⟩)
end
end all

/-- Where given controls can be set, they can be set nearby, and the Hamiltonian is smooth. -/
theorem ham_fill_smooth {J : Prop} {m : DefModule d} (hm : m.SmoothParts n J) {c : Ctrl d} {q p : E → Row}
    (hq : ∀ j, ContDiffAt ℝ n (fun e => q e j) e₀) (hp : ∀ j, ContDiffAt ℝ n (fun e => p e j) e₀)
    (hok : ∃ m', (rowsMod m (q e₀, p e₀)).fillControls c = .ok m') :
    ContDiffAt ℝ n (fun e => valD (hamFn (fun m => m.fillControls c) m (q e) (p e))) e₀ := by
  have hman : ∀ e, (rowsMod m (q e, p e)).manifold = (m.manifold.withGd (q e) 0).withCot (p e) 0 := fun e => by
    unfold rowsMod; rw [DefModule.manifold_withCot, DefModule.manifold_withGd]
  obtain ⟨H, hH, h⟩ := ok_smFill (n := n) (e₀ := e₀) (man := fun e => (rowsMod m (q e, p e)).manifold) (J := J)
    (by simp only [hman]; exact sm_momAtoms hq hp _ _ _) p hq m 0 0 (c := fun _ => c) (smCtrl_const c) (smooth_tame _ m 0 hm) hok
  refine hH.congr_of_eventuallyEq ?_
  filter_upwards [h] with e ⟨m', hm', ι, i, Q, s, h, a1, a2⟩
  have hf : (rowsMod m (q e, p e)).fillControls c = .ok m' := hm'
  have e1 : hamFn (fun m => m.fillControls c) m (q e) (p e) = Hamiltonian.value m' := by
    unfold hamFn
    rw [withRows_eq]
    dsimp only
    unfold rowsMod at hf
    dsimp only at hf
    rw [hf]
  rw [e1]
  unfold Hamiltonian.value
  rw [fill_manifold _ hf, hamiltonianOn_has a1, a2]
  rfl

theorem smoothAt_fill {J : Prop} {m : DefModule d} (h : m.SmoothParts 1 J) (cs : List (Ctrl d)) (i : Nat) :
    SmoothAt (setControls (some cs) i) m := fun x m' hx => by
  cases hc : cs[i]? with
  | none => unfold setControls at hx; simp only [hc] at hx; cases hx
  | some c =>
    have e : setControls (some cs) i = fun m : DefModule d => m.fillControls c := by
      funext m; unfold setControls; simp only [hc]
    rw [e] at hx ⊢
    refine (ham_fill_smooth (e₀ := entries (numCoords m) x) h (fun j => sm_extRow contDiffAt_fst j) (fun j => sm_extRow contDiffAt_snd j)
      ⟨m', ?_⟩).differentiableAt one_ne_zero
    rw [rowsMod_congr m (x := (extRow (entries (numCoords m) x).1, extRow (entries (numCoords m) x).2)) (y := x)
      (fun j hj => extRow_lt _ hj) (fun j hj => extRow_lt _ hj)]
    exact hx

theorem gradMoves_fill {J : Prop} {g : Rigid d} {m : DefModule d} (h : m.Movable g) (hs : m.SmoothParts 1 J) (cs : List (Ctrl d)) (i : Nat) :
    GradMoves g (setControls (some cs) i) (setControls (some (cs.map (Ctrl.move g))) i) m :=
  gradMoves_of_smooth (prep_setControls g (some cs) i) (setControls_resetFree _ i) (setControls_resetFree _ i) h (smoothAt_fill hs cs i)
    ((smoothAt_fill hs _ i).same (setControls_resetFree _ i) (numCoords_move g m) (same_move g m))

end
end Imodal
