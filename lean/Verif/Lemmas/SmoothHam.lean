import Verif.Lemmas.SmoothAtoms
import Verif.Lemmas.Regular
import Verif.Props.C29
import Verif.Lemmas.GeoIff
/-!
# The Hamiltonian with geodesic controls depends smoothly on descriptors and momenta
-/
set_option autoImplicit false
namespace Imodal
noncomputable section
open Matrix Filter Topology
variable {d : Nat} {E : Type} [NormedAddCommGroup E] [NormedSpace ℝ E] {n : WithTop ℕ∞} {e₀ : E}

/-- Near `e₀` geodesic controls exist, and half the pairing of the momentum with the field they
generate is a smooth function. -/
def SmGeo (n : WithTop ℕ∞) (e₀ : E) (man : E → Mfd d) (m : E → DefModule d) : Prop :=
  ∃ H : E → ℝ, ContDiffAt ℝ n H e₀ ∧ ∀ᶠ e in 𝓝 e₀, ∃ m', (m e).geodesic (man e) = .ok m' ∧
    ∃ (ι : Type) (_ : Fintype ι) (Q : Matrix ι ι ℝ) (s h : ι → ℝ), Has (man e) Q s h m' ∧ Q *ᵥ h = s ∧ H e = 1 / 2 * (h ⬝ᵥ s)

def SmGeoAll (n : WithTop ℕ∞) (e₀ : E) (man : E → Mfd d) (ms : E → List (DefModule d)) : Prop :=
  ∃ H : E → ℝ, ContDiffAt ℝ n H e₀ ∧ ∀ᶠ e in 𝓝 e₀, ∃ ms', DefModule.geodesics (man e) (ms e) = .ok ms' ∧
    ∃ (ι : Type) (_ : Fintype ι) (Q : Matrix ι ι ℝ) (s h : ι → ℝ), HasAll (man e) Q s h ms' ∧ Q *ᵥ h = s ∧ H e = 1 / 2 * (h ⬝ᵥ s)

theorem smGeo_leaf {κ : Type} [Fintype κ] [DecidableEq κ] {man : E → Mfd d} {m : E → DefModule d} {Q : E → Matrix κ κ ℝ} {s : E → κ → ℝ}
    (hQ : SmMat n e₀ Q) (hs : ∀ k, ContDiffAt ℝ n (fun e => s e k) e₀) (hd : (Q e₀).det ≠ 0)
    (hg : ∀ᶠ e in 𝓝 e₀, ∃ m', (m e).geodesic (man e) = .ok m')
    (hh : ∀ e m', (m e).geodesic (man e) = .ok m' → ∃ h, Has (man e) (Q e) (s e) h m' ∧ Q e *ᵥ h = s e) : SmGeo n e₀ man m := by
  refine ⟨fun e => 1 / 2 * (((Q e)⁻¹ *ᵥ s e) ⬝ᵥ s e), ?_, ?_⟩
  · simp only [dotProduct]
    exact contDiffAt_const.mul (sm_sum fun k => ((hQ.inv hd).mulVec hs k).mul (hs k))
  · filter_upwards [hg, det_eventually hQ hd] with e ⟨m', hm⟩ hde
    obtain ⟨h, h1, h2⟩ := hh e m' hm
    refine ⟨m', hm, κ, inferInstance, Q e, s e, h, h1, h2, ?_⟩
    rw [← h2, mulVec_mulVec, nonsing_inv_mul _ (Ne.isUnit hde), one_mulVec]

theorem gramMat_point_det {k : Nat} {σ ν : ℝ} (x : Fin k → Vec d) (hd : (Matrix.of (kXX σ x) + ν • (1 : Matrix (Fin k) (Fin k) ℝ)).det ≠ 0) :
    (gramMat σ (pointAtom x) + ν • (1 : Matrix (Fin k × Fin d) (Fin k × Fin d) ℝ)).det ≠ 0 := by
  intro h
  obtain ⟨l, hl, h0⟩ := Matrix.exists_mulVec_eq_zero_iff.mpr h
  apply hl
  funext q
  obtain ⟨i, c⟩ := q
  by_contra hne
  refine hd (Matrix.exists_mulVec_eq_zero_iff.mp ⟨fun j => l (j, c), fun e => hne (congrFun e i), ?_⟩)
  funext j
  have := congrFun h0 (j, c)
  rw [add_mulVec, smul_mulVec, one_mulVec, Pi.add_apply, gramMat_point_mulVec] at this
  refine Eq.trans ?_ this
  rw [add_mulVec, smul_mulVec, one_mulVec, Pi.add_apply, mulVec, dotProduct]
  refine congrArg₂ (· + ·) (Finset.sum_congr rfl fun a _ => by rw [Matrix.of_apply, kXX_eq]) rfl

theorem smul_det_ne {κ : Type} [Fintype κ] [DecidableEq κ] {t : ℝ} (ht : t ≠ 0) {Q : Matrix κ κ ℝ} (h : Q.det ≠ 0) : (t • Q).det ≠ 0 := by
  rw [Matrix.det_smul]
  exact mul_ne_zero (pow_ne_zero _ ht) h

mutual
/-- Assumptions on the shape of a module: supports and vectors of constrained translations are smooth
functions of the descriptors, no compound is empty, and `J` (which stands for "Jacobians of dual
fields are available") holds if a module needs it. -/
def DefModule.Tame (n : WithTop ℕ∞) (J : Prop) : DefModule d → Prop
  | .translations _ => True
  | .implicit0 _ => True
  | .oriented _ => True
  | .constrained m => ContDiffAt ℝ n m.fsupp m.gd ∧ ContDiffAt ℝ n m.fvec m.gd
  | .globalTranslation _ => True
  | .linear _ => True
  | .implicit1 _ => J
  | .divFree _ => J
  | .arap _ => J
  | .silent _ => True
  | .compound ms => ms ≠ [] ∧ DefModule.AllTame n J ms
def DefModule.AllTame (n : WithTop ℕ∞) (J : Prop) : List (DefModule d) → Prop
  | [] => True
  | m :: ms => m.Tame n J ∧ DefModule.AllTame n J ms
end

theorem wrap_exists' {α : Type} {f : α → DefModule d} {x : Py α} (h : ∃ m, wrap f x = .ok m) : ∃ a, x = .ok a := by
  obtain ⟨m, h⟩ := h
  cases x with
  | error e => cases h
  | ok a => exact ⟨a, rfl⟩

theorem wrap_inv {α : Type} {f : α → DefModule d} {x : Py α} {m : DefModule d} (h : wrap f x = .ok m) : ∃ a, x = .ok a ∧ m = f a := by
  cases x with
  | error e => cases h
  | ok a => cases h; exact ⟨a, rfl, rfl⟩

theorem unit_det {a : ℝ} (h : a ≠ 0) : (Matrix.of fun _ _ : Unit => a).det ≠ 0 := by
  rw [Matrix.det_unique]; exact h

theorem sm_kXX (σ : ℝ) {k : Nat} {x : E → Fin k → Vec d} (hx : ∀ i, SmVec n e₀ fun e => x e i) : SmMat n e₀ fun e => Matrix.of (kXX σ (x e)) := by
  intro i j
  simp only [Matrix.of_apply, kXX_eq]
  exact sm_kXY σ (hx i) (hx j)

section leaves
variable {man : E → Mfd d} (hM : SmAtoms n e₀ fun e => momAtoms (man e)) (he : ∀ e, (man e).NoEmptyCompound)
include hM

include he in
theorem smGeo_translations {k : Nat} (m : Translations d k) {x : E → Fin k → Vec d} (c : E → Fin k → Vec d) (hx : ∀ i, SmVec n e₀ fun e => x e i)
    (hok : ∃ m', Translations.geodesic { m with gd := x e₀, cot := c e₀ } (man e₀) = .ok m') :
    SmGeo n e₀ man fun e => .translations { m with gd := x e, cot := c e } := by
  obtain ⟨_, hok⟩ := hok
  have hk := Translations.det_of_ok hok
  have hK := sm_kXX m.σ hx
  refine smGeo_leaf (sm_gramMat m.σ (sm_point hx)) (sm_dualVec m.σ (sm_point hx) hM) ?_ ?_ fun e m' h => ?_
  · have := gramMat_point_det (ν := 0) (x e₀) (by rw [zero_smul, add_zero]; exact hk)
    rwa [zero_smul, add_zero] at this
  · filter_upwards [det_eventually hK hk] with e hie
    rw [DefModule.geodesic]
    exact wrap_exists (Translations.ok_of_det { m with gd := x e, cot := c e } hie _ (he e))
  · rw [DefModule.geodesic] at h
    obtain ⟨a, hw, rfl⟩ := wrap_inv h
    obtain ⟨c', rfl, h2⟩ := Translations.geo _ _ _ hw
    exact ⟨fun q => c' q.1 q.2, Translations.has (man e) { m with gd := x e, cot := c e, ctrl := c' }, h2⟩

include he in
theorem smGeo_implicit0 {k : Nat} (m : Implicit0 d k) {x : E → Fin k → Vec d} (c : E → Fin k → Vec d) (hx : ∀ i, SmVec n e₀ fun e => x e i)
    (hok : ∃ m', Implicit0.geodesic { m with gd := x e₀, cot := c e₀ } (man e₀) = .ok m') :
    SmGeo n e₀ man fun e => .implicit0 { m with gd := x e, cot := c e } := by
  obtain ⟨_, hok⟩ := hok
  obtain ⟨hk, hc⟩ := Implicit0.det_of_ok hok
  have hK : SmMat n e₀ fun e => Matrix.of (kXX m.σ (x e)) + m.ν • (1 : Matrix (Fin k) (Fin k) ℝ) :=
    (sm_kXX m.σ hx).add (smMat_const _)
  refine smGeo_leaf (((sm_gramMat m.σ (sm_point hx)).add (smMat_const (m.ν • 1))).smul m.coeff) (sm_dualVec m.σ (sm_point hx) hM)
    (smul_det_ne hc (gramMat_point_det _ hk)) ?_ fun e m' h => ?_
  · filter_upwards [det_eventually hK hk] with e hie
    rw [DefModule.geodesic]
    exact wrap_exists (Implicit0.ok_of_det { m with gd := x e, cot := c e } hie hc _ (he e))
  · rw [DefModule.geodesic] at h
    obtain ⟨a, hw, rfl⟩ := wrap_inv h
    obtain ⟨c', rfl, h2⟩ := Implicit0.geo _ _ _ hw
    exact ⟨_, Implicit0.has _ _, h2⟩

include he in
theorem smGeo_oriented {k : Nat} (m : Oriented d k) {x u : E → Fin k → Vec d} (c c' : E → Fin k → Vec d) (hx : ∀ i, SmVec n e₀ fun e => x e i)
    (hu : ∀ i, SmVec n e₀ fun e => u e i)
    (hok : ∃ m', Oriented.geodesic { m with gd := x e₀, dir := u e₀, cot := c e₀, cdir := c' e₀ } (man e₀) = .ok m') :
    SmGeo n e₀ man fun e => .oriented { m with gd := x e, dir := u e, cot := c e, cdir := c' e } := by
  obtain ⟨_, hok⟩ := hok
  obtain ⟨hk, hc⟩ := Oriented.det_of_ok hok
  have hK := sm_gramMat m.σ (sm_dir hx hu)
  refine smGeo_leaf (hK.smul m.coeff) (sm_dualVec m.σ (sm_dir hx hu) hM) (smul_det_ne hc hk) ?_ fun e m' h => ?_
  · filter_upwards [det_eventually hK hk] with e hie
    rw [DefModule.geodesic]
    exact wrap_exists (Oriented.ok_of_det { m with gd := x e, dir := u e, cot := c e, cdir := c' e } hie hc _ (he e))
  · rw [DefModule.geodesic] at h
    obtain ⟨a, hw, rfl⟩ := wrap_inv h
    obtain ⟨c', rfl, h2⟩ := Oriented.geo _ _ _ hw
    exact ⟨_, Oriented.has _ _, h2⟩

theorem smGeo_global (m : GlobalTranslation d) (hok : ∃ m', m.geodesic (man e₀) = .ok m') : SmGeo n e₀ man fun _ => .globalTranslation m := by
  obtain ⟨_, hok⟩ := hok
  have hc := GlobalTranslation.ne_of_ok hok
  refine smGeo_leaf (smMat_const (m.coeff • 1)) (s := fun e => constDual (man e)) (fun i => ?_) ?_ ?_ fun e m' h => ?_
  · unfold constDual
    refine sm_pair hM fun y hy => ⟨fun c => ?_, fun b c => ?_⟩
    · simp only [fieldVal_const]; exact contDiffAt_const
    · simp only [fieldJac_const]; exact contDiffAt_const
  · rw [Matrix.det_smul, Matrix.det_one, mul_one, Fintype.card_fin]
    cases d with
    | zero => simp
    | succ d => exact pow_ne_zero _ (hc 0)
  · refine .of_forall fun e => ?_
    rw [DefModule.geodesic]
    exact wrap_exists (GlobalTranslation.ok_of_ne m hc _)
  · rw [DefModule.geodesic] at h
    obtain ⟨a, hw, rfl⟩ := wrap_inv h
    obtain ⟨c', rfl, h2⟩ := GlobalTranslation.geo _ _ _ hw
    refine ⟨_, GlobalTranslation.has _ _, ?_⟩
    rw [smul_mulVec, one_mulVec]
    funext i; exact h2 i

theorem smGeo_linear (m : Linear d) {x : E → Vec d} (c : E → Vec d) (hx : SmVec n e₀ x)
    (hok : ∃ m', Linear.geodesic { m with gd := x e₀, cot := c e₀ } (man e₀) = .ok m') :
    SmGeo n e₀ man fun e => .linear { m with gd := x e, cot := c e } := by
  obtain ⟨_, hok⟩ := hok
  have hc := Linear.ne_of_ok hok
  refine smGeo_leaf (smMat_const (Matrix.of fun _ _ : Unit => m.coeff))
    (s := fun e _ => Linear.unit { m with gd := x e, cot := c e } (man e)) (fun _ => ?_) (unit_det hc) ?_ fun e m' h => ?_
  · unfold Linear.unit
    refine sm_pair hM fun y hy => ⟨fun b => ?_, fun a b => ?_⟩
    · simp only [fieldVal_affine]
      exact (sm_sum fun k => ((hy k).sub (hx k)).mul contDiffAt_const).add contDiffAt_const
    · simp only [fieldJac_affine]; exact contDiffAt_const
  · refine .of_forall fun e => ?_
    rw [DefModule.geodesic]
    exact wrap_exists (Linear.ok_of_ne { m with gd := x e, cot := c e } hc _)
  · rw [DefModule.geodesic] at h
    obtain ⟨a, hw, rfl⟩ := wrap_inv h
    obtain ⟨c', rfl, h2⟩ := Linear.geo _ _ _ hw
    refine ⟨_, Linear.has _ _, ?_⟩
    rw [unit_mulVec]
    funext _; exact h2

theorem smGeo_constrained {k p : Nat} (m : Constrained d k p) {x : E → Fin k → Vec d} (c : E → Fin k → Vec d) (hx : ∀ i, SmVec n e₀ fun e => x e i)
    (hs : ContDiffAt ℝ n m.fsupp (x e₀)) (hv : ContDiffAt ℝ n m.fvec (x e₀))
    (hok : ∃ m', Constrained.geodesic { m with gd := x e₀, cot := c e₀ } (man e₀) = .ok m') :
    SmGeo n e₀ man fun e => .constrained { m with gd := x e, cot := c e } := by
  obtain ⟨_, hok⟩ := hok
  have h0 : m.coeff * Constrained.energy { m with gd := x e₀, cot := c e₀ } ≠ 0 := Constrained.ne_of_ok hok
  have hx' : ContDiffAt ℝ n x e₀ := contDiffAt_pi.2 fun i => contDiffAt_pi.2 fun b => hx i b
  have hS : ∀ i, SmVec n e₀ fun e => m.fsupp (x e) i := fun i b => contDiffAt_pi.1 (contDiffAt_pi.1 (hs.comp e₀ hx') i) b
  have hV : ∀ i, SmVec n e₀ fun e => m.fvec (x e) i := fun i b => contDiffAt_pi.1 (contDiffAt_pi.1 (hv.comp e₀ hx') i) b
  have hE : ContDiffAt ℝ n (fun e => Constrained.energy { m with gd := x e, cot := c e }) e₀ := by
    simp only [Constrained.energy_eq, dotProduct]
    exact sm_sum fun q => (hV q.1 q.2).mul ((sm_gramMat m.σ (sm_point hS)).mulVec (fun q => hV q.1 q.2) q)
  have hne : ∀ᶠ e in 𝓝 e₀, m.coeff * Constrained.energy { m with gd := x e, cot := c e } ≠ 0 :=
    (contDiffAt_const.mul hE).continuousAt.eventually_ne h0
  refine smGeo_leaf (Q := fun e => Matrix.of fun _ _ : Unit => m.coeff * Constrained.energy { m with gd := x e, cot := c e })
    (s := fun e _ => Constrained.unit { m with gd := x e, cot := c e } (man e)) (fun _ _ => contDiffAt_const.mul hE) (fun _ => ?_)
    (unit_det h0) ?_ fun e m' h => ?_
  · unfold Constrained.unit
    exact sm_gram m.σ hM (smAtoms_ofFn fun i => smAtom0 (hS i) (hV i))
  · filter_upwards [hne] with e hee
    rw [DefModule.geodesic]
    exact wrap_exists (Constrained.ok_of_ne { m with gd := x e, cot := c e } hee _)
  · rw [DefModule.geodesic] at h
    obtain ⟨a, hw, rfl⟩ := wrap_inv h
    obtain ⟨c', rfl, h2⟩ := Constrained.geo _ _ _ hw
    refine ⟨_, Constrained.has _ _, ?_⟩
    refine (unit_mulVec _ _).trans ?_
    funext _; exact h2

variable (hd : ∀ e, (man e).NoDirections)
include he hd

theorem smGeo_implicit1 {k p : Nat} (m : Implicit1 d k p) {x : E → Fin k → Vec d} {R : E → Fin k → Mat d} (c : E → Fin k → Vec d)
    (c' : E → Fin k → Mat d) (hx : ∀ i, SmVec n e₀ fun e => x e i) (hR : ∀ i, SmMat n e₀ fun e => R e i)
    (hok : ∃ m', Implicit1.geodesic { m with gd := x e₀, R := R e₀, cot := c e₀, cR := c' e₀ } (man e₀) = .ok m') :
    SmGeo n e₀ man fun e => .implicit1 { m with gd := x e, R := R e, cot := c e, cR := c' e } := by
  obtain ⟨_, hok⟩ := hok
  obtain ⟨hSd, hWd, hc⟩ := Implicit1.det_of_ok hok
  have hA : SmMat n e₀ fun e => Implicit1.A { m with gd := x e, R := R e, cot := c e, cR := c' e } := fun q l => by
    unfold Implicit1.A
    simp only [Matrix.of_apply]
    refine sm_sum fun a => sm_sum fun i => sm_sum fun v => ?_
    exact (((hR _ _ _).mul contDiffAt_const).mul (hR _ _ _)).mul contDiffAt_const
  have hS : SmMat n e₀ fun e => Implicit1.sks { m with gd := x e, R := R e, cot := c e, cR := c' e } := by
    simp only [Implicit1.sks_eq]
    exact (sm_gramMat m.σ (sm_strain hx)).add (smMat_const (m.ν • 1))
  have hW := (hA.transpose.mul (hS.inv hSd)).mul hA
  refine smGeo_leaf (Q := fun e => Implicit1.Q { m with gd := x e, R := R e, cot := c e, cR := c' e }) (hW.smul m.coeff)
    (s := fun e => Implicit1.dual { m with gd := x e, R := R e, cot := c e, cR := c' e } (man e)) (fun i => ?_) (smul_det_ne hc hWd) ?_ fun e m' h => ?_
  · exact hA.transpose.mulVec ((hS.inv hSd).mulVec (sm_dualVec m.σ (sm_strain hx) hM)) i
  · filter_upwards [det_eventually hS hSd, det_eventually hW hWd] with e hse hwe
    rw [DefModule.geodesic]
    exact wrap_exists (Implicit1.ok_of_det { m with gd := x e, R := R e, cot := c e, cR := c' e } hse hwe hc _ (he e) (hd e))
  · rw [DefModule.geodesic] at h
    obtain ⟨a, hw, rfl⟩ := wrap_inv h
    obtain ⟨c', rfl, h2, _⟩ := Implicit1.geo _ hw
    exact ⟨_, Implicit1.has _ _ _, h2⟩

theorem smGeo_divFree {N P : Nat} (m : DivFree d N P) {x : E → Fin (N + P) → Vec d} (c : E → Fin (N + P) → Vec d)
    (hx : ∀ i, SmVec n e₀ fun e => x e i) (hok : ∃ m', DivFree.geodesic { m with gd := x e₀, cot := c e₀ } (man e₀) = .ok m') :
    SmGeo n e₀ man fun e => .divFree { m with gd := x e, cot := c e } := by
  obtain ⟨_, hok⟩ := hok
  obtain ⟨hSd, h11, hc⟩ := DivFree.det_of_ok hok
  have hF : ∀ q, SmAtom n e₀ fun e => DivFree.fam { m with gd := x e, cot := c e } q := by
    rintro (i | q)
    · exact sm_divAtom m.coeffDiv (x := fun e => DivFree.X { m with gd := x e, cot := c e }) (fun i => hx _) i
    · exact sm_point (x := fun e => DivFree.Y { m with gd := x e, cot := c e }) (fun i => hx _) q
  have hS : SmMat n e₀ fun e => DivFree.SKS { m with gd := x e, cot := c e } := by
    simp only [DivFree.SKS_eq]
    exact (sm_gramMat m.σ hF).add (smMat_const (m.ν • 1))
  have hB : SmMat n e₀ fun e => (DivFree.SKS { m with gd := x e, cot := c e }).toBlocks₁₁ := fun i j => hS (Sum.inl i) (Sum.inl j)
  refine smGeo_leaf (Q := fun e => DivFree.Q { m with gd := x e, cot := c e }) (((smMat_const _).mul (hS.inv hSd)).mul (smMat_const _) |>.smul m.coeff)
    (s := fun e => DivFree.dual { m with gd := x e, cot := c e } (man e))
    (fun i => (smMat_const _).mulVec ((hS.inv hSd).mulVec (sm_dualVec m.σ hF hM)) i)
    (smul_det_ne hc (embed_det hSd h11)) ?_ fun e m' h => ?_
  · filter_upwards [det_eventually hS hSd, det_eventually hB h11] with e hse hbe
    rw [DefModule.geodesic]
    exact wrap_exists (DivFree.ok_of_det { m with gd := x e, cot := c e } hse hbe hc _ (he e) (hd e))
  · rw [DefModule.geodesic] at h
    obtain ⟨a, hw, rfl⟩ := wrap_inv h
    obtain ⟨c', rfl, h2, _⟩ := DivFree.geo _ hw
    exact ⟨_, DivFree.has _ _ _, h2⟩

theorem smGeo_arap {N P : Nat} (m : Arap d N P) {x : E → Fin (N + P) → Vec d} (c : E → Fin (N + P) → Vec d)
    (hx : ∀ i, SmVec n e₀ fun e => x e i) (hok : ∃ m', Arap.geodesic { m with gd := x e₀, cot := c e₀ } (man e₀) = .ok m') :
    SmGeo n e₀ man fun e => .arap { m with gd := x e, cot := c e } := by
  obtain ⟨_, hok⟩ := hok
  obtain ⟨hSd, h11, hc⟩ := Arap.det_of_ok hok
  have hF : ∀ q, SmAtom n e₀ fun e => Arap.fam { m with gd := x e, cot := c e } q := by
    rintro (i | q)
    · exact sm_arapAtom m.coeffArap (x := fun e => Arap.X { m with gd := x e, cot := c e }) (fun i => hx _) i
    · exact sm_point (x := fun e => Arap.Y { m with gd := x e, cot := c e }) (fun i => hx _) q
  have hS : SmMat n e₀ fun e => Arap.SKS { m with gd := x e, cot := c e } := by
    simp only [Arap.SKS_eq]
    exact (sm_gramMat m.σ hF).add (smMat_const (m.ν • 1))
  have hB : SmMat n e₀ fun e => (Arap.SKS { m with gd := x e, cot := c e }).toBlocks₁₁ := fun i j => hS (Sum.inl i) (Sum.inl j)
  refine smGeo_leaf (Q := fun e => Arap.Q { m with gd := x e, cot := c e }) (((smMat_const _).mul (hS.inv hSd)).mul (smMat_const _) |>.smul m.coeff)
    (s := fun e => Arap.dual { m with gd := x e, cot := c e } (man e))
    (fun i => (smMat_const _).mulVec ((hS.inv hSd).mulVec (sm_dualVec m.σ hF hM)) i)
    (smul_det_ne hc (embed_det hSd h11)) ?_ fun e m' h => ?_
  · filter_upwards [det_eventually hS hSd, det_eventually hB h11] with e hse hbe
    rw [DefModule.geodesic]
    exact wrap_exists (Arap.ok_of_det { m with gd := x e, cot := c e } hse hbe hc _ (he e) (hd e))
  · rw [DefModule.geodesic] at h
    obtain ⟨a, hw, rfl⟩ := wrap_inv h
    obtain ⟨c', rfl, h2, _⟩ := Arap.geo _ hw
    exact ⟨_, Arap.has _ _ _, h2⟩

end leaves

theorem smGeo_silent (man : E → Mfd d) (s : E → Mfd d) : SmGeo n e₀ man fun e => .silent (s e) := by
  refine ⟨fun _ => 0, contDiffAt_const, .of_forall fun e => ⟨.silent (s e), by rw [DefModule.geodesic], ?_⟩⟩
  obtain ⟨h, h1, h2⟩ := (silentQuad (man e) (s e)).geo _ (by rw [DefModule.geodesic])
  refine ⟨Empty, inferInstance, 0, fun _ => 0, h, h1, h2, ?_⟩
  simp [dotProduct]

theorem smGeoAll_nil (man : E → Mfd d) : SmGeoAll n e₀ man fun _ => [] :=
  ⟨fun _ => 0, contDiffAt_const, .of_forall fun e => ⟨[], by rw [DefModule.geodesics], Empty, inferInstance, 0, fun _ => 0, fun _ => 0,
    hasAll_nil (man e), by funext i; exact i.elim, by simp [dotProduct]⟩⟩

theorem smGeoAll_cons {man : E → Mfd d} {m : E → DefModule d} {ms : E → List (DefModule d)} (h1 : SmGeo n e₀ man m) (h2 : SmGeoAll n e₀ man ms) :
    SmGeoAll n e₀ man fun e => m e :: ms e := by
  obtain ⟨H, hH, h1⟩ := h1
  obtain ⟨K, hK, h2⟩ := h2
  refine ⟨fun e => H e + K e, hH.add hK, ?_⟩
  filter_upwards [h1, h2] with e ⟨m', g1, ι, i1, Q, s, h, a1, a2, a3⟩ ⟨ms', g2, κ, i2, R, t, k, b1, b2, b3⟩
  refine ⟨m' :: ms', by rw [DefModule.geodesics, g1]; dsimp only; rw [g2], ι ⊕ κ, inferInstance, _, _, _, hasAll_cons a1 b1, ?_, ?_⟩
  · rw [fromBlocks_mulVec, zero_mulVec, zero_mulVec, add_zero, zero_add, Sum.elim_comp_inl, Sum.elim_comp_inr, a2, b2]
  · rw [block_dot, a3, b3]; ring

theorem smGeo_compound {man : E → Mfd d} {ms : E → List (DefModule d)} (hne : ∀ e, ms e ≠ []) (h : SmGeoAll n e₀ man ms) :
    SmGeo n e₀ man fun e => .compound (ms e) := by
  obtain ⟨H, hH, h⟩ := h
  refine ⟨H, hH, ?_⟩
  filter_upwards [h] with e ⟨ms', g, ι, i, Q, s, h, a1, a2, a3⟩
  exact ⟨.compound ms', by rw [DefModule.geodesic, g], ι, i, Q, s, h, has_compound (ne_nil_of_length (geodesics_length g) (hne e)) a1, a2, a3⟩

section all
variable {man : E → Mfd d} (hM : SmAtoms n e₀ fun e => momAtoms (man e)) (he : ∀ e, (man e).NoEmptyCompound) {J : Prop}
  (hd : J → ∀ e, (man e).NoDirections) {q : E → Row} (p : E → Row) (hq : ∀ j, ContDiffAt ℝ n (fun e => q e j) e₀)
include hM he hd hq

mutual
/-- If geodesic controls exist at some descriptors and momenta, they exist nearby and depend smoothly
on both. -/
theorem ok_smGeo : (m : DefModule d) → (o o' : Nat) → (m.withGd (q e₀) o).Tame n J →
    (∃ m', ((m.withGd (q e₀) o).withCot (p e₀) o').geodesic (man e₀) = .ok m') → SmGeo n e₀ man fun e => (m.withGd (q e) o).withCot (p e) o'
  | .translations m, o, o', ht, h => by
    simp only [DefModule.withGd, DefModule.Tame, DefModule.withCot, DefModule.geodesic] at ht h ⊢
    exact smGeo_translations hM he m _ (sm_view hq _) (wrap_exists' h)
  | .implicit0 m, o, o', ht, h => by
    simp only [DefModule.withGd, DefModule.Tame, DefModule.withCot, DefModule.geodesic] at ht h ⊢
    exact smGeo_implicit0 hM he m _ (sm_view hq _) (wrap_exists' h)
  | .oriented m, o, o', ht, h => by
    simp only [DefModule.withGd, DefModule.Tame, DefModule.withCot, DefModule.geodesic] at ht h ⊢
    exact smGeo_oriented hM he m _ _ (sm_view hq _) (sm_view hq _) (wrap_exists' h)
  | .constrained m, o, o', ht, h => by
    simp only [DefModule.withGd, DefModule.Tame, DefModule.withCot, DefModule.geodesic] at ht h ⊢
    exact smGeo_constrained hM m _ (sm_view hq _) ht.1 ht.2 (wrap_exists' h)
  | .globalTranslation m, o, o', ht, h => by
    simp only [DefModule.withGd, DefModule.Tame, DefModule.withCot, DefModule.geodesic] at ht h ⊢
    exact smGeo_global hM m (wrap_exists' h)
  | .linear m, o, o', ht, h => by
    simp only [DefModule.withGd, DefModule.Tame, DefModule.withCot, DefModule.geodesic] at ht h ⊢
    exact smGeo_linear hM m _ (sm_view hq _ 0) (wrap_exists' h)
  | .implicit1 m, o, o', ht, h => by
    simp only [DefModule.withGd, DefModule.Tame, DefModule.withCot, DefModule.geodesic] at ht h ⊢
    exact smGeo_implicit1 hM he (hd ht) m _ _ (sm_view hq _) (sm_viewMat hq _) (wrap_exists' h)
  | .divFree m, o, o', ht, h => by
    simp only [DefModule.withGd, DefModule.Tame, DefModule.withCot, DefModule.geodesic] at ht h ⊢
    exact smGeo_divFree hM he (hd ht) m _ (sm_view hq _) (wrap_exists' h)
  | .arap m, o, o', ht, h => by
    simp only [DefModule.withGd, DefModule.Tame, DefModule.withCot, DefModule.geodesic] at ht h ⊢
    exact smGeo_arap hM he (hd ht) m _ (sm_view hq _) (wrap_exists' h)
  | .silent s, o, o', ht, h => by
    simp only [DefModule.withGd, DefModule.withCot]
    exact smGeo_silent man _
  | .compound ms, o, o', ht, h => by
    simp only [DefModule.withGd, DefModule.Tame, DefModule.withCot] at ht h ⊢
    refine smGeo_compound (fun e => ?_) (ok_smGeoAll ms o o' ht.2 ?_)
    · cases ms with
      | nil => rw [DefModule.withGdAll] at ht; exact absurd rfl ht.1
      | cons m ms => rw [DefModule.withGdAll, DefModule.withCotAll]; exact List.cons_ne_nil _ _
    · obtain ⟨m', h⟩ := h
      rw [DefModule.geodesic] at h
      split at h
      · cases h
      · rename_i ms' hm; exact ⟨ms', hm⟩
theorem ok_smGeoAll : (ms : List (DefModule d)) → (o o' : Nat) → DefModule.AllTame n J (DefModule.withGdAll (q e₀) o ms) →
    (∃ ms', DefModule.geodesics (man e₀) (DefModule.withCotAll (p e₀) o' (DefModule.withGdAll (q e₀) o ms)) = .ok ms') →
    SmGeoAll n e₀ man fun e => DefModule.withCotAll (p e) o' (DefModule.withGdAll (q e) o ms)
  | [], o, o', ht, h => by
    simp only [DefModule.withGdAll, DefModule.withCotAll]
    exact smGeoAll_nil man
  | m :: ms, o, o', ht, h => by
    simp only [DefModule.withGdAll, DefModule.AllTame, DefModule.withCotAll, DefModule.manifold_withGd, Mfd.size_withGd] at ht h ⊢
    obtain ⟨ms', h⟩ := h
    rw [DefModule.geodesics] at h
    split at h
    · cases h
    · rename_i m' hm
      split at h
      · cases h
      · rename_i ms'' hms
        exact smGeoAll_cons (ok_smGeo m o o' ht.1 ⟨m', hm⟩) (ok_smGeoAll ms _ _ ht.2 ⟨ms'', hms⟩)
end
end all

end
end Imodal
