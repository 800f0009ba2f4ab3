import Verif.Lemmas.Solvable
import Verif.Lemmas.Rows
import Mathlib.Analysis.SpecialFunctions.ExpDeriv
import Mathlib.Analysis.Calculus.ContDiff.Operations
/-!
# Atoms that depend smoothly on a parameter
-/
set_option autoImplicit false
namespace Imodal
noncomputable section
open Matrix Filter Topology
variable {d : Nat} {E : Type} [NormedAddCommGroup E] [NormedSpace ℝ E] {n : WithTop ℕ∞} {e₀ : E}

/-- A family of vectors whose entries are smooth. -/
def SmVec (n : WithTop ℕ∞) (e₀ : E) (x : E → Vec d) : Prop := ∀ c, ContDiffAt ℝ n (fun e => x e c) e₀
def SmMat {ι κ : Type} (n : WithTop ℕ∞) (e₀ : E) (M : E → Matrix ι κ ℝ) : Prop := ∀ b c, ContDiffAt ℝ n (fun e => M e b c) e₀

structure SmAtom (n : WithTop ℕ∞) (e₀ : E) (a : E → Atom d) : Prop where
  x : SmVec n e₀ fun e => (a e).x
  α : SmVec n e₀ fun e => (a e).α
  M : SmMat n e₀ fun e => (a e).M

theorem sm_sum {ι : Type} [Fintype ι] {f : ι → E → ℝ} (h : ∀ i, ContDiffAt ℝ n (f i) e₀) :
    ContDiffAt ℝ n (fun e => ∑ i, f i e) e₀ := ContDiffAt.sum fun i _ => h i

theorem SmVec.rel {x y : E → Vec d} (hx : SmVec n e₀ x) (hy : SmVec n e₀ y) : SmVec n e₀ fun e => relDiff (x e) (y e) :=
  fun c => (hx c).sub (hy c)

theorem sm_gauss0 (σ : ℝ) {z : E → Vec d} (hz : SmVec n e₀ z) : ContDiffAt ℝ n (fun e => gauss0 σ (z e)) e₀ := by
  unfold gauss0
  exact (((sm_sum fun c => (hz c).pow 2).neg.div_const 2).div_const (σ * σ)).exp

theorem sm_kXY (σ : ℝ) {x y : E → Vec d} (hx : SmVec n e₀ x) (hy : SmVec n e₀ y) : ContDiffAt ℝ n (fun e => kXY σ (x e) (y e)) e₀ := by
  simp only [← gauss0_relDiff]
  exact sm_gauss0 σ (hx.rel hy)

theorem sm_g1 (σ : ℝ) {z : E → Vec d} (hz : SmVec n e₀ z) : SmVec n e₀ fun e => g1 σ (z e) := fun c => by
  unfold g1
  exact (((sm_gauss0 σ hz).neg.mul (hz c)).div_const _)

theorem sm_g2 (σ : ℝ) {z : E → Vec d} (hz : SmVec n e₀ z) : SmMat n e₀ fun e => g2 σ (z e) := fun b c => by
  unfold g2
  exact (((sm_gauss0 σ hz).mul (contDiffAt_const.add (((hz b).mul (hz c)).div_const _))).div_const _)

theorem sm_atom_rep (σ : ℝ) {b : E → Atom d} (hb : SmAtom n e₀ b) {y : E → Vec d} (hy : SmVec n e₀ y) :
    SmVec n e₀ fun e => (b e).rep σ (y e) := fun c => by
  unfold Atom.rep
  exact ((sm_kXY σ hy hb.x).mul (hb.α c)).sub (sm_sum fun k => (sm_g1 σ (hy.rel hb.x) k).mul (hb.M c k))

theorem sm_atom_repJ (σ : ℝ) {b : E → Atom d} (hb : SmAtom n e₀ b) {y : E → Vec d} (hy : SmVec n e₀ y) :
    SmMat n e₀ fun e => (b e).repJ σ (y e) := fun c k => by
  unfold Atom.repJ
  exact ((sm_g1 σ (hy.rel hb.x) k).mul (hb.α c)).sub (sm_sum fun l => (sm_g2 σ (hy.rel hb.x) l k).mul (hb.M c l))

/-- Fields that are smooth along smooth points. -/
def SmField (n : WithTop ℕ∞) (e₀ : E) (v : E → Vec d → Vec d) (J : E → Vec d → Mat d) : Prop :=
  ∀ y : E → Vec d, SmVec n e₀ y → (SmVec n e₀ fun e => v e (y e)) ∧ SmMat n e₀ fun e => J e (y e)

theorem smField_rep (σ : ℝ) {b : E → Atom d} (hb : SmAtom n e₀ b) : SmField n e₀ (fun e => (b e).rep σ) fun e => (b e).repJ σ :=
  fun _ hy => ⟨sm_atom_rep σ hb hy, sm_atom_repJ σ hb hy⟩

theorem sm_atom_pair {a : E → Atom d} (ha : SmAtom n e₀ a) {v : E → Vec d → Vec d} {J : E → Vec d → Mat d} (h : SmField n e₀ v J) :
    ContDiffAt ℝ n (fun e => (a e).pair (v e) (J e)) e₀ := by
  unfold Atom.pair
  exact (sm_sum fun c => (ha.α c).mul ((h _ ha.x).1 c)).add (sm_sum fun b => sm_sum fun c => (ha.M b c).mul ((h _ ha.x).2 b c))

/-- A list of smooth atoms. -/
inductive SmAtoms (n : WithTop ℕ∞) (e₀ : E) : (E → List (Atom d)) → Prop
  | nil : SmAtoms n e₀ fun _ => []
  | cons {a : E → Atom d} {A : E → List (Atom d)} : SmAtom n e₀ a → SmAtoms n e₀ A → SmAtoms n e₀ fun e => a e :: A e

theorem SmAtoms.append {A B : E → List (Atom d)} (hA : SmAtoms n e₀ A) (hB : SmAtoms n e₀ B) : SmAtoms n e₀ fun e => A e ++ B e := by
  induction hA with
  | nil => exact hB
  | cons h _ ih => exact .cons h ih

theorem smAtoms_ofFn {k : Nat} {a : E → Fin k → Atom d} (h : ∀ i, SmAtom n e₀ fun e => a e i) : SmAtoms n e₀ fun e => List.ofFn (a e) := by
  induction k with
  | zero => simp only [List.ofFn_zero]; exact .nil
  | succ k ih =>
    simp only [List.ofFn_succ]
    exact .cons (h 0) (ih fun i => h i.succ)

theorem sm_pair {A : E → List (Atom d)} (hA : SmAtoms n e₀ A) {v : E → Vec d → Vec d} {J : E → Vec d → Mat d} (h : SmField n e₀ v J) :
    ContDiffAt ℝ n (fun e => pair (A e) (v e) (J e)) e₀ := by
  induction hA with
  | nil => simp only [pair_nil]; exact contDiffAt_const
  | cons ha _ ih => simp only [pair_cons]; exact (sm_atom_pair ha h).add ih

theorem sm_dualVec {ι : Type} (σ : ℝ) {a : E → ι → Atom d} (ha : ∀ q, SmAtom n e₀ fun e => a e q) {M : E → List (Atom d)}
    (hM : SmAtoms n e₀ M) (q : ι) : ContDiffAt ℝ n (fun e => dualVec σ (a e) (M e) q) e₀ := by
  unfold dualVec
  simp only [gram_atom]
  exact sm_pair hM (smField_rep σ (ha q))

theorem sm_gramMat {ι : Type} (σ : ℝ) {a : E → ι → Atom d} (ha : ∀ q, SmAtom n e₀ fun e => a e q) : SmMat n e₀ fun e => gramMat σ (a e) :=
  fun q r => sm_atom_pair (ha q) (smField_rep σ (ha r))

theorem sm_gram (σ : ℝ) {A B : E → List (Atom d)} (hA : SmAtoms n e₀ A) (hB : SmAtoms n e₀ B) :
    ContDiffAt ℝ n (fun e => gram σ (A e) (B e)) e₀ := by
  induction hB with
  | nil =>
    have : (fun e => gram σ (A e) []) = fun _ => 0 := by
      funext e; rw [gram_symm]; rfl
    rw [this]; exact contDiffAt_const
  | cons hb _ ih => simp only [gram_cons_right]; exact (sm_pair hA (smField_rep σ hb)).add ih

/-! ## Matrices -/

section mats
variable {ι κ μ : Type} [Fintype ι] [Fintype κ]

theorem SmMat.add {A B : E → Matrix μ ι ℝ} (hA : SmMat n e₀ A) (hB : SmMat n e₀ B) : SmMat n e₀ fun e => A e + B e :=
  fun b c => (hA b c).add (hB b c)
theorem SmMat.smul {A : E → Matrix μ ι ℝ} (t : ℝ) (hA : SmMat n e₀ A) : SmMat n e₀ fun e => t • A e :=
  fun b c => contDiffAt_const.mul (hA b c)
theorem smMat_const (A : Matrix μ ι ℝ) : SmMat n e₀ fun _ => A := fun _ _ => contDiffAt_const
theorem SmMat.transpose {A : E → Matrix μ ι ℝ} (hA : SmMat n e₀ A) : SmMat n e₀ fun e => (A e)ᵀ := fun b c => hA c b
theorem SmMat.mul {A : E → Matrix μ ι ℝ} {B : E → Matrix ι κ ℝ} (hA : SmMat n e₀ A) (hB : SmMat n e₀ B) : SmMat n e₀ fun e => A e * B e :=
  fun b c => by simp only [Matrix.mul_apply]; exact sm_sum fun k => (hA b k).mul (hB k c)
theorem SmMat.mulVec {A : E → Matrix μ ι ℝ} {x : E → ι → ℝ} (hA : SmMat n e₀ A) (hx : ∀ i, ContDiffAt ℝ n (fun e => x e i) e₀) (i : μ) :
    ContDiffAt ℝ n (fun e => (A e *ᵥ x e) i) e₀ := by
  simp only [Matrix.mulVec, dotProduct]; exact sm_sum fun k => (hA i k).mul (hx k)

variable [DecidableEq ι]

theorem sm_det {A : E → Matrix ι ι ℝ} (hA : SmMat n e₀ A) : ContDiffAt ℝ n (fun e => (A e).det) e₀ := by
  simp only [Matrix.det_apply']
  exact ContDiffAt.sum fun σ _ => contDiffAt_const.mul (contDiffAt_prod fun i _ => hA _ _)

theorem SmMat.adjugate {A : E → Matrix ι ι ℝ} (hA : SmMat n e₀ A) : SmMat n e₀ fun e => (A e).adjugate := fun b c => by
  simp only [Matrix.adjugate_apply]
  refine sm_det fun i j => ?_
  by_cases h : i = c
  · subst h; simp only [Matrix.updateRow_self]; exact contDiffAt_const
  · simp only [Matrix.updateRow_ne h]; exact hA i j

theorem SmMat.inv {A : E → Matrix ι ι ℝ} (hA : SmMat n e₀ A) (hd : (A e₀).det ≠ 0) : SmMat n e₀ fun e => (A e)⁻¹ := fun b c => by
  simp only [Matrix.inv_def, Matrix.smul_apply, smul_eq_mul, Ring.inverse_eq_inv']
  exact ((sm_det hA).inv hd).mul (hA.adjugate b c)

theorem det_eventually {A : E → Matrix ι ι ℝ} (hA : SmMat n e₀ A) (hd : (A e₀).det ≠ 0) : ∀ᶠ e in 𝓝 e₀, (A e).det ≠ 0 :=
  (sm_det hA).continuousAt.eventually_ne hd

end mats

/-! ## Atoms of manifolds -/

theorem sm_view {k : Nat} {q : E → Row} (hq : ∀ j, ContDiffAt ℝ n (fun e => q e j) e₀) (off : Nat) (i : Fin k) :
    SmVec (d := d) n e₀ fun e => viewVecs (fun j => q e (off + j)) i := fun _ => hq _
theorem sm_viewMat {k : Nat} {q : E → Row} (hq : ∀ j, ContDiffAt ℝ n (fun e => q e j) e₀) (off : Nat) (i : Fin k) :
    SmMat n e₀ fun e => (viewMats (fun j => q e (off + j)) i : Mat d) := fun _ _ => hq _

theorem smAtom0 {x α : E → Vec d} (hx : SmVec n e₀ x) (hα : SmVec n e₀ α) : SmAtom n e₀ fun e => atom0 (x e) (α e) :=
  ⟨hx, hα, fun _ _ => contDiffAt_const⟩
theorem smAtom1 {x : E → Vec d} {M : E → Mat d} (hx : SmVec n e₀ x) (hM : SmMat n e₀ M) : SmAtom n e₀ fun e => atom1 (x e) (M e) :=
  ⟨hx, fun _ => contDiffAt_const, hM⟩

theorem sm_point {k : Nat} {x : E → Fin k → Vec d} (hx : ∀ i, SmVec n e₀ fun e => x e i) (q : Fin k × Fin d) :
    SmAtom n e₀ fun e => pointAtom (x e) q := smAtom0 (hx _) fun _ => contDiffAt_const
theorem sm_dir {k : Nat} {x u : E → Fin k → Vec d} (hx : ∀ i, SmVec n e₀ fun e => x e i) (hu : ∀ i, SmVec n e₀ fun e => u e i) (i : Fin k) :
    SmAtom n e₀ fun e => dirAtom (x e) (u e) i := smAtom0 (hx _) (hu _)
theorem sm_strain {k : Nat} {x : E → Fin k → Vec d} (hx : ∀ i, SmVec n e₀ fun e => x e i) (q : Fin k × Fin (symDim d)) :
    SmAtom n e₀ fun e => strainAtom (x e) q := smAtom1 (hx _) fun _ _ => contDiffAt_const
theorem sm_divAtom {k : Nat} (α : ℝ) {x : E → Fin k → Vec d} (hx : ∀ i, SmVec n e₀ fun e => x e i) (i : Fin k) :
    SmAtom n e₀ fun e => divAtom α (x e) i := smAtom1 (hx _) fun _ _ => contDiffAt_const
theorem sm_arapAtom {k : Nat} (α : ℝ) {x : E → Fin k → Vec d} (hx : ∀ i, SmVec n e₀ fun e => x e i) (q : Fin k × Fin (symDim d)) :
    SmAtom n e₀ fun e => arapAtom α (x e) q := smAtom1 (hx _) fun _ _ => contDiffAt_const

mutual
/-- The functional of the momentum depends smoothly on descriptors and momenta. -/
theorem sm_momAtoms {q p : E → Row} (hq : ∀ j, ContDiffAt ℝ n (fun e => q e j) e₀) (hp : ∀ j, ContDiffAt ℝ n (fun e => p e j) e₀) :
    (M : Mfd d) → (off off' : Nat) → SmAtoms n e₀ fun e => momAtoms ((M.withGd (q e) off).withCot (p e) off')
  | .landmarks _ _, off, off' => by
    simp only [Mfd.withGd, Mfd.withCot, momAtoms]
    exact smAtoms_ofFn fun i => smAtom0 (sm_view hq _ i) (sm_view hp _ i)
  | .direction .vector _ _ _ _, off, off' => by
    simp only [Mfd.withGd, Mfd.withCot, momAtoms]
    refine (smAtoms_ofFn fun i => smAtom0 (sm_view hq _ i) (sm_view hp _ i)).append (smAtoms_ofFn fun i => smAtom1 (sm_view hq _ i) fun b c => ?_)
    simp only [Matrix.vecMulVec_apply]
    exact (sm_view hp _ i b).mul (sm_view hq _ i c)
  | .direction .orthogonal _ _ _ _, off, off' => by
    simp only [Mfd.withGd, Mfd.withCot, momAtoms]
    refine (smAtoms_ofFn fun i => smAtom0 (sm_view hq _ i) (sm_view hp _ i)).append (smAtoms_ofFn fun i => smAtom1 (sm_view hq _ i) fun b c => ?_)
    simp only [Matrix.vecMulVec_apply]
    exact (sm_view hq _ i b).neg.mul (sm_view hp _ i c)
  | .frame _ _ _ _, off, off' => by
    simp only [Mfd.withGd, Mfd.withCot, momAtoms]
    refine (smAtoms_ofFn fun i => smAtom0 (sm_view hq _ i) (sm_view hp _ i)).append (smAtoms_ofFn fun i => smAtom1 (sm_view hq _ i) fun b c => ?_)
    unfold skewPart
    refine ContDiffAt.div_const ((sm_sum fun k => ?_).sub (sm_sum fun k => ?_)) 2
    · exact (sm_viewMat hp _ i b k).mul (sm_viewMat hq _ i c k)
    · exact (sm_viewMat hp _ i c k).mul (sm_viewMat hq _ i b k)
  | .empty, off, off' => by
    simp only [Mfd.withGd, Mfd.withCot, momAtoms]; exact .nil
  | .compound ms, off, off' => by
    simp only [Mfd.withGd, Mfd.withCot, momAtoms]; exact sm_momAtomsAll hq hp ms off off'
theorem sm_momAtomsAll {q p : E → Row} (hq : ∀ j, ContDiffAt ℝ n (fun e => q e j) e₀) (hp : ∀ j, ContDiffAt ℝ n (fun e => p e j) e₀) :
    (ms : List (Mfd d)) → (off off' : Nat) → SmAtoms n e₀ fun e => momAtomsAll (Mfd.withCotAll (p e) off' (Mfd.withGdAll (q e) off ms))
  | [], off, off' => by
    simp only [Mfd.withGdAll, Mfd.withCotAll, momAtomsAll]; exact .nil
  | m :: ms, off, off' => by
    simp only [Mfd.withGdAll, Mfd.withCotAll, momAtomsAll, Mfd.size_withGd]
    exact (sm_momAtoms hq hp m off off').append (sm_momAtomsAll hq hp ms _ _)
end

end
end Imodal
