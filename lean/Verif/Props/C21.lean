import Verif.Lemmas.ModImplicit
import Verif.Props.C22
import Verif.Props.C19
/-!
# C21: implicit modules generate a field meeting their constraints

`f.values pts` is `f(pts)` and `f.jacobians pts` is `f(pts, k=1)`. With `nbs_pts = [N, P]` the
constraint is imposed at the first `N` points (`m.X`) and the velocity at the last `P` (`m.Y`).
-/
set_option autoImplicit false
namespace Imodal
noncomputable section
open Matrix
variable {d : Nat}

theorem gramMat_comb {ι : Type} [Fintype ι] {σ : ℝ} {a : ι → Atom d} {A : List (Atom d)} {l : ι → ℝ} (hA : Comb A a l)
    (q : ι) : (gramMat σ a *ᵥ l) q = (a q).pair (rep σ A) (repJ σ A) := by
  rw [gram_atom, hA, mulVec, dotProduct]
  refine Finset.sum_congr rfl fun r _ => ?_
  rw [atom_gram_symm, mul_comm]
  rfl

theorem rep_pair {σ : ℝ} {f : FieldExpr d} {A : List (Atom d)} (hf : IsRep σ f A) (h1 : Avail 1 f) (a : Atom d) :
    a.pair (rep σ A) (repJ σ A) = a.pair (fieldVal f) (fieldJac f) := by
  rw [funext hf.val, funext (hf.jac h1)]

theorem inv_apply {κ : Type} [Fintype κ] [DecidableEq κ] {S : Matrix κ κ ℝ} (hd : S.det ≠ 0) (b : κ → ℝ) :
    S *ᵥ (S⁻¹ *ᵥ b) = b := by
  rw [mulVec_mulVec, Matrix.mul_nonsing_inv _ (isUnit_iff_ne_zero.mpr hd), one_mulVec]

theorem smul_one_mulVec' {κ : Type} [Fintype κ] [DecidableEq κ] (S : Matrix κ κ ℝ) (ν : ℝ) (l : κ → ℝ) (q : κ) :
    ((S + ν • (1 : Matrix κ κ ℝ)) *ᵥ l) q = (S *ᵥ l) q + ν * l q := by
  rw [add_mulVec, smul_mulVec, one_mulVec]; rfl

theorem etaOf_eq {e : Fin d → Fin d → Fin (symDim d) → ℝ} (he : eta d = .ok e) : etaOf d = e := by
  unfold etaOf; rw [he]

theorem strain_expand {e : Fin d → Fin d → Fin (symDim d) → ℝ} (he : eta d = .ok e) {n : Nat} (J : Fin n → Mat d)
    (i : Fin n) (b c : Fin d) : (J i b c + J i c b) / 2 = ∑ t, strains J (i, t) * e b c t := by
  have := C22_complete he (Matrix.of fun b c => (J i b c + J i c b) / 2)
    (fun b c => by simp only [Matrix.of_apply]; ring) b c
  simp only [Matrix.of_apply] at this
  rw [this]
  refine Finset.sum_congr rfl fun t _ => ?_
  unfold strains
  rw [etaOf_eq he]
  congr 1
  exact Finset.sum_congr rfl fun k _ => Finset.sum_congr rfl fun l _ => by ring

theorem aqh_expand {e : Fin d → Fin d → Fin (symDim d) → ℝ} (he : eta d = .ok e) {n p : Nat} (m : Implicit1 d n p)
    (h : Fin p → ℝ) (i : Fin n) (b c : Fin d) :
    ∑ a, m.R i b a * (∑ k, m.C i a k * h k) * m.R i c a = ∑ t, m.aqh h (i, t) * e b c t := by
  have := C22_complete he (Matrix.of fun b c => ∑ a, m.R i b a * (∑ k, m.C i a k * h k) * m.R i c a)
    (fun b c => by
      simp only [Matrix.of_apply]
      exact Finset.sum_congr rfl fun a _ => by ring) b c
  simp only [Matrix.of_apply] at this
  rw [this]
  refine Finset.sum_congr rfl fun t _ => ?_
  congr 1
  rw [m.aqh_eq]
  unfold Implicit1.A
  simp only [mulVec, dotProduct, Matrix.of_apply, etaOf_eq he, Finset.sum_mul, Finset.mul_sum]
  symm
  rw [Finset.sum_comm]
  refine Finset.sum_congr rfl fun k _ => ?_
  rw [Finset.sum_comm]
  refine Eq.trans (Finset.sum_congr rfl fun a _ => Finset.sum_comm) ?_
  rw [Finset.sum_comm]
  refine Finset.sum_congr rfl fun l _ => Finset.sum_congr rfl fun a _ => Finset.sum_congr rfl fun q _ => by ring

/-- The field of an implicit module of order 1 has at each point the strain `R diag(C h) Rᵀ`, up
to `ν` times the multiplier `λ`, whose coordinates `l` are those kept by the module. -/
theorem C21_implicit1 {n p : Nat} (m m' : Implicit1 d n p) (h : Fin p → ℝ) (hf : m.fill h = .ok m')
    {e : Fin d → Fin d → Fin (symDim d) → ℝ} (he : eta d = .ok e) :
    ∃ f J k, m'.field = .ok f ∧ f.jacobians m.gd = .ok J ∧ m'.cache = .some k ∧ ∀ i b c,
      (J i b c + J i c b) / 2 + m.ν * ∑ t, k.lambdas (i, t) * e b c t
        = ∑ a, m.R i b a * (∑ k, m.C i a k * h k) * m.R i c a := by
  obtain ⟨hd, rfl⟩ := Implicit1.fill_ok hf
  refine ⟨.fp m.r m.gd _ m.σ, _, _, rfl, (avail_fp_one ..).jacobians _, rfl, fun i b c => ?_⟩
  rw [strain_expand he (fun i => fieldJac _ (m.gd i)), aqh_expand he, Finset.mul_sum, ← Finset.sum_add_distrib]
  refine Finset.sum_congr rfl fun t _ => ?_
  have h1 := congrFun (inv_apply hd (m.aqh h)) (i, t)
  rw [m.sks_eq, smul_one_mulVec', gramMat_comb (m.comb _), rep_pair (isRep_fp m.r m.gd _ m.σ) (avail_fp_one ..),
    strainAtom_pair, ← m.sks_eq] at h1
  rw [← h1]
  dsimp only
  ring

/-- Without regularisation the prescribed strain is met exactly. -/
theorem C21_implicit1_exact {n p : Nat} (m m' : Implicit1 d n p) (h : Fin p → ℝ) (hf : m.fill h = .ok m')
    (hν : m.ν = 0) (he : d = 2 ∨ d = 3) :
    ∃ f J, m'.field = .ok f ∧ f.jacobians m.gd = .ok J ∧ ∀ i b c,
      (J i b c + J i c b) / 2 = ∑ a, m.R i b a * (∑ k, m.C i a k * h k) * m.R i c a := by
  obtain ⟨e, he⟩ := (C22_dimensions d).1.mpr he
  obtain ⟨f, J, k, h1, h2, -, h3⟩ := C21_implicit1 m m' h hf he
  exact ⟨f, J, h1, h2, fun i b c => by rw [← h3, hν, zero_mul, add_zero]⟩

/-- The divergence at the constraint points, times the weight of the constraint, is minus `ν`
times the multiplier; the velocity at the control points is the control up to `ν` times the
multiplier. -/
theorem C21_divFree {N P : Nat} (m m' : DivFree d N P) (h : Fin P → Vec d) (hf : m.fill h = .ok m') :
    ∃ f J V l, m'.field = .ok f ∧ f.jacobians m.X = .ok J ∧ f.values m.Y = .ok V ∧ m'.lambdas = some l ∧
      (∀ i, m.coeffDiv * ∑ k, J i k k = -(m.ν * l (.inl i))) ∧
      (∀ j c, V j c = h j c - m.ν * l (.inr (j, c))) := by
  obtain ⟨hd, rfl⟩ := DivFree.fill_ok hf
  have key := fun q => congrFun (inv_apply hd (zeroThen h)) q
  generalize hl : m.SKS⁻¹ *ᵥ zeroThen h = l at key
  have hk : ∀ q, (m.fam q).pair (fieldVal _) (fieldJac _) + m.ν * l q = zeroThen h q := fun q => by
    rw [← key q, m.SKS_eq, smul_one_mulVec', gramMat_comb (m.comb l), rep_pair (m.isRep l) (m.avail l)]
  refine ⟨_, _, _, l, (by rw [← hl]; rfl), (m.avail l).jacobians _, (m.isRep l).avail.values _, congrArg some hl, ?_, ?_⟩
  · intro i
    have := hk (.inl i)
    rw [show m.fam (.inl i) = divAtom m.coeffDiv m.X i from rfl, divAtom_pair,
      show zeroThen h (Sum.inl i) = 0 from rfl] at this
    linarith
  · intro j c
    have := hk (.inr (j, c))
    rw [show m.fam (.inr (j, c)) = pointAtom m.Y (j, c) from rfl, pointAtom_pair,
      show zeroThen h (Sum.inr (j, c)) = h j c from rfl] at this
    dsimp only at this ⊢; linarith

/-- Without regularisation: no divergence at the constraint points and the prescribed velocity at
the control points. -/
theorem C21_divFree_exact {N P : Nat} (m m' : DivFree d N P) (h : Fin P → Vec d) (hf : m.fill h = .ok m')
    (hν : m.ν = 0) (hα : m.coeffDiv ≠ 0) :
    ∃ f J, m'.field = .ok f ∧ f.jacobians m.X = .ok J ∧ f.values m.Y = .ok h ∧ ∀ i, ∑ k, J i k k = 0 := by
  obtain ⟨f, J, V, l, h1, h2, h3, -, h4, h5⟩ := C21_divFree m m' h hf
  have : V = h := by funext j c; rw [h5, hν]; ring
  rw [this] at h3
  refine ⟨f, J, h1, h2, h3, fun i => ?_⟩
  have := h4 i
  rw [hν, zero_mul, neg_zero] at this
  exact (mul_eq_zero.mp this).resolve_left hα

/-- The same for the as-rigid-as-possible module and the whole strain. -/
theorem C21_arap {N P : Nat} (m m' : Arap d N P) (h : Fin P → Vec d) (hf : m.fill h = .ok m')
    {e : Fin d → Fin d → Fin (symDim d) → ℝ} (he : eta d = .ok e) :
    ∃ f J V l, m'.field = .ok f ∧ f.jacobians m.X = .ok J ∧ f.values m.Y = .ok V ∧ m'.lambdas = some l ∧
      (∀ i b c, m.coeffArap * ((J i b c + J i c b) / 2) = -(m.ν * ∑ t, l (.inl (i, t)) * e b c t)) ∧
      (∀ j c, V j c = h j c - m.ν * l (.inr (j, c))) := by
  obtain ⟨hd, rfl⟩ := Arap.fill_ok hf
  have key := fun q => congrFun (inv_apply hd (zeroThen h)) q
  generalize hl : m.SKS⁻¹ *ᵥ zeroThen h = l at key
  have hk : ∀ q, (m.fam q).pair (fieldVal _) (fieldJac _) + m.ν * l q = zeroThen h q := fun q => by
    rw [← key q, m.SKS_eq, smul_one_mulVec', gramMat_comb (m.comb l), rep_pair (m.isRep l) (m.avail l)]
  refine ⟨_, _, _, l, (by rw [← hl]; rfl), (m.avail l).jacobians _, (m.isRep l).avail.values _, congrArg some hl, ?_, ?_⟩
  · intro i b c
    rw [strain_expand he (fun i => fieldJac _ (m.X i)), Finset.mul_sum, Finset.mul_sum, ← Finset.sum_neg_distrib]
    refine Finset.sum_congr rfl fun t _ => ?_
    have := hk (.inl (i, t))
    rw [show m.fam (.inl (i, t)) = arapAtom m.coeffArap m.X (i, t) from rfl, arapAtom_smul, strainAtom_pair,
      show zeroThen h (Sum.inl (i, t)) = 0 from rfl] at this
    linear_combination e b c t * this
  · intro j c
    have := hk (.inr (j, c))
    rw [show m.fam (.inr (j, c)) = pointAtom m.Y (j, c) from rfl, pointAtom_pair,
      show zeroThen h (Sum.inr (j, c)) = h j c from rfl] at this
    dsimp only at this ⊢; linarith

/-- Without regularisation: no strain at the constraint points. -/
theorem C21_arap_exact {N P : Nat} (m m' : Arap d N P) (h : Fin P → Vec d) (hf : m.fill h = .ok m')
    (hν : m.ν = 0) (hα : m.coeffArap ≠ 0) (he : d = 2 ∨ d = 3) :
    ∃ f J, m'.field = .ok f ∧ f.jacobians m.X = .ok J ∧ f.values m.Y = .ok h ∧ ∀ i b c, J i b c + J i c b = 0 := by
  obtain ⟨e, he⟩ := (C22_dimensions d).1.mpr he
  obtain ⟨f, J, V, l, h1, h2, h3, -, h4, h5⟩ := C21_arap m m' h hf he
  have : V = h := by funext j c; rw [h5, hν]; ring
  rw [this] at h3
  refine ⟨f, J, h1, h2, h3, fun i b c => ?_⟩
  have := h4 i b c
  rw [hν, zero_mul, neg_zero] at this
  have := (mul_eq_zero.mp this).resolve_left hα
  linarith

/-! The hypotheses can be met, whatever the points. -/
example {n p : Nat} (m : Implicit1 2 n p) (hν : 0 < m.ν) (h : Fin p → ℝ) : ∃ m', m.fill h = .ok m' :=
  ⟨_, Implicit1.fill_of_det (det_ne_zero_of_pos (m.sks_pos hν)) h⟩
example {N P : Nat} (m : DivFree 3 N P) (hν : 0 < m.ν) (h : Fin P → Vec 3) : ∃ m', m.fill h = .ok m' :=
  ⟨_, DivFree.fill_of_det (det_ne_zero_of_pos (m.SKS_pos hν)) h⟩
/-- One control point, no regularisation and no constraint point. -/
example : ∃ m', (⟨fun _ => 0, fun _ => 0, 1, 1, 0, 1, fun _ => 0, none⟩ : DivFree 2 0 1).fill (fun _ => ![1, 2]) = .ok m' := by
  refine ⟨_, DivFree.fill_of_det ?_ _⟩
  refine det_ne_zero_of_pos fun l hl => ?_
  rw [DivFree.SKS_eq, zero_smul, add_zero]
  refine (gramMat_psd _ _ l).lt_of_ne fun h0 => hl ?_
  have h1 : l ⬝ᵥ gramMat 1 (DivFree.fam ⟨fun _ => 0, fun _ => 0, 1, 1, 0, 1, fun _ => 0, none⟩) *ᵥ l
      = (fun q : Fin 1 × Fin 2 => l (.inr (q.1, q.2))) ⬝ᵥ gramMat 1 (pointAtom fun _ : Fin 1 => (0 : Vec 2)) *ᵥ
        (fun q => l (.inr (q.1, q.2))) := by
    simp only [dotProduct, mulVec, Fintype.sum_sum_type, Finset.univ_eq_empty, Finset.sum_empty, zero_add]
    rfl
  have h2 := point_zero (σ := 1) (by norm_num) (fun _ : Fin 1 => (0 : Vec 2)) (fun i j _ => Subsingleton.elim i j)
    (fun i c => l (.inr (i, c))) (h1 ▸ h0.symm)
  funext q
  rcases q with q | ⟨i, c⟩
  · exact q.elim0
  · exact h2 i c

end
end Imodal
