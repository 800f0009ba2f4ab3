import Verif.Lemmas.ModImplicit
import Verif.Props.C22
import Mathlib.Analysis.SpecialFunctions.Exp
import Mathlib.Data.Finset.Max
/-! The Gram matrix of point values and first derivatives of the Gaussian kernel is positive
definite: point values and derivatives at distinct points are linearly independent. -/
set_option autoImplicit false
namespace Imodal
noncomputable section
open Matrix Filter Topology
variable {d : Nat} {ι : Type} [Fintype ι]

theorem dot_add_right (a x y : Vec d) : dot a (x + y) = dot a x + dot a y := by
  simp [dot, mul_add, Finset.sum_add_distrib]
theorem dot_smul_right (a x : Vec d) (t : ℝ) : dot a (t • x) = t * dot a x := by
  simp only [dot, Pi.smul_apply, smul_eq_mul, Finset.mul_sum]
  exact Finset.sum_congr rfl fun c _ => by ring
theorem dot_zero_right (a : Vec d) : dot a 0 = 0 := by simp [dot]
theorem dot_self_eq_zero {a : Vec d} (h : dot a a = 0) : a = 0 := by
  funext c
  have := (Finset.sum_eq_zero_iff_of_nonneg fun c _ => mul_self_nonneg (a c)).mp h c (Finset.mem_univ c)
  exact mul_self_eq_zero.mp this

/-- An affine function of `t` that tends to 0 is 0. -/
theorem affine_tendsto_zero {A B : ℝ} (h : Tendsto (fun t : ℝ => A + t * B) atTop (𝓝 0)) : A = 0 ∧ B = 0 := by
  have h1 := h.comp (tendsto_atTop_add_const_right atTop (1 : ℝ) tendsto_id)
  have h2 := h1.sub h
  have h3 : (fun t : ℝ => ((fun t : ℝ => A + t * B) ∘ fun t => id t + 1) t - (A + t * B)) = fun _ => B := by
    funext t; simp only [Function.comp, id]; ring
  rw [h3, sub_zero] at h2
  have hB : B = 0 := tendsto_nhds_unique tendsto_const_nhds h2
  rw [hB] at h
  simp only [mul_zero, add_zero] at h
  exact ⟨tendsto_nhds_unique tendsto_const_nhds h, hB⟩

theorem affine_exp_tendsto {A B δ : ℝ} (hδ : 0 < δ) : Tendsto (fun t : ℝ => (A + t * B) * Real.exp (-(δ * t))) atTop (𝓝 0) := by
  have h0 : Tendsto (fun t : ℝ => Real.exp (-(δ * t))) atTop (𝓝 0) :=
    Real.tendsto_exp_neg_atTop_nhds_zero.comp (tendsto_id.const_mul_atTop hδ)
  have h1 : Tendsto (fun t : ℝ => (δ * t) * Real.exp (-(δ * t))) atTop (𝓝 0) := by
    have := (Real.tendsto_pow_mul_exp_neg_atTop_nhds_zero 1).comp (tendsto_id.const_mul_atTop hδ)
    simpa [Function.comp_def] using this
  have h2 := (h0.const_mul A).add (h1.const_mul (B / δ))
  simp only [mul_zero, add_zero] at h2
  refine h2.congr fun t => ?_
  field_simp

/-- Exponentials with different frequencies and affine coefficients are independent. -/
theorem polyExp_indep [DecidableEq (Vec d)] (s : Finset (Vec d)) (β : Vec d → ℝ) (b : Vec d → Vec d) :
    (∀ y, ∑ x ∈ s, (β x + dot (b x) y) * Real.exp (dot x y) = 0) → ∀ x ∈ s, β x = 0 ∧ b x = 0 := by
  refine Finset.induction_on_max_value (fun x : Vec d => dot x x) s (fun _ x hx => absurd hx (Finset.notMem_empty x)) ?_
  intro a s ha hmax ih h
  have hlt : ∀ x ∈ s, 0 < dot a a - dot x a := by
    intro x hx
    have hne : relDiff x a ≠ 0 := fun e => ha (by
      have : x = a := by funext c; have := congrFun e c; simp only [relDiff, Pi.zero_apply] at this; linarith
      exact this ▸ hx)
    have hpos : 0 < dot (relDiff x a) (relDiff x a) := by
      have h0 : 0 ≤ dot (relDiff x a) (relDiff x a) := Finset.sum_nonneg fun c _ => mul_self_nonneg _
      exact h0.lt_of_ne fun e => hne (dot_self_eq_zero e.symm)
    have e : dot (relDiff x a) (relDiff x a) = dot x x - 2 * dot x a + dot a a := by
      unfold dot relDiff
      rw [Finset.mul_sum, ← Finset.sum_sub_distrib, ← Finset.sum_add_distrib]
      exact Finset.sum_congr rfl fun c _ => by ring
    have := hmax x hx
    linarith
  have key : ∀ u, (β a + dot (b a) u) * Real.exp (dot a u) = 0 := by
    intro u
    have hs : Tendsto (fun t : ℝ => ∑ x ∈ s, (((β x + dot (b x) u) * Real.exp (dot x u)) + t * (dot (b x) a * Real.exp (dot x u)))
        * Real.exp (-((dot a a - dot x a) * t))) atTop (𝓝 (∑ _x ∈ s, 0)) :=
      tendsto_finsetSum _ fun x hx => affine_exp_tendsto (hlt x hx)
    rw [Finset.sum_const_zero] at hs
    have hA : Tendsto (fun t : ℝ => ((β a + dot (b a) u) * Real.exp (dot a u)) + t * (dot (b a) a * Real.exp (dot a u))) atTop (𝓝 0) := by
      have := hs.neg
      rw [neg_zero] at this
      refine this.congr fun t => ?_
      have h1 := h (u + t • a)
      rw [Finset.sum_insert ha] at h1
      simp only [dot_add_right, dot_smul_right, Real.exp_add] at h1
      have h2 : (∑ x ∈ s, (β x + (dot (b x) u + t * dot (b x) a)) * (Real.exp (dot x u) * Real.exp (t * dot x a))) * Real.exp (-(t * dot a a))
          = ∑ x ∈ s, (((β x + dot (b x) u) * Real.exp (dot x u)) + t * (dot (b x) a * Real.exp (dot x u)))
            * Real.exp (-((dot a a - dot x a) * t)) := by
        rw [Finset.sum_mul]
        refine Finset.sum_congr rfl fun x _ => ?_
        have : Real.exp (-((dot a a - dot x a) * t)) = Real.exp (t * dot x a) * Real.exp (-(t * dot a a)) := by
          rw [← Real.exp_add]; congr 1; ring
        rw [this]; ring
      rw [← h2]
      have h3 : Real.exp (t * dot a a) * Real.exp (-(t * dot a a)) = 1 := by rw [← Real.exp_add, add_neg_cancel, Real.exp_zero]
      have h4 := congrArg (· * Real.exp (-(t * dot a a))) h1
      simp only [zero_mul, add_mul _ _ (Real.exp (-(t * dot a a)))] at h4
      linear_combination -h4 + ((β a + (dot (b a) u + t * dot (b a) a)) * Real.exp (dot a u)) * h3
    exact (affine_tendsto_zero hA).1
  have hβ : β a = 0 := by
    have := (mul_eq_zero.mp (key 0)).resolve_right (Real.exp_pos _).ne'
    rwa [dot_zero_right, add_zero] at this
  have hb : b a = 0 := by
    have := (mul_eq_zero.mp (key (b a))).resolve_right (Real.exp_pos _).ne'
    rw [hβ, zero_add] at this
    exact dot_self_eq_zero this
  have hrest := ih fun y => by
    have := h y
    rw [Finset.sum_insert ha, hβ, hb] at this
    simpa [dot] using this
  intro x hx
  rcases Finset.mem_insert.mp hx with rfl | hx
  · exact ⟨hβ, hb⟩
  · exact hrest x hx

/-- If the representing field of a combination of functionals vanishes, the functionals cancel at
every place. -/
theorem rep_zero_places {σ : ℝ} (hσ : σ ≠ 0) (a : ι → Atom d) (l : ι → ℝ)
    (h : ∀ y b, ∑ q, l q * (a q).rep σ y b = 0) (z : Vec d) [DecidableEq (Vec d)] (b : Fin d) :
    (∑ q, if (a q).x = z then l q * (a q).α b else 0) = 0 ∧
    ∀ c, (∑ q, if (a q).x = z then l q * (a q).M b c else 0) = 0 := by
  set S : Vec d → ℝ := fun z => ∑ q, if (a q).x = z then l q * (a q).α b else 0 with hS
  set T : Vec d → Vec d := fun z c => ∑ q, if (a q).x = z then l q * (a q).M b c else 0 with hT
  set w : Vec d → ℝ := fun z => Real.exp (-(∑ c, z c ^ 2) / (2 * σ ^ 2)) with hw
  have hσ2 : σ ^ 2 ≠ 0 := pow_ne_zero 2 hσ
  have term : ∀ y q, (a q).rep σ (σ ^ 2 • y) b
      = Real.exp (-(∑ c, (σ ^ 2 • y) c ^ 2) / (2 * σ ^ 2)) *
        (w (a q).x * ((a q).α b - dot ((a q).M b) (a q).x / σ ^ 2 + dot ((a q).M b) y) * Real.exp (dot (a q).x y)) := by
    intro y q
    unfold Atom.rep
    have e1 : ∑ c, g1 σ (relDiff (σ ^ 2 • y) (a q).x) c * (a q).M b c
        = -kXY σ (σ ^ 2 • y) (a q).x * (dot ((a q).M b) y - dot ((a q).M b) (a q).x / σ ^ 2) := by
      unfold g1 dot
      rw [gauss0_relDiff, Finset.sum_div, ← Finset.sum_sub_distrib, Finset.mul_sum]
      refine Finset.sum_congr rfl fun c _ => ?_
      simp only [relDiff, Pi.smul_apply, smul_eq_mul]
      field_simp
    have e2 : kXY σ (σ ^ 2 • y) (a q).x = Real.exp (-(∑ c, (σ ^ 2 • y) c ^ 2) / (2 * σ ^ 2)) * w (a q).x
        * Real.exp (dot (a q).x y) := by
      rw [kXY_factor]
      congr 2
      rw [div_eq_iff hσ2]
      unfold dot
      rw [Finset.sum_mul]
      exact Finset.sum_congr rfl fun c _ => by simp only [Pi.smul_apply, smul_eq_mul]; ring
    rw [e1, e2]; ring
  have hsum : ∀ y, ∑ x ∈ Finset.univ.image fun q => (a q).x,
      (w x * (S x - dot (T x) x / σ ^ 2) + dot (w x • T x) y) * Real.exp (dot x y) = 0 := by
    intro y
    have h1 := h (σ ^ 2 • y) b
    simp only [term] at h1
    have h2 : ∑ q, l q * (w (a q).x * ((a q).α b - dot ((a q).M b) (a q).x / σ ^ 2 + dot ((a q).M b) y) * Real.exp (dot (a q).x y)) = 0 := by
      have : Real.exp (-(∑ c, (σ ^ 2 • y) c ^ 2) / (2 * σ ^ 2)) *
          ∑ q, l q * (w (a q).x * ((a q).α b - dot ((a q).M b) (a q).x / σ ^ 2 + dot ((a q).M b) y) * Real.exp (dot (a q).x y)) = 0 := by
        rw [← h1, Finset.mul_sum]
        exact Finset.sum_congr rfl fun q _ => by ring
      exact (mul_eq_zero.mp this).resolve_left (Real.exp_pos _).ne'
    rw [← h2, ← Finset.sum_fiberwise_of_maps_to (s := Finset.univ) (t := Finset.univ.image fun q => (a q).x)
      (g := fun q => (a q).x) fun q _ => Finset.mem_image_of_mem _ (Finset.mem_univ q)]
    refine Finset.sum_congr rfl fun x _ => ?_
    have e : ∀ q ∈ Finset.univ.filter (fun q => (a q).x = x),
        l q * (w (a q).x * ((a q).α b - dot ((a q).M b) (a q).x / σ ^ 2 + dot ((a q).M b) y) * Real.exp (dot (a q).x y))
        = w x * Real.exp (dot x y) * (l q * (a q).α b) - w x * Real.exp (dot x y) / σ ^ 2 * ∑ c, l q * (a q).M b c * x c
          + w x * Real.exp (dot x y) * ∑ c, l q * (a q).M b c * y c := by
      intro q hq
      rw [(Finset.mem_filter.mp hq).2]
      unfold dot
      have t : ∀ v : Vec d, ∑ c, l q * (a q).M b c * v c = l q * ∑ c, (a q).M b c * v c := fun v => by
        rw [Finset.mul_sum]; exact Finset.sum_congr rfl fun c _ => by ring
      rw [t, t]
      ring
    rw [Finset.sum_congr rfl e, Finset.sum_add_distrib, Finset.sum_sub_distrib, ← Finset.mul_sum, ← Finset.mul_sum, ← Finset.mul_sum]
    have hST : S x = ∑ q ∈ Finset.univ.filter (fun q => (a q).x = x), l q * (a q).α b := by
      rw [hS, Finset.sum_filter]
    have hTT : ∀ v : Vec d, dot (T x) v = ∑ q ∈ Finset.univ.filter (fun q => (a q).x = x), ∑ c, l q * (a q).M b c * v c := by
      intro v
      rw [Finset.sum_comm]
      unfold dot
      refine Finset.sum_congr rfl fun c _ => ?_
      rw [← Finset.sum_mul, hT, Finset.sum_filter]
    rw [← hST, ← hTT, ← hTT]
    have hsm : dot (w x • T x) y = w x * dot (T x) y := by
      unfold dot; rw [Finset.mul_sum]; exact Finset.sum_congr rfl fun c _ => by simp only [Pi.smul_apply, smul_eq_mul]; ring
    rw [hsm]
    ring
  have hind := polyExp_indep _ _ _ hsum
  show S z = 0 ∧ ∀ c, T z c = 0
  by_cases hz : z ∈ Finset.univ.image fun q => (a q).x
  · obtain ⟨h1, h2⟩ := hind z hz
    have hw0 : w z ≠ 0 := (Real.exp_pos _).ne'
    have hTz : T z = 0 := (smul_eq_zero.mp h2).resolve_left hw0
    have h3 := (mul_eq_zero.mp h1).resolve_left hw0
    rw [hTz] at h3
    refine ⟨by simpa [dot] using h3, fun c => congrFun hTz c⟩
  · have hno : ∀ q, (a q).x ≠ z := fun q e => hz (e ▸ Finset.mem_image_of_mem _ (Finset.mem_univ q))
    exact ⟨by simp [hS, hno], fun c => by simp [hT, hno]⟩

/-- A combination of functionals whose Gram form vanishes has vanishing representing field. -/
theorem rep_zero_of_gram (σ : ℝ) (a : ι → Atom d) (l : ι → ℝ) (h : l ⬝ᵥ gramMat σ a *ᵥ l = 0) (y : Vec d) (b : Fin d) :
    ∑ q, l q * (a q).rep σ y b = 0 := by
  set B := ∑ q, l q * (a q).rep σ y b with hB
  have hq : ∀ t : ℝ, 0 ≤ 2 * t * B + t ^ 2 := by
    intro t
    have h0 := gramMat_psd σ (fun q : Option ι => q.elim (atom0 y (Pi.single b 1)) a) (fun q => q.elim t l)
    have e0 : ∀ q, (atom0 y (Pi.single b 1)).pair ((a q).rep σ) ((a q).repJ σ) = (a q).rep σ y b := by
      intro q; simp [Atom.pair, atom0, Pi.single_apply]
    have e1 : ∀ q, (a q).pair ((atom0 y (Pi.single b 1)).rep σ) ((atom0 y (Pi.single b 1)).repJ σ) = (a q).rep σ y b := by
      intro q; rw [atom_gram_symm, e0]
    have e2 : (atom0 y (Pi.single b 1)).pair ((atom0 y (Pi.single b 1)).rep σ) ((atom0 y (Pi.single b 1)).repJ σ) = 1 := by
      simp [Atom.pair, atom0, Atom.rep, Pi.single_apply, kXY_self]
    simp only [dotProduct, mulVec, Fintype.sum_option, gramMat, Matrix.of_apply, Option.elim_none, Option.elim_some, e0, e1, e2] at h0
    have h1 : ∑ q, l q * ∑ r, (a q).pair ((a r).rep σ) ((a r).repJ σ) * l r = 0 := h
    have h2 : ∑ q, l q * ((a q).rep σ y b * t + ∑ r, (a q).pair ((a r).rep σ) ((a r).repJ σ) * l r) = B * t + 0 := by
      rw [← h1, hB, Finset.sum_mul, ← Finset.sum_add_distrib]
      exact Finset.sum_congr rfl fun q _ => by ring
    have h3 : ∑ q, (a q).rep σ y b * l q = B := Finset.sum_congr rfl fun q _ => mul_comm _ _
    rw [h2, h3] at h0
    linarith
  have h1 := hq (-B)
  have h2 : B ^ 2 ≤ 0 := by nlinarith
  exact pow_eq_zero_iff two_ne_zero |>.mp (le_antisymm h2 (sq_nonneg B))

/-! ### The families of the library -/

/-- Coefficients in the strain basis are determined by the matrix. -/
theorem eta_coeff_zero (hd : d = 2 ∨ d = 3) {l : Fin (symDim d) → ℝ} (h : ∀ b c, ∑ t, l t * etaOf d b c t = 0)
    (u : Fin (symDim d)) : l u = 0 := by
  obtain ⟨e, he⟩ := (C22_dimensions d).1.mpr hd
  have hE : etaOf d = e := by unfold etaOf; rw [he]
  rw [hE] at h
  have h1 : ∑ b, ∑ c, e b c u * ∑ t, l t * e b c t = 0 :=
    Finset.sum_eq_zero fun b _ => Finset.sum_eq_zero fun c _ => by rw [h b c, mul_zero]
  have h2 : ∑ b, ∑ c, e b c u * ∑ t, l t * e b c t = ∑ t, l t * ∑ b, ∑ c, e b c t * e b c u := by
    simp only [Finset.mul_sum]
    rw [Finset.sum_comm' (s := Finset.univ) (t := fun _ => Finset.univ) (t' := Finset.univ) (s' := fun _ => Finset.univ) (by simp)]
    refine (Finset.sum_congr rfl fun c _ => Finset.sum_comm).trans ?_
    rw [Finset.sum_comm]
    refine Finset.sum_congr rfl fun t _ => ?_
    rw [Finset.sum_comm]
    exact Finset.sum_congr rfl fun b _ => Finset.sum_congr rfl fun c _ => by ring
  rw [h2] at h1
  simp only [C22_orthonormal he] at h1
  simpa using h1

/-- Strains at distinct points are independent. -/
theorem strain_pos {σ : ℝ} (hσ : σ ≠ 0) (hd : d = 2 ∨ d = 3) {n : Nat} (x : Fin n → Vec d) (hx : Function.Injective x)
    (l : Fin n × Fin (symDim d) → ℝ) (hl : l ≠ 0) : 0 < l ⬝ᵥ gramMat σ (strainAtom x) *ᵥ l := by
  classical
  refine (gramMat_psd σ _ l).lt_of_ne fun h => hl ?_
  funext ⟨i, u⟩
  refine eta_coeff_zero hd (l := fun u => l (i, u)) (fun b c => ?_) u
  have := (rep_zero_places hσ _ l (rep_zero_of_gram σ _ l h.symm) (x i) b).2 c
  rw [Fintype.sum_prod_type, Finset.sum_eq_single i] at this
  · simpa [strainAtom, atom1, etaM_apply] using this
  · intro j _ hj
    exact Finset.sum_eq_zero fun u _ => if_neg fun e => hj (hx e)
  · simp

/-- Values at distinct points and divergences at distinct points are independent. -/
theorem DivFree.fam_pos {N P : Nat} (m : DivFree d N P) (hσ : m.σ ≠ 0) (hα : m.coeffDiv ≠ 0) (hd : d ≠ 0)
    (hX : Function.Injective m.X) (hY : Function.Injective m.Y) (l : _ → ℝ) (hl : l ≠ 0) :
    0 < l ⬝ᵥ gramMat m.σ m.fam *ᵥ l := by
  classical
  refine (gramMat_psd _ _ l).lt_of_ne fun h => hl ?_
  have key := fun z b => rep_zero_places hσ _ l (rep_zero_of_gram _ _ l h.symm) z b
  funext q
  rcases q with i | ⟨j, c⟩
  · have := (key (m.X i) ⟨0, Nat.pos_of_ne_zero hd⟩).2 ⟨0, Nat.pos_of_ne_zero hd⟩
    rw [Fintype.sum_sum_type, Finset.sum_eq_single i] at this
    · simpa [DivFree.fam, divAtom, pointAtom, atom0, atom1, hα] using this
    · intro k _ hk
      exact if_neg fun e => hk (hX e)
    · simp
  · have := (key (m.Y j) c).1
    rw [Fintype.sum_sum_type, Fintype.sum_prod_type, Finset.sum_eq_single (s := Finset.univ (α := Fin P)) j] at this
    · simpa [DivFree.fam, divAtom, pointAtom, atom0, atom1, Pi.single_apply] using this
    · intro k _ hk
      exact Finset.sum_eq_zero fun u _ => if_neg fun e => hk (hY e)
    · simp

/-- Values at distinct points and strains at distinct points are independent. -/
theorem Arap.fam_pos {N P : Nat} (m : Arap d N P) (hσ : m.σ ≠ 0) (hα : m.coeffArap ≠ 0) (hd : d = 2 ∨ d = 3)
    (hX : Function.Injective m.X) (hY : Function.Injective m.Y) (l : _ → ℝ) (hl : l ≠ 0) :
    0 < l ⬝ᵥ gramMat m.σ m.fam *ᵥ l := by
  classical
  refine (gramMat_psd _ _ l).lt_of_ne fun h => hl ?_
  have key := fun z b => rep_zero_places hσ _ l (rep_zero_of_gram _ _ l h.symm) z b
  funext q
  rcases q with ⟨i, u⟩ | ⟨j, c⟩
  · refine eta_coeff_zero hd (l := fun u => l (.inl (i, u))) (fun b c => ?_) u
    have := (key (m.X i) b).2 c
    rw [Fintype.sum_sum_type, Fintype.sum_prod_type, Finset.sum_eq_single (s := Finset.univ (α := Fin N)) i] at this
    · have h2 : m.coeffArap * ∑ t, l (.inl (i, t)) * etaOf d b c t = 0 := by
        rw [← this, Finset.mul_sum]
        simp only [Arap.fam, arapAtom, pointAtom, atom0, atom1, Sum.elim_inl, Sum.elim_inr, if_true, Matrix.zero_apply, mul_zero, ite_self,
          Finset.sum_const_zero, add_zero, Matrix.smul_apply, etaM_apply, smul_eq_mul]
        exact Finset.sum_congr rfl fun t _ => by ring
      exact (mul_eq_zero.mp h2).resolve_left hα
    · intro k _ hk
      exact Finset.sum_eq_zero fun u _ => if_neg fun e => hk (hX e)
    · simp
  · have := (key (m.Y j) c).1
    rw [Fintype.sum_sum_type] at this
    rw [Fintype.sum_prod_type (f := fun q : Fin P × Fin d => if (m.fam (Sum.inr q)).x = m.Y j then l (Sum.inr q) * (m.fam (Sum.inr q)).α c else 0),
      Finset.sum_eq_single (s := Finset.univ (α := Fin P)) j] at this
    · simpa [Arap.fam, arapAtom, pointAtom, atom0, atom1, Pi.single_apply] using this
    · intro k _ hk
      exact Finset.sum_eq_zero fun u _ => if_neg fun e => hk (hY e)
    · simp

end
end Imodal
