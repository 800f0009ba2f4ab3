import Verif.Lemmas.Repr
import Verif.Spec.Modules
/-!
# C15 The dual field represents the momentum

`M.innerProd f` is `inner_prod_field(f)`, `M.cotToVs σ r` is `cot_to_vs(sigma, backend)`,
`w.values pts` is `w(pts)` and `w.jacobians pts` is `w(pts, k=1)`.
-/
set_option autoImplicit false
namespace Imodal
variable {d : Nat}

mutual
/-- A pairing that succeeds without the Jacobian of the field does not look at it. -/
theorem innerProd_jac {f : FieldExpr d} : (M : Mfd d) → {a : ℝ} → M.innerProd f = .ok a →
    Avail 1 f ∨ ∀ p ∈ momAtoms M, p.M = 0
  | .landmarks gd cot, a, h => by
    right
    rw [momAtoms]
    intro p hp
    obtain ⟨i, rfl⟩ := (List.mem_ofFn' _ _).mp hp
    rfl
  | .direction t gd dir cot cdir, a, h => by
    left
    rw [Mfd.innerProd] at h
    unfold actDirection at h
    cases h1 : f.values gd with
    | error e => rw [h1] at h; cases h
    | ok v =>
      cases h2 : f.jacobians gd with
      | error e => rw [h1, h2] at h; cases h
      | ok J => exact (jacobians_ok h2).1
  | .frame gd R cot cR, a, h => by
    left
    rw [Mfd.innerProd] at h
    unfold actFrame at h
    cases h1 : f.values gd with
    | error e => rw [h1] at h; cases h
    | ok v =>
      cases h2 : f.jacobians gd with
      | error e => rw [h1, h2] at h; cases h
      | ok J => exact (jacobians_ok h2).1
  | .empty, a, h => Or.inr fun p hp => nomatch hp
  | .compound ms, a, h => by
    rw [momAtoms]; exact innerProdAll_jac ms h
theorem innerProdAll_jac {f : FieldExpr d} : (ms : List (Mfd d)) → {a : ℝ} → Mfd.innerProdAll f ms = .ok a →
    Avail 1 f ∨ ∀ p ∈ momAtomsAll ms, p.M = 0
  | [], a, h => Or.inr fun p hp => nomatch hp
  | m :: ms, a, h => by
    rw [Mfd.innerProdAll] at h
    cases h1 : Mfd.innerProd f m with
    | error e => rw [h1] at h; cases h
    | ok p =>
      cases h2 : Mfd.innerProdAll f ms with
      | error e => rw [h1, h2] at h; cases h
      | ok q =>
        rcases innerProd_jac m h1 with h | h
        · exact Or.inl h
        · rcases innerProdAll_jac ms h2 with h' | h'
          · exact Or.inl h'
          · right
            rw [momAtomsAll]
            intro p hp
            rcases List.mem_append.mp hp with hp | hp
            · exact h p hp
            · exact h' p hp
end

/-- A successful pairing with a kernel field is the product of the two functionals. -/
theorem innerProd_eq_gram {σ : ℝ} {f : FieldExpr d} {A : List (Atom d)} (hf : IsRep σ f A)
    {M : Mfd d} {a : ℝ} (h : M.innerProd f = .ok a) : a = gram σ (momAtoms M) A := by
  rw [innerProd_ok M h]
  unfold gram
  rcases innerProd_jac M h with h1 | h1
  · rw [funext hf.val, funext (hf.jac h1)]
  · rw [funext hf.val]
    exact pair_no_matrix h1 _ _ _

/-- **C15.** Pairing any momentum with the action of the kernel field `(supp, mom)` succeeds and
equals the moments paired with the dual field at the support. All manifolds, both transports,
compounds of any depth, both backends on either side, any `σ`. -/
theorem C15_duality (M : Mfd d) (σ : ℝ) (r r' : Reduction) {w : FieldExpr d}
    (hw : M.cotToVs σ r' = .ok w) {n : Nat} (supp mom : Fin n → Vec d) :
    ∃ (a : ℝ) (W : Fin n → Vec d),
      M.innerProd (.f0 r supp mom σ) = .ok a ∧ w.values supp = .ok W ∧
        a = ∑ j, ∑ b, mom j b * W j b := by
  have hf := isRep_f0 r supp mom σ
  have hW := cotToVs_isRep M hw
  refine ⟨_, _, innerProd_rep hf (avail_f0_one r supp mom σ) M, hW.avail.values supp, ?_⟩
  rw [gram_symm]
  unfold gram
  rw [pair_ofFn]
  simp only [atom0_pair, hW.val]

/-- The same for the matrix-valued kernel fields, whenever the dual field offers its Jacobian:
`StructuredField_p` is paired with the symmetric part. -/
theorem C15_duality_p (M : Mfd d) (σ : ℝ) (r r' : Reduction) {w : FieldExpr d}
    (hw : M.cotToVs σ r' = .ok w) {n : Nat} (supp : Fin n → Vec d) (P : Fin n → Mat d)
    {J : Fin n → Mat d} (hJ : w.jacobians supp = .ok J) :
    ∃ a : ℝ, M.innerProd (.fp r supp P σ) = .ok a ∧
      a = ∑ j, ∑ b, ∑ c, P j b c * ((J j b c + J j c b) / 2) := by
  have hW := cotToVs_isRep M hw
  obtain ⟨hav, rfl⟩ := jacobians_ok hJ
  refine ⟨_, innerProd_rep (isRep_fp r supp P σ) (avail_fp_one r supp P σ) M, ?_⟩
  rw [gram_symm]
  unfold gram
  rw [pair_ofFn]
  simp only [atom1_pair, hW.jac hav]
  refine Finset.sum_congr rfl fun j _ => ?_
  set J := repJ σ (momAtoms M) (supp j)
  have e : ∑ b, ∑ c, symPart (P j) b c * J b c
      = ∑ b, ∑ c, P j b c * J b c / 2 + ∑ b, ∑ c, P j c b * J b c / 2 := by
    simp only [← Finset.sum_add_distrib]
    exact Finset.sum_congr rfl fun b _ => Finset.sum_congr rfl fun c _ => by unfold symPart; ring
  have e2 : ∑ b, ∑ c, P j c b * J b c / 2 = ∑ b, ∑ c, P j b c * J c b / 2 := Finset.sum_comm
  rw [e, e2]
  simp only [← Finset.sum_add_distrib]
  exact Finset.sum_congr rfl fun b _ => Finset.sum_congr rfl fun c _ => by ring

/-- `StructuredField_m` is paired with the skew part. -/
theorem C15_duality_m (M : Mfd d) (σ : ℝ) (r r' : Reduction) {w : FieldExpr d}
    (hw : M.cotToVs σ r' = .ok w) {n : Nat} (supp : Fin n → Vec d) (P : Fin n → Mat d)
    {J : Fin n → Mat d} (hJ : w.jacobians supp = .ok J) :
    ∃ a : ℝ, M.innerProd (.fm r supp P σ) = .ok a ∧
      a = ∑ j, ∑ b, ∑ c, P j b c * ((J j b c - J j c b) / 2) := by
  have hW := cotToVs_isRep M hw
  obtain ⟨hav, rfl⟩ := jacobians_ok hJ
  refine ⟨_, innerProd_rep (isRep_fm r supp P σ) (avail_fm_one r supp P σ) M, ?_⟩
  rw [gram_symm]
  unfold gram
  rw [pair_ofFn]
  simp only [atom1_pair, hW.jac hav]
  refine Finset.sum_congr rfl fun j _ => ?_
  set J := repJ σ (momAtoms M) (supp j)
  have e : ∑ b, ∑ c, skewPart (P j) b c * J b c
      = ∑ b, ∑ c, P j b c * J b c / 2 - ∑ b, ∑ c, P j c b * J b c / 2 := by
    simp only [← Finset.sum_sub_distrib]
    exact Finset.sum_congr rfl fun b _ => Finset.sum_congr rfl fun c _ => by unfold skewPart; ring
  have e2 : ∑ b, ∑ c, P j c b * J b c / 2 = ∑ b, ∑ c, P j b c * J c b / 2 := Finset.sum_comm
  rw [e, e2]
  simp only [← Finset.sum_sub_distrib]
  exact Finset.sum_congr rfl fun b _ => Finset.sum_congr rfl fun c _ => by ring

/-- `StructuredField_1` is paired with the divergence. -/
theorem C15_duality_1 (M : Mfd d) (σ : ℝ) (r' : Reduction) {w : FieldExpr d}
    (hw : M.cotToVs σ r' = .ok w) {n : Nat} (supp : Fin n → Vec d) (m : Fin n → ℝ)
    {J : Fin n → Mat d} (hJ : w.jacobians supp = .ok J) :
    ∃ a : ℝ, M.innerProd (.f1 .torch supp m σ) = .ok a ∧ a = ∑ j, m j * ∑ b, J j b b := by
  have hW := cotToVs_isRep M hw
  obtain ⟨hav, rfl⟩ := jacobians_ok hJ
  refine ⟨_, innerProd_rep (isRep_f1 supp m σ) (avail_f1_one supp m σ) M, ?_⟩
  rw [gram_symm]
  unfold gram
  rw [pair_ofFn]
  simp only [atom1_pair, hW.jac hav]
  refine Finset.sum_congr rfl fun j _ => ?_
  rw [Finset.mul_sum]
  refine Finset.sum_congr rfl fun b _ => ?_
  simp [Matrix.one_apply]

/-- The product of two momenta defined by the dual fields is symmetric. -/
theorem C15_symmetric (M N : Mfd d) (σ : ℝ) (r r' : Reduction) {v w : FieldExpr d}
    (hv : M.cotToVs σ r = .ok v) (hw : N.cotToVs σ r' = .ok w) {a b : ℝ}
    (ha : M.innerProd w = .ok a) (hb : N.innerProd v = .ok b) : a = b := by
  rw [innerProd_eq_gram (cotToVs_isRep N hw) ha, innerProd_eq_gram (cotToVs_isRep M hv) hb, gram_symm]

/-- The squared norm of a momentum is not negative. -/
theorem C15_nonneg (M : Mfd d) (σ : ℝ) (r : Reduction) {w : FieldExpr d}
    (hw : M.cotToVs σ r = .ok w) {a : ℝ} (ha : M.innerProd w = .ok a) : 0 ≤ a := by
  rw [innerProd_eq_gram (cotToVs_isRep M hw) ha]
  exact gram_nonneg σ _

theorem mkSumField_cons (f : FieldExpr d) (fs : List (FieldExpr d)) : mkSumField (f :: fs) = .ok (.sum (f :: fs)) := rfl

mutual
/-- `cot_to_vs` succeeds for every manifold (compounds must have members). -/
theorem C15_available (σ : ℝ) (r : Reduction) : (M : Mfd d) → M.NoEmptyCompound → ∃ w, M.cotToVs σ r = .ok w
  | .landmarks gd cot, _ => ⟨_, rfl⟩
  | .direction .vector gd dir cot cdir, _ => ⟨_, rfl⟩
  | .direction .orthogonal gd dir cot cdir, _ => ⟨_, rfl⟩
  | .frame gd R cot cR, _ => ⟨_, rfl⟩
  | .empty, _ => ⟨_, rfl⟩
  | .compound ms, h => by
    rw [Mfd.NoEmptyCompound] at h
    obtain ⟨fs, hfs, hl⟩ := cotToVsAll_available σ r ms h.2
    rw [Mfd.cotToVs, hfs]
    match fs, ms, hl, h.1 with
    | [], [], _, h0 => exact absurd rfl h0
    | f :: fs, _, _, _ => exact ⟨_, rfl⟩
theorem cotToVsAll_available (σ : ℝ) (r : Reduction) : (ms : List (Mfd d)) → Mfd.AllNoEmptyCompound ms →
    ∃ fs, Mfd.cotToVsAll σ r ms = .ok fs ∧ fs.length = ms.length
  | [], _ => ⟨[], rfl, rfl⟩
  | m :: ms, h => by
    rw [Mfd.AllNoEmptyCompound] at h
    obtain ⟨w, hw⟩ := C15_available σ r m h.1
    obtain ⟨fs, hfs, hl⟩ := cotToVsAll_available σ r ms h.2
    exact ⟨w :: fs, by rw [Mfd.cotToVsAll, hw, hfs], by simp [hl]⟩
end

-- a compound of one landmark, one direction pair, one frame and an empty manifold
example (x p u q : Vec 2) (R P : Mat 2) (σ : ℝ) (s m : Vec 2) :
    ∃ w, (Mfd.compound [.landmarks (fun _ : Fin 1 => x) (fun _ => p),
        .direction .orthogonal (fun _ : Fin 1 => x) (fun _ => u) (fun _ => p) (fun _ => q),
        .frame (fun _ : Fin 1 => x) (fun _ => R) (fun _ => p) (fun _ => P), .empty]).cotToVs σ .torch = .ok w :=
  ⟨_, rfl⟩

-- the pairing is not trivial: one landmark, one support point at the same place
example : (Mfd.landmarks (fun _ : Fin 1 => (0 : Vec 1)) (fun _ => 1)).innerProd
    (.f0 .torch (fun _ : Fin 1 => 0) (fun _ => 1) 1) = .ok 1 := by
  rw [innerProd_rep (isRep_f0 _ _ _ _) (avail_f0_one _ _ _ _), momAtoms, gram_ofFn]
  simp [Atom.pair, Atom.rep, atom0, kXY, sqDistance]

end Imodal
