import Verif.Lemmas.ModCompound
/-! The quadratic form of a module does not depend on the momentum, and the linear form depends
linearly on it. -/
set_option autoImplicit false
namespace Imodal
noncomputable section
open Matrix
variable {d : Nat}

/-- A family of numbers that depends on a manifold only through the pairing of its momentum with
fields, and linearly. -/
def PairLin {ι : Type} (s : Mfd d → ι → ℝ) : Prop :=
  ∀ (man₁ man₂ man₃ : Mfd d) (t : ℝ),
    (∀ v J, pair (momAtoms man₃) v J = pair (momAtoms man₁) v J + t * pair (momAtoms man₂) v J) →
    s man₃ = s man₁ + t • s man₂

theorem PairLin.dualVec {ι : Type} (σ : ℝ) (a : ι → Atom d) : PairLin fun man => dualVec σ a (momAtoms man) := by
  intro man₁ man₂ man₃ t h
  funext q
  simp only [Imodal.dualVec, Pi.add_apply, Pi.smul_apply, smul_eq_mul]
  rw [gram_atom, gram_atom, gram_atom, h]

theorem PairLin.mulVec {ι κ : Type} [Fintype ι] {s : Mfd d → ι → ℝ} (A : Matrix κ ι ℝ) (h : PairLin s) :
    PairLin fun man => A *ᵥ s man := by
  intro man₁ man₂ man₃ t hp
  simp only [h man₁ man₂ man₃ t hp, mulVec_add, mulVec_smul]

theorem PairLin.apply {ι : Type} (v : ι → Vec d → Vec d) (J : ι → Vec d → Mat d) :
    PairLin fun man i => pair (momAtoms man) (v i) (J i) := by
  intro man₁ man₂ man₃ t h
  funext i
  exact h (v i) (J i)

theorem PairLin.elim {ι κ : Type} {s : Mfd d → ι → ℝ} {s' : Mfd d → κ → ℝ} (h : PairLin s) (h' : PairLin s') :
    PairLin fun man => Sum.elim (s man) (s' man) := by
  intro man₁ man₂ man₃ t hp
  funext i
  rcases i with i | i
  · exact congrFun (h man₁ man₂ man₃ t hp) i
  · exact congrFun (h' man₁ man₂ man₃ t hp) i

/-- One quadratic form for all momenta. -/
structure UQuad (m : DefModule d) where
  ι : Type
  inst : Fintype ι
  Q : Matrix ι ι ℝ
  s : Mfd d → ι → ℝ
  symm : Qᵀ = Q
  lin : PairLin s
  geo : ∀ man m', m.geodesic man = .ok m' → ∃ h, (∀ man', Has man' Q (s man') h m') ∧ Q *ᵥ h = s man

structure UQuadAll (ms : List (DefModule d)) where
  ι : Type
  inst : Fintype ι
  Q : Matrix ι ι ℝ
  s : Mfd d → ι → ℝ
  symm : Qᵀ = Q
  lin : PairLin s
  geo : ∀ man ms', DefModule.geodesics man ms = .ok ms' → ∃ h, (∀ man', HasAll man' Q (s man') h ms') ∧ Q *ᵥ h = s man

def UQuadAll.nil : UQuadAll ([] : List (DefModule d)) where
  ι := Empty
  inst := inferInstance
  Q := 0
  s := fun _ _ => 0
  symm := rfl
  lin := fun _ _ _ _ _ => by funext i; exact i.elim
  geo man m' h := by
    rw [DefModule.geodesics] at h
    rw [← Except.ok.inj h]
    exact ⟨_, fun man' => hasAll_nil man', by funext i; exact i.elim⟩

def UQuadAll.cons {m : DefModule d} {ms : List (DefModule d)} (q : UQuad m) (qs : UQuadAll ms) : UQuadAll (m :: ms) :=
  letI := q.inst
  letI := qs.inst
  { ι := q.ι ⊕ qs.ι
    inst := inferInstance
    Q := Matrix.fromBlocks q.Q 0 0 qs.Q
    s := fun man => Sum.elim (q.s man) (qs.s man)
    symm := by rw [fromBlocks_transpose, q.symm, qs.symm, transpose_zero, transpose_zero]
    lin := q.lin.elim qs.lin
    geo := by
      intro man ms' h
      rw [DefModule.geodesics] at h
      cases h1 : m.geodesic man with
      | error e => rw [h1] at h; cases h
      | ok m' =>
        rw [h1] at h
        dsimp only at h
        cases h2 : DefModule.geodesics man ms with
        | error e => rw [h2] at h; cases h
        | ok ms'' =>
          rw [h2] at h
          rw [← Except.ok.inj h]
          obtain ⟨a, ha, ea⟩ := q.geo man m' h1
          obtain ⟨b, hb, eb⟩ := qs.geo man ms'' h2
          refine ⟨_, fun man' => hasAll_cons (ha man') (hb man'), ?_⟩
          rw [fromBlocks_mulVec, zero_mulVec, zero_mulVec, add_zero, zero_add, Sum.elim_comp_inl, Sum.elim_comp_inr,
            ea, eb] }

def UQuadAll.compound {ms : List (DefModule d)} (q : UQuadAll ms) (hne : ms ≠ []) : UQuad (.compound ms) :=
  letI := q.inst
  { ι := q.ι
    inst := q.inst
    Q := q.Q
    s := q.s
    symm := q.symm
    lin := q.lin
    geo := by
      intro man m' h
      obtain ⟨ms', h1, rfl⟩ := geodesic_compound h
      obtain ⟨a, ha, ea⟩ := q.geo man ms' h1
      exact ⟨a, fun man' => has_compound (ne_nil_of_length (geodesics_length h1) hne) (ha man'), ea⟩ }

mutual
/-- The module and all its parts have members. -/
def DefModule.Inhabited : DefModule d → Prop
  | .compound ms => ms ≠ [] ∧ DefModule.AllInhabited ms
  | _ => True
def DefModule.AllInhabited : List (DefModule d) → Prop
  | [] => True
  | m :: ms => m.Inhabited ∧ DefModule.AllInhabited ms
end

mutual
theorem uquad_exists : (m : DefModule d) → m.Inhabited → Nonempty (UQuad m)
  | .translations m, _ => ⟨{
      ι := _, inst := inferInstance, Q := gramMat m.σ (pointAtom m.gd), s := fun man => dualVec m.σ (pointAtom m.gd) (momAtoms man)
      symm := gramMat_symm _ _
      lin := PairLin.dualVec _ _
      geo := fun man m' h => by
        rw [DefModule.geodesic] at h
        obtain ⟨a, ha, rfl⟩ := wrap_ok h
        obtain ⟨c, rfl, hc⟩ := m.geo man a ha
        exact ⟨_, fun man' => Translations.has man' ({ m with ctrl := c } : Translations d _), hc⟩ }⟩
  | .implicit0 m, _ => ⟨{
      ι := _, inst := inferInstance, Q := m.coeff • (gramMat m.σ (pointAtom m.gd) + m.ν • (1 : Matrix _ _ ℝ))
      s := fun man => dualVec m.σ (pointAtom m.gd) (momAtoms man)
      symm := by rw [transpose_smul, smul_one_symm (gramMat_symm _ _)]
      lin := PairLin.dualVec _ _
      geo := fun man m' h => by
        rw [DefModule.geodesic] at h
        obtain ⟨a, ha, rfl⟩ := wrap_ok h
        obtain ⟨c, rfl, hc⟩ := m.geo man a ha
        exact ⟨_, fun man' => Implicit0.has man' ({ m with ctrl := c } : Implicit0 d _), hc⟩ }⟩
  | .oriented m, _ => ⟨{
      ι := _, inst := inferInstance, Q := m.coeff • gramMat m.σ (dirAtom m.gd m.dir)
      s := fun man => dualVec m.σ (dirAtom m.gd m.dir) (momAtoms man)
      symm := by rw [transpose_smul, gramMat_symm]
      lin := PairLin.dualVec _ _
      geo := fun man m' h => by
        rw [DefModule.geodesic] at h
        obtain ⟨a, ha, rfl⟩ := wrap_ok h
        obtain ⟨c, rfl, hc⟩ := m.geo man a ha
        exact ⟨_, fun man' => Oriented.has man' ({ m with ctrl := c } : Oriented d _), hc⟩ }⟩
  | .constrained m, _ => ⟨{
      ι := Unit, inst := inferInstance, Q := Matrix.of fun _ _ => m.coeff * m.energy, s := fun man _ => m.unit man
      symm := rfl
      lin := PairLin.apply (fun _ => rep m.σ (List.ofFn fun i => atom0 (m.fsupp m.gd i) (m.fvec m.gd i)))
        (fun _ => repJ m.σ (List.ofFn fun i => atom0 (m.fsupp m.gd i) (m.fvec m.gd i)))
      geo := fun man m' h => by
        rw [DefModule.geodesic] at h
        obtain ⟨a, ha, rfl⟩ := wrap_ok h
        obtain ⟨c, rfl, hc⟩ := m.geo man a ha
        refine ⟨_, fun man' => Constrained.has man' ({ m with ctrl := c } : Constrained d _ _), ?_⟩
        rw [unit_mulVec]; funext i; exact hc }⟩
  | .globalTranslation m, _ => ⟨{
      ι := Fin d, inst := inferInstance, Q := m.coeff • (1 : Matrix (Fin d) (Fin d) ℝ), s := constDual
      symm := by rw [transpose_smul, transpose_one]
      lin := PairLin.apply _ _
      geo := fun man m' h => by
        rw [DefModule.geodesic] at h
        obtain ⟨a, ha, rfl⟩ := wrap_ok h
        obtain ⟨c, rfl, hc⟩ := m.geo man a ha
        refine ⟨_, fun man' => GlobalTranslation.has man' ({ m with ctrl := c } : GlobalTranslation d), ?_⟩
        rw [smul_mulVec, one_mulVec]; funext i; exact hc i }⟩
  | .linear m, _ => ⟨{
      ι := Unit, inst := inferInstance, Q := Matrix.of fun _ _ => m.coeff, s := fun man _ => m.unit man
      symm := rfl
      lin := PairLin.apply (fun _ => fieldVal (.affine m.A m.gd 0)) (fun _ => fieldJac (.affine m.A m.gd 0))
      geo := fun man m' h => by
        rw [DefModule.geodesic] at h
        obtain ⟨a, ha, rfl⟩ := wrap_ok h
        obtain ⟨c, rfl, hc⟩ := m.geo man a ha
        refine ⟨_, fun man' => Linear.has man' ({ m with ctrl := c } : Linear d), ?_⟩
        rw [unit_mulVec]; funext i; exact hc }⟩
  | .implicit1 m, _ => ⟨{
      ι := _, inst := inferInstance, Q := m.Q, s := m.dual
      symm := by unfold Implicit1.Q; rw [transpose_smul, schur_symm m.sks_symm]
      lin := ((PairLin.dualVec _ _).mulVec _).mulVec _
      geo := fun man m' h => by
        rw [DefModule.geodesic] at h
        obtain ⟨a, ha, rfl⟩ := wrap_ok h
        obtain ⟨c, rfl, hc, -⟩ := Implicit1.geo man ha
        exact ⟨_, fun man' => m.has man' c, hc⟩ }⟩
  | .divFree m, _ => ⟨{
      ι := _, inst := inferInstance, Q := m.Q, s := m.dual
      symm := by unfold DivFree.Q; rw [transpose_smul, schur_symm m.SKS_symm]
      lin := ((PairLin.dualVec _ _).mulVec _).mulVec _
      geo := fun man m' h => by
        rw [DefModule.geodesic] at h
        obtain ⟨a, ha, rfl⟩ := wrap_ok h
        obtain ⟨c, rfl, hc, -⟩ := DivFree.geo man ha
        exact ⟨_, fun man' => m.has man' c, hc⟩ }⟩
  | .arap m, _ => ⟨{
      ι := _, inst := inferInstance, Q := m.Q, s := m.dual
      symm := by unfold Arap.Q; rw [transpose_smul, schur_symm m.SKS_symm]
      lin := ((PairLin.dualVec _ _).mulVec _).mulVec _
      geo := fun man m' h => by
        rw [DefModule.geodesic] at h
        obtain ⟨a, ha, rfl⟩ := wrap_ok h
        obtain ⟨c, rfl, hc, -⟩ := Arap.geo man ha
        exact ⟨_, fun man' => m.has man' c, hc⟩ }⟩
  | .silent s, _ => ⟨{
      ι := Empty, inst := inferInstance, Q := 0, s := fun _ _ => 0
      symm := rfl
      lin := fun _ _ _ _ _ => by funext i; exact i.elim
      geo := fun man m' h => by
        rw [DefModule.geodesic] at h
        rw [← Except.ok.inj h]
        exact ⟨_, fun man' => silent_has man' s, by funext i; exact i.elim⟩ }⟩
  | .compound ms, h => by
    rw [DefModule.Inhabited] at h
    obtain ⟨q⟩ := uquadAll_exists ms h.2
    exact ⟨q.compound h.1⟩
theorem uquadAll_exists : (ms : List (DefModule d)) → DefModule.AllInhabited ms → Nonempty (UQuadAll ms)
  | [], _ => ⟨UQuadAll.nil⟩
  | m :: ms, h => by
    rw [DefModule.AllInhabited] at h
    obtain ⟨q⟩ := uquad_exists m h.1
    obtain ⟨qs⟩ := uquadAll_exists ms h.2
    exact ⟨UQuadAll.cons q qs⟩
end

/-- The Hamiltonian at geodesic controls. -/
theorem hamiltonian_geo {man : Mfd d} {ι : Type} [Fintype ι] {Q : Matrix ι ι ℝ} {s h : ι → ℝ} {m : DefModule d}
    (hh : Has man Q s h m) (e : Q *ᵥ h = s) : hamiltonianOn man m = .ok (1 / 2 * (h ⬝ᵥ s)) := by
  rw [hamiltonianOn_has hh, e]
  exact congrArg Except.ok (by ring)

theorem dot_symm {ι : Type} [Fintype ι] {Q : Matrix ι ι ℝ} (hs : Qᵀ = Q) (a b : ι → ℝ) : a ⬝ᵥ Q *ᵥ b = b ⬝ᵥ Q *ᵥ a := by
  rw [dotProduct_mulVec, ← mulVec_transpose, hs, dotProduct_comm]

theorem dot_of_mulVec_eq {ι : Type} [Fintype ι] {Q : Matrix ι ι ℝ} (hs : Qᵀ = Q) {a b : ι → ℝ} (h : Q *ᵥ a = Q *ᵥ b) :
    a ⬝ᵥ Q *ᵥ a = b ⬝ᵥ Q *ᵥ b := by
  rw [h, dot_symm hs a b, h]

end
end Imodal
