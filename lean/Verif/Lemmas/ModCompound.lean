import Verif.Lemmas.ModImplicit
/-! Compounds as quadratic forms, and the quadratic form of every module. -/
set_option autoImplicit false
namespace Imodal
noncomputable section
open Matrix
variable {d : Nat}

def HasAll (man : Mfd d) {ι : Type} [Fintype ι] (Q : Matrix ι ι ℝ) (s h : ι → ℝ) (ms : List (DefModule d)) : Prop :=
  ∃ fs, DefModule.fields ms = .ok fs ∧ fs.length = ms.length ∧ Avail 0 (.sum fs) ∧ Avail 1 (.sum fs) ∧
    pair (momAtoms man) (fieldVal (.sum fs)) (fieldJac (.sum fs)) = h ⬝ᵥ s ∧
    DefModule.costs ms = .ok (1 / 2 * (h ⬝ᵥ Q *ᵥ h))

structure QuadAll (man : Mfd d) (ms : List (DefModule d)) where
  ι : Type
  inst : Fintype ι
  Q : Matrix ι ι ℝ
  s : ι → ℝ
  enc : List (Ctrl d) → ι → ℝ
  symm : Qᵀ = Q
  psd : ∀ l, 0 ≤ l ⬝ᵥ Q *ᵥ l
  enc_smul : ∀ t c, enc (Ctrl.smulAll t c) = t • enc c
  fill : ∀ c ms', c.length = ms.length → DefModule.fillAll ms c = .ok ms' → HasAll man Q s (enc c) ms'
  geo : ∀ ms', DefModule.geodesics man ms = .ok ms' → ∃ h, HasAll man Q s h ms' ∧ Q *ᵥ h = s

theorem hasAll_nil (man : Mfd d) : HasAll man (0 : Matrix Empty Empty ℝ) (fun _ => 0) (fun _ => 0) [] := by
  refine ⟨[], rfl, rfl, avail_sum_nil 0, avail_sum_nil 1, ?_, ?_⟩
  · simp [dotProduct]
    exact pair_zero _
  · rw [DefModule.costs]; simp [dotProduct]

theorem smulAll_length (t : ℝ) : (hs : List (Ctrl d)) → (Ctrl.smulAll t hs).length = hs.length
  | [] => rfl
  | h :: hs => by rw [Ctrl.smulAll, List.length_cons, smulAll_length t hs, List.length_cons]

def QuadAll.nil (man : Mfd d) : QuadAll man [] where
  ι := Empty
  inst := inferInstance
  Q := 0
  s := fun _ => 0
  enc := fun _ _ => 0
  symm := rfl
  psd l := by simp [dotProduct]
  enc_smul t c := by funext i; exact i.elim
  fill c m' _ h := by
    cases c <;> rw [DefModule.fillAll] at h <;> try (rw [← Except.ok.inj h]; exact hasAll_nil man)
    all_goals simp
  geo m' h := by
    rw [DefModule.geodesics] at h
    rw [← Except.ok.inj h]
    exact ⟨_, hasAll_nil man, by funext i; exact i.elim⟩

section blocks
variable {κ ι : Type} [Fintype κ] [Fintype ι]
theorem block_quad (Q : Matrix κ κ ℝ) (R : Matrix ι ι ℝ) (l : κ ⊕ ι → ℝ) :
    l ⬝ᵥ Matrix.fromBlocks Q 0 0 R *ᵥ l
      = (l ∘ Sum.inl) ⬝ᵥ Q *ᵥ (l ∘ Sum.inl) + (l ∘ Sum.inr) ⬝ᵥ R *ᵥ (l ∘ Sum.inr) := by
  rw [fromBlocks_mulVec, zero_mulVec, zero_mulVec, add_zero, zero_add, dotProduct, Fintype.sum_sum_type]
  rfl
theorem block_dot (a b : κ → ℝ) (a' b' : ι → ℝ) :
    Sum.elim a a' ⬝ᵥ Sum.elim b b' = a ⬝ᵥ b + a' ⬝ᵥ b' := by
  rw [dotProduct, Fintype.sum_sum_type]; rfl

theorem hasAll_cons {man : Mfd d} {Q : Matrix κ κ ℝ} {R : Matrix ι ι ℝ} {s h : κ → ℝ} {s' h' : ι → ℝ}
    {m : DefModule d} {ms : List (DefModule d)} (h1 : Has man Q s h m) (h2 : HasAll man R s' h' ms) :
    HasAll man (Matrix.fromBlocks Q 0 0 R) (Sum.elim s s') (Sum.elim h h') (m :: ms) := by
  obtain ⟨f, hf, a0, a1, hp, hc⟩ := h1
  obtain ⟨fs, hfs, hl, b0, b1, hps, hcs⟩ := h2
  refine ⟨f :: fs, ?_, by rw [List.length_cons, hl, List.length_cons], avail_sum_cons.mpr ⟨a0, b0⟩,
    avail_sum_cons.mpr ⟨a1, b1⟩, ?_, ?_⟩
  · rw [DefModule.fields, hf, hfs]
  · rw [block_dot, ← hp, ← hps, ← pair_add]
    exact congrArg₂ (pair (momAtoms man)) (funext fun x => fieldVal_sum_cons a0 b0 x)
      (funext fun x => fieldJac_sum_cons a1 b1 x)
  · rw [DefModule.costs, hc, hcs, block_quad]
    refine congrArg Except.ok ?_
    rw [Sum.elim_comp_inl, Sum.elim_comp_inr]
    ring
end blocks

def QuadAll.cons {man : Mfd d} {m : DefModule d} {ms : List (DefModule d)} (q : Quad man m) (qs : QuadAll man ms) :
    QuadAll man (m :: ms) :=
  letI := q.inst
  letI := qs.inst
  { ι := q.ι ⊕ qs.ι
    inst := inferInstance
    Q := Matrix.fromBlocks q.Q 0 0 qs.Q
    s := Sum.elim q.s qs.s
    enc := fun c => match c with
      | [] => 0
      | c :: cs => Sum.elim (q.enc c) (qs.enc cs)
    symm := by rw [fromBlocks_transpose, q.symm, qs.symm, transpose_zero, transpose_zero]
    psd := fun l => by rw [block_quad]; exact add_nonneg (q.psd _) (qs.psd _)
    enc_smul := by
      intro t c
      cases c with
      | nil => rw [Ctrl.smulAll]; simp
      | cons c cs =>
        rw [Ctrl.smulAll]
        funext i
        rcases i with i | i
        · exact congrFun (q.enc_smul t c) i
        · exact congrFun (qs.enc_smul t cs) i
    fill := by
      intro c ms' hl h
      cases c with
      | nil => cases hl
      | cons c cs =>
        rw [DefModule.fillAll] at h
        cases h1 : m.fillControls c with
        | error e => rw [h1] at h; cases h
        | ok m' =>
          rw [h1] at h
          dsimp only at h
          cases h2 : DefModule.fillAll ms cs with
          | error e => rw [h2] at h; cases h
          | ok ms'' =>
            rw [h2] at h
            rw [← Except.ok.inj h]
            exact hasAll_cons (q.fill c m' h1) (qs.fill cs ms'' (Nat.succ.inj hl) h2)
    geo := by
      intro ms' h
      rw [DefModule.geodesics] at h
      cases h1 : m.geodesic man with
      | error e => rw [h1] at h; cases h
      | ok m' =>
        rw [h1] at h
        dsimp only at h
        cases h2 : DefModule.geodesics man ms with
        | error e => rw [h2] at h; cases h
        | ok ms'' =>
          rw [h2] at h
          rw [← Except.ok.inj h]
          obtain ⟨a, ha, ea⟩ := q.geo m' h1
          obtain ⟨b, hb, eb⟩ := qs.geo ms'' h2
          refine ⟨_, hasAll_cons ha hb, ?_⟩
          rw [fromBlocks_mulVec, zero_mulVec, zero_mulVec, add_zero, zero_add, Sum.elim_comp_inl, Sum.elim_comp_inr,
            ea, eb] }

theorem has_compound {man : Mfd d} {ι : Type} [Fintype ι] {Q : Matrix ι ι ℝ} {s h : ι → ℝ} {ms : List (DefModule d)}
    (hne : ms ≠ []) (hh : HasAll man Q s h ms) : Has man Q s h (.compound ms) := by
  obtain ⟨fs, hfs, hl, b0, b1, hp, hc⟩ := hh
  have hf : fs ≠ [] := by
    intro e; rw [e] at hl
    exact hne (List.length_eq_zero_iff.mp hl.symm)
  refine ⟨.sum fs, ?_, b0, b1, hp, ?_⟩
  · rw [DefModule.field, hfs]
    cases fs with
    | nil => exact absurd rfl hf
    | cons f fs => rfl
  · rw [DefModule.cost, hc]

theorem fillAll_nil (hs : List (Ctrl d)) : DefModule.fillAll [] hs = .ok [] := by
  cases hs <;> rw [DefModule.fillAll] <;> simp

theorem fillAll_length : {ms : List (DefModule d)} → {hs : List (Ctrl d)} → {ms' : List (DefModule d)} →
    hs.length = ms.length → DefModule.fillAll ms hs = .ok ms' → ms'.length = ms.length
  | [], hs, ms', _, h => by rw [fillAll_nil] at h; rw [← Except.ok.inj h]
  | m :: ms, [], ms', hl, h => by cases hl
  | m :: ms, c :: cs, ms', hl, h => by
    rw [DefModule.fillAll] at h
    cases h1 : m.fillControls c with
    | error e => rw [h1] at h; cases h
    | ok m' =>
      rw [h1] at h
      dsimp only at h
      cases h2 : DefModule.fillAll ms cs with
      | error e => rw [h2] at h; cases h
      | ok ms'' =>
        rw [h2] at h
        rw [← Except.ok.inj h, List.length_cons, fillAll_length (Nat.succ.inj hl) h2, List.length_cons]

theorem geodesics_length {man : Mfd d} : {ms ms' : List (DefModule d)} →
    DefModule.geodesics man ms = .ok ms' → ms'.length = ms.length
  | [], ms', h => by rw [DefModule.geodesics] at h; rw [← Except.ok.inj h]
  | m :: ms, ms', h => by
    rw [DefModule.geodesics] at h
    cases h1 : m.geodesic man with
    | error e => rw [h1] at h; cases h
    | ok m' =>
      rw [h1] at h
      dsimp only at h
      cases h2 : DefModule.geodesics man ms with
      | error e => rw [h2] at h; cases h
      | ok ms'' =>
        rw [h2] at h
        rw [← Except.ok.inj h, List.length_cons, geodesics_length h2, List.length_cons]

theorem fill_compound {ms : List (DefModule d)} {c : Ctrl d} {m' : DefModule d}
    (h : (DefModule.compound ms).fillControls c = .ok m') :
    ∃ cs ms', c = .list cs ∧ cs.length = ms.length ∧ DefModule.fillAll ms cs = .ok ms' ∧ m' = .compound ms' := by
  cases c with
  | list cs =>
    rw [DefModule.fillControls] at h
    split at h
    · rename_i hl
      cases h1 : DefModule.fillAll ms cs with
      | error e => rw [h1] at h; cases h
      | ok ms' => rw [h1] at h; exact ⟨cs, ms', rfl, hl, h1, (Except.ok.inj h).symm⟩
    · cases h
  | _ => simp [DefModule.fillControls] at h

theorem geodesic_compound {man : Mfd d} {ms : List (DefModule d)} {m' : DefModule d}
    (h : (DefModule.compound ms).geodesic man = .ok m') :
    ∃ ms', DefModule.geodesics man ms = .ok ms' ∧ m' = .compound ms' := by
  rw [DefModule.geodesic] at h
  cases h1 : DefModule.geodesics man ms with
  | error e => rw [h1] at h; cases h
  | ok ms' => rw [h1] at h; exact ⟨ms', rfl, (Except.ok.inj h).symm⟩

theorem ne_nil_of_length {α β : Type} {l : List α} {l' : List β} (h : l.length = l'.length) (h' : l' ≠ []) : l ≠ [] := by
  intro e; rw [e] at h; exact h' (List.length_eq_zero_iff.mp h.symm)

def QuadAll.compound {man : Mfd d} {ms : List (DefModule d)} (q : QuadAll man ms) (hne : ms ≠ []) :
    Quad man (.compound ms) :=
  letI := q.inst
  { ι := q.ι
    inst := q.inst
    Q := q.Q
    s := q.s
    enc := fun c => match c with
      | .list cs => q.enc cs
      | _ => 0
    symm := q.symm
    psd := q.psd
    enc_smul := by
      intro t c
      cases c <;> rw [Ctrl.smul] <;> first | exact q.enc_smul t _ | simp
    fill := by
      intro c m' h
      obtain ⟨cs, ms', rfl, hl, h1, rfl⟩ := fill_compound h
      exact has_compound (ne_nil_of_length (fillAll_length hl h1) hne) (q.fill cs ms' hl h1)
    geo := by
      intro m' h
      obtain ⟨ms', h1, rfl⟩ := geodesic_compound h
      obtain ⟨a, ha, ea⟩ := q.geo ms' h1
      exact ⟨a, has_compound (ne_nil_of_length (geodesics_length h1) hne) ha, ea⟩ }

mutual
/-- Every module with non-negative weights is a quadratic form in its controls. -/
theorem quad_exists (man : Mfd d) : (m : DefModule d) → m.NonnegWeights → Nonempty (Quad man m)
  | .translations m, _ => ⟨m.quad man⟩
  | .implicit0 m, h => by rw [DefModule.NonnegWeights] at h; exact ⟨m.quad man h.1 h.2⟩
  | .oriented m, h => by rw [DefModule.NonnegWeights] at h; exact ⟨m.quad man h⟩
  | .constrained m, h => by rw [DefModule.NonnegWeights] at h; exact ⟨m.quad man h⟩
  | .globalTranslation m, h => by rw [DefModule.NonnegWeights] at h; exact ⟨m.quad man h⟩
  | .linear m, h => by rw [DefModule.NonnegWeights] at h; exact ⟨m.quad man h⟩
  | .implicit1 m, h => by rw [DefModule.NonnegWeights] at h; exact ⟨m.quad man h.1 h.2⟩
  | .divFree m, h => by rw [DefModule.NonnegWeights] at h; exact ⟨m.quad man h.1 h.2⟩
  | .arap m, h => by rw [DefModule.NonnegWeights] at h; exact ⟨m.quad man h.1 h.2⟩
  | .silent s, _ => ⟨silentQuad man s⟩
  | .compound ms, h => by
    rw [DefModule.NonnegWeights] at h
    obtain ⟨q⟩ := quadAll_exists man ms h.2
    exact ⟨q.compound h.1⟩
theorem quadAll_exists (man : Mfd d) : (ms : List (DefModule d)) → DefModule.AllNonnegWeights ms →
    Nonempty (QuadAll man ms)
  | [], _ => ⟨QuadAll.nil man⟩
  | m :: ms, h => by
    rw [DefModule.AllNonnegWeights] at h
    obtain ⟨q⟩ := quad_exists man m h.1
    obtain ⟨qs⟩ := quadAll_exists man ms h.2
    exact ⟨QuadAll.cons q qs⟩
end

/-- The Hamiltonian in terms of the quadratic form. -/
theorem hamiltonianOn_has {man : Mfd d} {ι : Type} [Fintype ι] {Q : Matrix ι ι ℝ} {s h : ι → ℝ} {m : DefModule d}
    (hh : Has man Q s h m) : hamiltonianOn man m = .ok (h ⬝ᵥ s - 1 / 2 * (h ⬝ᵥ Q *ᵥ h)) := by
  obtain ⟨f, hf, a0, a1, hp, hc⟩ := hh
  obtain ⟨a, ha⟩ := innerProd_avail a0 a1 man
  unfold hamiltonianOn
  rw [hf]
  dsimp only
  rw [ha]
  dsimp only
  rw [hc, innerProd_ok man ha, hp]

mutual
/-- Geodesic controls are a particular choice of controls: nothing else in the module changes. -/
theorem geodesic_fill (man : Mfd d) : (m : DefModule d) → {m' : DefModule d} → m.geodesic man = .ok m' →
    m.fillControls m'.controls = .ok m'
  | .translations m, m', h => by
    rw [DefModule.geodesic] at h
    obtain ⟨a, ha, rfl⟩ := wrap_ok h
    obtain ⟨c, rfl, -⟩ := m.geo man a ha
    rw [DefModule.controls, DefModule.fillControls, dif_pos rfl]
  | .implicit0 m, m', h => by
    rw [DefModule.geodesic] at h
    obtain ⟨a, ha, rfl⟩ := wrap_ok h
    obtain ⟨c, rfl, -⟩ := m.geo man a ha
    rw [DefModule.controls, DefModule.fillControls, dif_pos rfl]
  | .oriented m, m', h => by
    rw [DefModule.geodesic] at h
    obtain ⟨a, ha, rfl⟩ := wrap_ok h
    obtain ⟨c, rfl, -⟩ := m.geo man a ha
    rw [DefModule.controls, DefModule.fillControls, dif_pos rfl]
  | .constrained m, m', h => by
    rw [DefModule.geodesic] at h
    obtain ⟨a, ha, rfl⟩ := wrap_ok h
    obtain ⟨c, rfl, -⟩ := m.geo man a ha
    rw [DefModule.controls, DefModule.fillControls]
  | .globalTranslation m, m', h => by
    rw [DefModule.geodesic] at h
    obtain ⟨a, ha, rfl⟩ := wrap_ok h
    obtain ⟨c, rfl, -⟩ := m.geo man a ha
    rw [DefModule.controls, DefModule.fillControls]
  | .linear m, m', h => by
    rw [DefModule.geodesic] at h
    obtain ⟨a, ha, rfl⟩ := wrap_ok h
    obtain ⟨c, rfl, -⟩ := m.geo man a ha
    rw [DefModule.controls, DefModule.fillControls]
  | .implicit1 m, m', h => by
    rw [DefModule.geodesic] at h
    obtain ⟨a, ha, rfl⟩ := wrap_ok h
    obtain ⟨c, rfl, -, hd⟩ := Implicit1.geo man ha
    rw [DefModule.controls, DefModule.fillControls, dif_pos rfl]
    show wrap _ (m.fill c) = _
    rw [Implicit1.fill_of_det hd]; rfl
  | .divFree m, m', h => by
    rw [DefModule.geodesic] at h
    obtain ⟨a, ha, rfl⟩ := wrap_ok h
    obtain ⟨c, rfl, -, hd⟩ := DivFree.geo man ha
    rw [DefModule.controls, DefModule.fillControls, dif_pos rfl]
    show wrap _ (m.fill c) = _
    rw [DivFree.fill_of_det hd]; rfl
  | .arap m, m', h => by
    rw [DefModule.geodesic] at h
    obtain ⟨a, ha, rfl⟩ := wrap_ok h
    obtain ⟨c, rfl, -, hd⟩ := Arap.geo man ha
    rw [DefModule.controls, DefModule.fillControls, dif_pos rfl]
    show wrap _ (m.fill c) = _
    rw [Arap.fill_of_det hd]; rfl
  | .silent s, m', h => by
    rw [DefModule.geodesic] at h
    rw [← Except.ok.inj h, DefModule.controls, DefModule.fillControls]
  | .compound ms, m', h => by
    obtain ⟨ms', h1, rfl⟩ := geodesic_compound h
    obtain ⟨e1, e2⟩ := geodesics_fill man ms h1
    rw [DefModule.controls, DefModule.fillControls, if_pos e1, e2]
theorem geodesics_fill (man : Mfd d) : (ms : List (DefModule d)) → {ms' : List (DefModule d)} →
    DefModule.geodesics man ms = .ok ms' →
    (DefModule.controlsAll ms').length = ms.length ∧ DefModule.fillAll ms (DefModule.controlsAll ms') = .ok ms'
  | [], ms', h => by
    rw [DefModule.geodesics] at h
    rw [← Except.ok.inj h, DefModule.controlsAll, DefModule.fillAll]
    · exact ⟨rfl, rfl⟩
    · simp
  | m :: ms, ms', h => by
    rw [DefModule.geodesics] at h
    cases h1 : m.geodesic man with
    | error e => rw [h1] at h; cases h
    | ok m' =>
      rw [h1] at h
      dsimp only at h
      cases h2 : DefModule.geodesics man ms with
      | error e => rw [h2] at h; cases h
      | ok ms'' =>
        rw [h2] at h
        obtain ⟨e1, e2⟩ := geodesics_fill man ms h2
        rw [← Except.ok.inj h, DefModule.controlsAll, DefModule.fillAll, geodesic_fill man m h1]
        dsimp only
        rw [e2, List.length_cons, e1]
        exact ⟨rfl, rfl⟩
end

mutual
/-- Controls do not change the manifold. -/
theorem fill_manifold : (m : DefModule d) → {c : Ctrl d} → {m' : DefModule d} → m.fillControls c = .ok m' →
    m'.manifold = m.manifold
  | .translations m, _, _, h => by
    obtain ⟨k, -, rfl⟩ := fill_translations h
    rw [DefModule.manifold, DefModule.manifold]; rfl
  | .implicit0 m, _, _, h => by
    obtain ⟨k, -, rfl⟩ := fill_implicit0 h
    rw [DefModule.manifold, DefModule.manifold]; rfl
  | .oriented m, _, _, h => by
    obtain ⟨k, -, rfl⟩ := fill_oriented h
    rw [DefModule.manifold, DefModule.manifold]; rfl
  | .constrained m, _, _, h => by
    obtain ⟨k, -, rfl⟩ := fill_constrained h
    rw [DefModule.manifold, DefModule.manifold]; rfl
  | .globalTranslation m, _, _, h => by
    obtain ⟨k, -, rfl⟩ := fill_global h
    rw [DefModule.manifold, DefModule.manifold]; rfl
  | .linear m, _, _, h => by
    obtain ⟨k, -, rfl⟩ := fill_linear h
    rw [DefModule.manifold, DefModule.manifold]; rfl
  | .implicit1 m, _, _, h => by
    obtain ⟨k, a, -, ha, rfl⟩ := fill_implicit1 h
    rw [(Implicit1.fill_ok ha).2, DefModule.manifold, DefModule.manifold]; rfl
  | .divFree m, _, _, h => by
    obtain ⟨k, a, -, ha, rfl⟩ := fill_divFree h
    rw [(DivFree.fill_ok ha).2, DefModule.manifold, DefModule.manifold]; rfl
  | .arap m, _, _, h => by
    obtain ⟨k, a, -, ha, rfl⟩ := fill_arap h
    rw [(Arap.fill_ok ha).2, DefModule.manifold, DefModule.manifold]; rfl
  | .silent s, c, m', h => by
    have : (DefModule.silent s).fillControls c = .ok (.silent s) := by cases c <;> rw [DefModule.fillControls]
    rw [this] at h
    rw [← Except.ok.inj h]
  | .compound ms, _, _, h => by
    obtain ⟨cs, ms', -, hl, h1, rfl⟩ := fill_compound h
    rw [DefModule.manifold, DefModule.manifold, fillAll_manifolds ms hl h1]
theorem fillAll_manifolds : (ms : List (DefModule d)) → {cs : List (Ctrl d)} → {ms' : List (DefModule d)} →
    cs.length = ms.length → DefModule.fillAll ms cs = .ok ms' → DefModule.manifolds ms' = DefModule.manifolds ms
  | [], cs, ms', _, h => by rw [fillAll_nil] at h; rw [← Except.ok.inj h]
  | m :: ms, [], ms', hl, _ => by cases hl
  | m :: ms, c :: cs, ms', hl, h => by
    rw [DefModule.fillAll] at h
    cases h1 : m.fillControls c with
    | error e => rw [h1] at h; cases h
    | ok m' =>
      rw [h1] at h
      dsimp only at h
      cases h2 : DefModule.fillAll ms cs with
      | error e => rw [h2] at h; cases h
      | ok ms'' =>
        rw [h2] at h
        rw [← Except.ok.inj h, DefModule.manifolds, DefModule.manifolds, fill_manifold m h1,
          fillAll_manifolds ms (Nat.succ.inj hl) h2]
end

theorem geodesic_manifold {man : Mfd d} {m m' : DefModule d} (h : m.geodesic man = .ok m') : m'.manifold = m.manifold :=
  fill_manifold m (geodesic_fill man m h)

end
end Imodal
