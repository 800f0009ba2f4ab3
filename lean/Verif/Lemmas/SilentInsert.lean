import Verif.Lemmas.PairSame
import Verif.Lemmas.Shoot
import Verif.Spec.Shooting
/-! A compound module with one more silent module among its members. -/
set_option autoImplicit false
namespace Imodal
noncomputable section
variable {d : Nat}

theorem pair_zeroCot {M : Mfd d} (h : M.ZeroCot) (v : Vec d → Vec d) (J : Vec d → Mat d) : pair (momAtoms M) v J = 0 := by
  have e : M.withCot 0 0 = M := Mfd.withCot_of_starts M fun j hj => (h _ (List.getElem_mem hj)).symm
  rw [← e, pair_withCot]
  exact dotRow_zero_of _ _ _ fun _ _ _ => rfl

theorem momAtomsAll_append (l₁ l₂ : List (Mfd d)) : momAtomsAll (l₁ ++ l₂) = momAtomsAll l₁ ++ momAtomsAll l₂ := by
  induction l₁ with
  | nil => rfl
  | cons m l ih => rw [List.cons_append, momAtomsAll, momAtomsAll, ih, List.append_assoc]

theorem allNoEmpty_append (l₁ l₂ : List (Mfd d)) :
    Mfd.AllNoEmptyCompound (l₁ ++ l₂) ↔ Mfd.AllNoEmptyCompound l₁ ∧ Mfd.AllNoEmptyCompound l₂ := by
  induction l₁ with
  | nil => simp [Mfd.AllNoEmptyCompound]
  | cons m l ih => rw [List.cons_append, Mfd.AllNoEmptyCompound, Mfd.AllNoEmptyCompound, ih, and_assoc]

theorem allNoDir_append (l₁ l₂ : List (Mfd d)) :
    Mfd.AllNoDirections (l₁ ++ l₂) ↔ Mfd.AllNoDirections l₁ ∧ Mfd.AllNoDirections l₂ := by
  induction l₁ with
  | nil => simp [Mfd.AllNoDirections]
  | cons m l ih => rw [List.cons_append, Mfd.AllNoDirections, Mfd.AllNoDirections, ih, and_assoc]

theorem pair_insert {l₁ l₂ : List (Mfd d)} {M : Mfd d} (h : M.ZeroCot) (v : Vec d → Vec d) (J : Vec d → Mat d) :
    pair (momAtoms (.compound (l₁ ++ M :: l₂))) v J = pair (momAtoms (.compound (l₁ ++ l₂))) v J := by
  rw [momAtoms, momAtoms, momAtomsAll_append, momAtomsAll_append, momAtomsAll, pair_append, pair_append, pair_append,
    pair_zeroCot h, zero_add]

theorem manifolds_append (A B : List (DefModule d)) : DefModule.manifolds (A ++ B) = DefModule.manifolds A ++ DefModule.manifolds B := by
  induction A with
  | nil => rfl
  | cons m A ih => rw [List.cons_append, DefModule.manifolds, DefModule.manifolds, ih]; rfl

theorem dualSame_of {J : Prop} {man man' : Mfd d} (he : man.NoEmptyCompound → man'.NoEmptyCompound)
    (hd : J → man.NoDirections → man'.NoDirections) (hp : ∀ v J, pair (momAtoms man) v J = pair (momAtoms man') v J) :
    DualSame J man man' := by
  refine ⟨fun σ r vs h => ?_, hp⟩
  obtain ⟨vs', h', -⟩ := cotToVs_full σ r man' (he (noEmpty_of_cotToVs man h))
  exact ⟨vs', h', fun hJ ha => cotToVs_jac man' (hd hJ (noDir_of_avail man h ha)) h'⟩

theorem dualSame_insert {A B : List (DefModule d)} {M : Mfd d} (h : M.Passive (.compound (A ++ B))) (hne : A ++ B ≠ []) :
    DualSame (DefModule.compound (A ++ B)).ReadsJac (.compound (DefModule.manifolds A ++ M :: DefModule.manifolds B))
      (.compound (DefModule.manifolds A ++ DefModule.manifolds B)) ∧
    DualSame (DefModule.compound (A ++ B)).ReadsJac (.compound (DefModule.manifolds A ++ DefModule.manifolds B))
      (.compound (DefModule.manifolds A ++ M :: DefModule.manifolds B)) := by
  have hne' : DefModule.manifolds A ++ DefModule.manifolds B ≠ [] := by
    rw [← manifolds_append]
    cases hAB : A ++ B with
    | nil => exact absurd hAB hne
    | cons m l => rw [DefModule.manifolds]; simp
  have hd := h.dir
  rw [DefModule.manifold, manifolds_append] at hd
  generalize DefModule.manifolds A = l₁ at *
  generalize DefModule.manifolds B = l₂ at *
  have e : (Mfd.compound (l₁ ++ M :: l₂)).NoEmptyCompound ↔ (Mfd.compound (l₁ ++ l₂)).NoEmptyCompound := by
    rw [Mfd.NoEmptyCompound, Mfd.NoEmptyCompound, allNoEmpty_append, allNoEmpty_append, Mfd.AllNoEmptyCompound]
    exact ⟨fun ⟨_, a, _, b⟩ => ⟨hne', a, b⟩, fun ⟨_, a, b⟩ => ⟨by simp, a, h.noEmpty, b⟩⟩
  have f : (DefModule.compound (A ++ B)).ReadsJac →
      ((Mfd.compound (l₁ ++ M :: l₂)).NoDirections ↔ (Mfd.compound (l₁ ++ l₂)).NoDirections) := by
    intro hJ
    have hd' := hd hJ
    rw [Mfd.NoDirections, allNoDir_append] at hd'
    rw [Mfd.NoDirections, Mfd.NoDirections, allNoDir_append, allNoDir_append, Mfd.AllNoDirections]
    exact ⟨fun ⟨a, _, b⟩ => ⟨a, b⟩, fun ⟨a, b⟩ => ⟨a, hd' ⟨a, b⟩, b⟩⟩
  exact ⟨dualSame_of e.mp (fun hJ => (f hJ).mp) fun v J => pair_insert h.zero v J,
    dualSame_of e.mpr (fun hJ => (f hJ).mpr) fun v J => (pair_insert h.zero v J).symm⟩

theorem someReadsJac_append (A B : List (DefModule d)) :
    DefModule.SomeReadsJac (A ++ B) ↔ DefModule.SomeReadsJac A ∨ DefModule.SomeReadsJac B := by
  induction A with
  | nil => simp [DefModule.SomeReadsJac]
  | cons m A ih => rw [List.cons_append, DefModule.SomeReadsJac, DefModule.SomeReadsJac, ih, or_assoc]

/-! ## Controls -/

theorem geodesics_append (man : Mfd d) (A B : List (DefModule d)) {C : List (DefModule d)} :
    DefModule.geodesics man (A ++ B) = .ok C ↔
      ∃ A' B', DefModule.geodesics man A = .ok A' ∧ DefModule.geodesics man B = .ok B' ∧ C = A' ++ B' := by
  induction A generalizing C with
  | nil =>
    simp only [List.nil_append, DefModule.geodesics]
    constructor
    · intro h; exact ⟨[], C, rfl, h, rfl⟩
    · rintro ⟨A', B', h1, h2, rfl⟩
      rw [h2, ← Except.ok.inj h1]; rfl
  | cons m A ih =>
    rw [List.cons_append, DefModule.geodesics, DefModule.geodesics]
    cases m.geodesic man with
    | error e => simp
    | ok m' =>
      dsimp only
      constructor
      · intro h
        cases h1 : DefModule.geodesics man (A ++ B) with
        | error e => rw [h1] at h; cases h
        | ok C' =>
          rw [h1] at h
          obtain ⟨A', B', a, b, rfl⟩ := ih.mp h1
          cases h
          exact ⟨m' :: A', B', by rw [a], b, rfl⟩
      · rintro ⟨A', B', h1, h2, rfl⟩
        cases h3 : DefModule.geodesics man A with
        | error e => rw [h3] at h1; cases h1
        | ok A'' =>
          rw [h3] at h1
          cases h1
          rw [ih.mpr ⟨A'', B', h3, h2, rfl⟩]
          rfl

/-- The silent member changes nothing about the controls of the others. -/
theorem geo_insert {A B : List (DefModule d)} {M : Mfd d} (h : M.Passive (.compound (A ++ B))) (hne : A ++ B ≠ []) {m' : DefModule d} :
    Hamiltonian.geodesicControls (.compound (A ++ .silent M :: B)) = .ok m' ↔
      ∃ A' B', Hamiltonian.geodesicControls (.compound (A ++ B)) = .ok (.compound (A' ++ B')) ∧ A'.length = A.length ∧
        m' = .compound (A' ++ .silent M :: B') := by
  obtain ⟨s1, s2⟩ := dualSame_insert h hne
  have hA : DefModule.SomeReadsJac A → (DefModule.compound (A ++ B)).ReadsJac := fun a => by
    rw [DefModule.ReadsJac, someReadsJac_append]; exact Or.inl a
  have hB : DefModule.SomeReadsJac B → (DefModule.compound (A ++ B)).ReadsJac := fun a => by
    rw [DefModule.ReadsJac, someReadsJac_append]; exact Or.inr a
  unfold Hamiltonian.geodesicControls
  rw [DefModule.manifold, DefModule.manifold, manifolds_append, manifolds_append, DefModule.manifolds, DefModule.manifold]
  constructor
  · intro hg
    obtain ⟨C, h1, rfl⟩ := geodesic_compound hg
    obtain ⟨A', D, a, b, rfl⟩ := (geodesics_append _ _ _).mp h1
    rw [DefModule.geodesics, DefModule.geodesic] at b
    dsimp only at b
    cases h2 : DefModule.geodesics (.compound (DefModule.manifolds A ++ M :: DefModule.manifolds B)) B with
    | error e => rw [h2] at b; cases b
    | ok B' =>
      rw [h2] at b
      cases b
      refine ⟨A', B', ?_, geodesics_length a, rfl⟩
      rw [DefModule.geodesic, (geodesics_append _ _ _).mpr ⟨A', B', geodesics_same s1 _ hA a, geodesics_same s1 _ hB h2, rfl⟩]
  · rintro ⟨A', B', hg, hl, rfl⟩
    obtain ⟨C, h1, hC⟩ := geodesic_compound hg
    obtain ⟨A'', B'', a, b, rfl⟩ := (geodesics_append _ _ _).mp h1
    have hA' : A' = A'' ∧ B' = B'' := List.append_inj (by injection hC) (by rw [hl, geodesics_length a])
    obtain ⟨rfl, rfl⟩ := hA'
    have hb := geodesics_same s2 _ hB b
    rw [DefModule.geodesic, (geodesics_append _ _ _).mpr ⟨A', .silent M :: B', geodesics_same s2 _ hA a, by
      rw [DefModule.geodesics, DefModule.geodesic]; dsimp only; rw [hb], rfl⟩]

/-! ## Fields and costs -/

/-- Two fields with the same values. -/
def FieldEq (f g : FieldExpr d) : Prop := ∀ k x, f.eval k x = g.eval k x

theorem FieldEq.symm {f g : FieldExpr d} (h : FieldEq f g) : FieldEq g f := fun k x => (h k x).symm
theorem FieldEq.val {f g : FieldExpr d} (h : FieldEq f g) : fieldVal f = fieldVal g := by
  funext x b; unfold fieldVal; rw [h]
theorem FieldEq.jac {f g : FieldExpr d} (h : FieldEq f g) : fieldJac f = fieldJac g := by
  funext x b c; unfold fieldJac; rw [h]
theorem FieldEq.avail {f g : FieldExpr d} (h : FieldEq f g) {k : Nat} (ha : Avail k f) : Avail k g := by
  obtain ⟨V, hV⟩ := ha
  exact ⟨V, fun x => by rw [← h]; exact hV x⟩
theorem FieldEq.values {f g : FieldExpr d} (h : FieldEq f g) {n : Nat} (pts : Fin n → Vec d) : f.values pts = g.values pts := by
  unfold FieldExpr.values FieldExpr.batch; simp only [h 0]
theorem FieldEq.jacobians {f g : FieldExpr d} (h : FieldEq f g) {n : Nat} (pts : Fin n → Vec d) : f.jacobians pts = g.jacobians pts := by
  unfold FieldExpr.jacobians FieldExpr.batch; simp only [h 1]

mutual
theorem FieldEq.action {f g : FieldExpr d} (h : FieldEq f g) : (M : Mfd d) → M.action f = M.action g
  | .landmarks _ _ => by rw [Mfd.action, Mfd.action]; unfold actLandmarks; rw [h.values]
  | .direction _ _ _ _ _ => by rw [Mfd.action, Mfd.action]; unfold actDirection; rw [h.values, h.jacobians]
  | .frame _ _ _ _ => by rw [Mfd.action, Mfd.action]; unfold actFrame; rw [h.values, h.jacobians]
  | .empty => by rw [Mfd.action, Mfd.action]
  | .compound ms => by rw [Mfd.action, Mfd.action, FieldEq.actionAll h ms]
theorem FieldEq.actionAll {f g : FieldExpr d} (h : FieldEq f g) : (ms : List (Mfd d)) → Mfd.actionAll f ms = Mfd.actionAll g ms
  | [] => by rw [Mfd.actionAll, Mfd.actionAll]
  | m :: ms => by rw [Mfd.actionAll, Mfd.actionAll, FieldEq.action h m, FieldEq.actionAll h ms]
end

theorem evalSum_insert (k : Nat) (fs gs : List (FieldExpr d)) (x : Vec d) :
    FieldExpr.evalSum k (fs ++ .null :: gs) x = FieldExpr.evalSum k (fs ++ gs) x := by
  induction fs with
  | nil =>
    rw [List.nil_append, List.nil_append, FieldExpr.evalSum, FieldExpr.eval]
    cases h : FieldExpr.evalSum k gs x with
    | error e => rfl
    | ok t => simp
  | cons f fs ih => rw [List.cons_append, List.cons_append, FieldExpr.evalSum, FieldExpr.evalSum, ih]

theorem fields_append (A B : List (DefModule d)) : DefModule.fields (A ++ B) =
    match DefModule.fields A with
    | .error e => .error e
    | .ok fs =>
      match DefModule.fields B with
      | .error e => .error e
      | .ok gs => .ok (fs ++ gs) := by
  induction A with
  | nil =>
    rw [List.nil_append, DefModule.fields]
    cases DefModule.fields B <;> rfl
  | cons m A ih =>
    rw [List.cons_append, DefModule.fields, DefModule.fields, ih]
    cases m.field with
    | error e => rfl
    | ok f =>
      cases DefModule.fields A with
      | error e => rfl
      | ok fs =>
        cases DefModule.fields B with
        | error e => rfl
        | ok gs => rfl

theorem mkSumField_ne_nil {fs : List (FieldExpr d)} (h : fs ≠ []) : mkSumField fs = .ok (.sum fs) := by
  cases fs with
  | nil => exact absurd rfl h
  | cons f fs => rfl

theorem fields_length {A : List (DefModule d)} {fs : List (FieldExpr d)} (h : DefModule.fields A = .ok fs) : fs.length = A.length := by
  induction A generalizing fs with
  | nil => rw [DefModule.fields] at h; rw [← Except.ok.inj h]; rfl
  | cons m A ih =>
    rw [DefModule.fields] at h
    cases h1 : m.field with
    | error e => rw [h1] at h; cases h
    | ok f =>
      rw [h1] at h; dsimp only at h
      cases h2 : DefModule.fields A with
      | error e => rw [h2] at h; cases h
      | ok gs => rw [h2] at h; cases h; simp [ih h2]

theorem field_insert {A B : List (DefModule d)} (M : Mfd d) (hne : A ++ B ≠ []) :
    (∃ f g, (DefModule.compound (A ++ .silent M :: B)).field = .ok f ∧ (DefModule.compound (A ++ B)).field = .ok g ∧ FieldEq f g) ∨
    ∃ e, (DefModule.compound (A ++ .silent M :: B)).field = .error e ∧ (DefModule.compound (A ++ B)).field = .error e := by
  rw [DefModule.field, DefModule.field, fields_append, fields_append, DefModule.fields, DefModule.field]
  dsimp only
  cases h1 : DefModule.fields A with
  | error e => exact Or.inr ⟨e, rfl, rfl⟩
  | ok fs =>
    dsimp only
    cases h2 : DefModule.fields B with
    | error e => exact Or.inr ⟨e, rfl, rfl⟩
    | ok gs =>
      dsimp only
      have hl : fs ++ gs ≠ [] := by
        intro h0
        have := congrArg List.length h0
        rw [List.length_append, fields_length h1, fields_length h2, ← List.length_append] at this
        exact hne (List.eq_nil_of_length_eq_zero this)
      refine Or.inl ⟨_, _, mkSumField_ne_nil (by simp), mkSumField_ne_nil hl, fun k x => ?_⟩
      rw [FieldExpr.eval, FieldExpr.eval, evalSum_insert]

theorem costs_insert (A B : List (DefModule d)) (M : Mfd d) : DefModule.costs (A ++ .silent M :: B) = DefModule.costs (A ++ B) := by
  induction A with
  | nil =>
    rw [List.nil_append, List.nil_append, DefModule.costs, DefModule.cost]
    cases DefModule.costs B with
    | error e => rfl
    | ok c => simp
  | cons m A ih => rw [List.cons_append, List.cons_append, DefModule.costs, DefModule.costs, ih]

/-- The field of a module with geodesic controls has values and Jacobians. -/
theorem geo_avail {man : Mfd d} {m m' : DefModule d} (h : m.geodesic man = .ok m') {f : FieldExpr d} (hf : m'.field = .ok f) :
    Avail 0 f ∧ Avail 1 f := by
  obtain ⟨q⟩ := uquad_exists m (inhabited_of_geodesic h (inhabited_of_field m' hf))
  letI := q.inst
  obtain ⟨u, hu, -⟩ := q.geo man m' h
  obtain ⟨g, hg, a0, a1, -⟩ := hu man
  rw [hf] at hg
  cases hg
  exact ⟨a0, a1⟩

theorem value_insert {A B : List (DefModule d)} {M : Mfd d} (h : M.ZeroCot) (hne : A ++ B ≠ [])
    (ha : ∀ g, (DefModule.compound (A ++ B)).field = .ok g → Avail 0 g ∧ Avail 1 g) {H : ℝ} :
    Hamiltonian.value (.compound (A ++ .silent M :: B)) = .ok H ↔ Hamiltonian.value (.compound (A ++ B)) = .ok H := by
  unfold Hamiltonian.value hamiltonianOn
  rcases field_insert M hne with ⟨f, g, e1, e2, e3⟩ | ⟨e, e1, e2⟩
  · rw [e1, e2]
    dsimp only
    obtain ⟨a0, a1⟩ := ha g e2
    obtain ⟨a, h1⟩ := innerProd_avail (e3.symm.avail a0) (e3.symm.avail a1) (DefModule.compound (A ++ .silent M :: B)).manifold
    obtain ⟨b, h2⟩ := innerProd_avail a0 a1 (DefModule.compound (A ++ B)).manifold
    have : a = b := by
      rw [innerProd_ok _ h1, innerProd_ok _ h2, e3.val, e3.jac, DefModule.manifold, DefModule.manifold, manifolds_append,
        manifolds_append, DefModule.manifolds, DefModule.manifold, pair_insert h]
    rw [h1, h2, this, DefModule.cost, DefModule.cost, costs_insert]
  · rw [e1, e2]

/-- The Hamiltonian after `geodesic_controls`. -/
def hamGeo (m : DefModule d) : Py ℝ :=
  match Hamiltonian.geodesicControls m with
  | .error e => .error e
  | .ok m' => Hamiltonian.value m'

theorem hamGeo_insert {A B : List (DefModule d)} {M : Mfd d} (h : M.Passive (.compound (A ++ B))) (hne : A ++ B ≠ []) {H : ℝ} :
    hamGeo (.compound (A ++ .silent M :: B)) = .ok H ↔ hamGeo (.compound (A ++ B)) = .ok H := by
  unfold hamGeo
  constructor
  · intro hH
    cases h1 : Hamiltonian.geodesicControls (.compound (A ++ .silent M :: B)) with
    | error e => rw [h1] at hH; cases hH
    | ok m' =>
      rw [h1] at hH; dsimp only at hH
      obtain ⟨A', B', h2, hl, rfl⟩ := (geo_insert h hne).mp h1
      rw [h2]
      refine (value_insert h.zero ?_ fun g => geo_avail h2).mp hH
      obtain ⟨C, h3, h4⟩ := geodesic_compound h2
      injection h4 with h4
      intro h0
      have := geodesics_length h3
      rw [← h4, h0] at this
      exact hne (List.eq_nil_of_length_eq_zero this.symm)
  · intro hH
    cases h2 : Hamiltonian.geodesicControls (.compound (A ++ B)) with
    | error e => rw [h2] at hH; cases hH
    | ok m' =>
      rw [h2] at hH; dsimp only at hH
      obtain ⟨C, h3, rfl⟩ := geodesic_compound h2
      obtain ⟨A', B', a, b, rfl⟩ := (geodesics_append _ _ _).mp h3
      have h1 := (geo_insert h hne).mpr ⟨A', B', h2, geodesics_length a, rfl⟩
      rw [h1]
      refine (value_insert h.zero ?_ fun g => geo_avail h2).mpr hH
      intro h0
      have := geodesics_length h3
      rw [h0] at this
      exact hne (List.eq_nil_of_length_eq_zero this.symm)

theorem valD_congr {x y : Py ℝ} (h : ∀ H, x = .ok H ↔ y = .ok H) : valD x = valD y := by
  cases hx : x with
  | ok a => rw [(h a).mp hx]
  | error e =>
    cases hy : y with
    | ok b => rw [(h b).mpr hy] at hx; cases hx
    | error e' => rfl

end
end Imodal
