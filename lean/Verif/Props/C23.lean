import Verif.Props.C17
import Verif.Props.C16
/-!
# C23: a compound module is the superposition of its members
-/
set_option autoImplicit false
namespace Imodal
noncomputable section
open Matrix
variable {d : Nat}

/-- `compound(points)` is the sum of what the members return. -/
theorem C23_call : {ms : List (DefModule d)} → {x : Vec d} → {ts : List (Tens d 1)} →
    List.Forall₂ (fun m t => m.call x = .ok t) ms ts → (DefModule.compound ms).call x = .ok ts.sum
  | [], x, _, .nil => by rw [DefModule.call, DefModule.callAll]; rfl
  | m :: ms, x, _, .cons (b := t) (l₂ := ts) h hs => by
    have ih := C23_call hs
    rw [DefModule.call] at ih ⊢
    rw [DefModule.callAll, h]
    dsimp only
    rw [ih]
    dsimp only
    rw [List.sum_cons]; rfl

/-- If the compound returns then so does every member. -/
theorem C23_call_members : {ms : List (DefModule d)} → {x : Vec d} → {t : Tens d 1} →
    (DefModule.compound ms).call x = .ok t → ∃ ts, List.Forall₂ (fun m t => m.call x = .ok t) ms ts ∧ t = ts.sum
  | [], x, t, h => by
    rw [DefModule.call, DefModule.callAll] at h
    exact ⟨[], .nil, (Except.ok.inj h).symm⟩
  | m :: ms, x, t, h => by
    rw [DefModule.call, DefModule.callAll] at h
    cases h1 : m.call x with
    | error e => rw [h1] at h; cases h
    | ok a =>
      rw [h1] at h
      dsimp only at h
      cases h2 : DefModule.callAll ms x with
      | error e => rw [h2] at h; cases h
      | ok s =>
        rw [h2] at h
        obtain ⟨ts, hts, rfl⟩ := C23_call_members (ms := ms) (x := x) (t := s) (by rw [DefModule.call]; exact h2)
        exact ⟨a :: ts, .cons h1 hts, by rw [List.sum_cons]; exact (Except.ok.inj h).symm⟩

/-- `compound.cost()` is the sum of the costs. -/
theorem C23_cost : {ms : List (DefModule d)} → {as : List ℝ} →
    List.Forall₂ (fun m a => m.cost = .ok a) ms as → (DefModule.compound ms).cost = .ok as.sum
  | [], _, .nil => by rw [DefModule.cost, DefModule.costs]; rfl
  | m :: ms, _, .cons (b := a) (l₂ := as) h hs => by
    have ih := C23_cost hs
    rw [DefModule.cost] at ih ⊢
    rw [DefModule.costs, h]
    dsimp only
    rw [ih, List.sum_cons]

/-- If the compound returns a cost then so does every member. -/
theorem C23_cost_members : {ms : List (DefModule d)} → {a : ℝ} → (DefModule.compound ms).cost = .ok a →
    ∃ as, List.Forall₂ (fun m a => m.cost = .ok a) ms as ∧ a = as.sum
  | [], a, h => by
    rw [DefModule.cost, DefModule.costs] at h
    exact ⟨[], .nil, (Except.ok.inj h).symm⟩
  | m :: ms, a, h => by
    rw [DefModule.cost, DefModule.costs] at h
    cases h1 : m.cost with
    | error e => rw [h1] at h; cases h
    | ok b =>
      rw [h1] at h
      dsimp only at h
      cases h2 : DefModule.costs ms with
      | error e => rw [h2] at h; cases h
      | ok s =>
        rw [h2] at h
        obtain ⟨as, has, rfl⟩ := C23_cost_members (ms := ms) (a := s) (by rw [DefModule.cost]; exact h2)
        exact ⟨b :: as, .cons h1 has, by rw [List.sum_cons]; exact (Except.ok.inj h).symm⟩

theorem fields_ok : {ms : List (DefModule d)} → {fs : List (FieldExpr d)} →
    List.Forall₂ (fun m f => m.field = .ok f) ms fs → DefModule.fields ms = .ok fs
  | [], _, .nil => by rw [DefModule.fields]
  | m :: ms, _, .cons h hs => by rw [DefModule.fields, h]; dsimp only; rw [fields_ok hs]

theorem fields_members : {ms : List (DefModule d)} → {fs : List (FieldExpr d)} → DefModule.fields ms = .ok fs →
    List.Forall₂ (fun m f => m.field = .ok f) ms fs
  | [], fs, h => by rw [DefModule.fields] at h; rw [← Except.ok.inj h]; exact .nil
  | m :: ms, fs, h => by
    rw [DefModule.fields] at h
    cases h1 : m.field with
    | error e => rw [h1] at h; cases h
    | ok f =>
      rw [h1] at h
      dsimp only at h
      cases h2 : DefModule.fields ms with
      | error e => rw [h2] at h; cases h
      | ok gs =>
        rw [h2] at h
        rw [← Except.ok.inj h]
        exact .cons h1 (fields_members h2)

theorem evalSum_ok {k : Nat} {x : Vec d} : {fs : List (FieldExpr d)} → {ts : List (Tens d (k + 1))} →
    List.Forall₂ (fun f t => f.eval k x = .ok t) fs ts → FieldExpr.evalSum k fs x = .ok ts.sum
  | [], _, .nil => by rw [FieldExpr.evalSum]; rfl
  | f :: fs, _, .cons h hs => by
    rw [FieldExpr.evalSum, h]; dsimp only; rw [evalSum_ok hs, List.sum_cons]; rfl

theorem mkSumField_of_ne {fs : List (FieldExpr d)} (h : fs ≠ []) : mkSumField fs = .ok (.sum fs) := by
  cases fs with
  | nil => exact absurd rfl h
  | cons f fs => rfl

theorem forall₂_ne_nil {α β : Type} {R : α → β → Prop} {l : List α} {l' : List β} (h : List.Forall₂ R l l')
    (hl : l ≠ []) : l' ≠ [] := by
  cases h with
  | nil => exact absurd rfl hl
  | cons _ _ => exact List.cons_ne_nil _ _

/-- The field of a compound with members is the sum of the fields of the members, at every
point and every order. -/
theorem C23_field_partial {ms : List (DefModule d)} {fs : List (FieldExpr d)} (hne : ms ≠ [])
    (h : List.Forall₂ (fun m f => m.field = .ok f) ms fs) :
    ∃ F, (DefModule.compound ms).field = .ok F ∧ ∀ (k : Nat) (x : Vec d) (ts : List (Tens d (k + 1))),
      List.Forall₂ (fun f t => f.eval k x = .ok t) fs ts → F.eval k x = .ok ts.sum := by
  refine ⟨.sum fs, ?_, fun k x ts hts => ?_⟩
  · rw [DefModule.field, fields_ok h]; exact mkSumField_of_ne (forall₂_ne_nil h hne)
  · rw [FieldExpr.eval]; exact evalSum_ok hts

mutual
/-- The field returned by `field_generator()` and the call of the module agree. -/
theorem C23_call_is_field : (m : DefModule d) → {f : FieldExpr d} → m.field = .ok f → (x : Vec d) → m.call x = f.eval 0 x
  | .translations m, f, h, x => by rw [DefModule.call, h] <;> simp
  | .implicit0 m, f, h, x => by rw [DefModule.call, h] <;> simp
  | .oriented m, f, h, x => by rw [DefModule.call, h] <;> simp
  | .constrained m, f, h, x => by rw [DefModule.call, h] <;> simp
  | .globalTranslation m, f, h, x => by rw [DefModule.call, h] <;> simp
  | .linear m, f, h, x => by rw [DefModule.call, h] <;> simp
  | .implicit1 m, f, h, x => by rw [DefModule.call, h] <;> simp
  | .divFree m, f, h, x => by rw [DefModule.call, h] <;> simp
  | .arap m, f, h, x => by rw [DefModule.call, h] <;> simp
  | .silent s, f, h, x => by
    rw [DefModule.field] at h
    rw [← Except.ok.inj h, DefModule.call, FieldExpr.eval]
  | .compound ms, f, h, x => by
    rw [DefModule.field] at h
    cases h1 : DefModule.fields ms with
    | error e => rw [h1] at h; cases h
    | ok fs =>
      rw [h1] at h
      rw [mkSumField_ok h, DefModule.call, FieldExpr.eval]
      exact callAll_is_field ms h1 x
theorem callAll_is_field : (ms : List (DefModule d)) → {fs : List (FieldExpr d)} → DefModule.fields ms = .ok fs → (x : Vec d) →
    DefModule.callAll ms x = FieldExpr.evalSum 0 fs x
  | [], fs, h, x => by
    rw [DefModule.fields] at h
    rw [← Except.ok.inj h, DefModule.callAll, FieldExpr.evalSum]
  | m :: ms, fs, h, x => by
    rw [DefModule.fields] at h
    cases h1 : m.field with
    | error e => rw [h1] at h; cases h
    | ok f =>
      rw [h1] at h
      dsimp only at h
      cases h2 : DefModule.fields ms with
      | error e => rw [h2] at h; cases h
      | ok gs =>
        rw [h2] at h
        rw [← Except.ok.inj h, DefModule.callAll, FieldExpr.evalSum, C23_call_is_field m h1 x, callAll_is_field ms h2 x]
        cases FieldExpr.eval 0 f x with
        | error e => rfl
        | ok t => cases FieldExpr.evalSum 0 gs x <;> rfl
end

/-- The action of the field on any manifold is the sum of the actions of the members' fields:
adding a member adds its action. -/
theorem C23_action {m : DefModule d} {ms : List (DefModule d)} {f : FieldExpr d} {fs : List (FieldExpr d)} (hne : ms ≠ [])
    (hf : m.field = .ok f) (hs : List.Forall₂ (fun m f => m.field = .ok f) ms fs)
    (ha : ∀ k, k ≤ 1 → ∀ g ∈ f :: fs, Avail k g) (M : Mfd d) :
    ∃ F G t₁ t₂ t, (DefModule.compound ms).field = .ok F ∧ (DefModule.compound (m :: ms)).field = .ok G ∧
      M.action f = .ok t₁ ∧ M.action F = .ok t₂ ∧ M.action G = .ok t ∧ IsComb 1 1 t₁ t₂ t := by
  obtain ⟨F, hF, -⟩ := C23_field_partial hne hs
  have hF' : F = .sum fs := by
    rw [DefModule.field, fields_ok hs] at hF
    exact mkSumField_ok hF
  have hav : ∀ k, k ≤ 1 → Avail k (.sum fs) := by
    intro k hk
    have : ∀ l : List (FieldExpr d), (∀ g ∈ l, Avail k g) → Avail k (.sum l) := by
      intro l
      induction l with
      | nil => exact fun _ => avail_sum_nil k
      | cons g l ih =>
        exact fun h => avail_sum_cons.mpr ⟨h g (List.mem_cons_self ..), ih fun g' hg' => h g' (List.mem_cons_of_mem _ hg')⟩
    exact this fs fun g hg => ha k hk g (List.mem_cons_of_mem _ hg)
  have hG : (DefModule.compound (m :: ms)).field = .ok (.sum (f :: fs)) := by
    rw [DefModule.field, DefModule.fields, hf]; dsimp only; rw [fields_ok hs]; rfl
  have H : FieldComb 1 1 f F (.sum (f :: fs)) := by
    intro k hk x
    subst hF'
    obtain ⟨s, hs'⟩ := ha k hk f (List.mem_cons_self ..)
    obtain ⟨t, ht⟩ := hav k hk
    have hs' := hs' x
    have ht := ht x
    refine ⟨s x, t x, hs', ht, ?_⟩
    rw [FieldExpr.eval] at ht ⊢
    rw [FieldExpr.evalSum, hs', ht]
    dsimp only
    refine congrArg Except.ok (funext fun I => ?_)
    ring
  obtain ⟨t₁, t₂, t, h1, h2, h3, h4⟩ := C16_linear H M
  exact ⟨F, _, t₁, t₂, t, hF, hG, h1, h2, h3, h4⟩

/-- The controls of a compound are the list of the members' controls. -/
theorem C23_controls (ms : List (DefModule d)) : (DefModule.compound ms).controls = .list (ms.map DefModule.controls) := by
  rw [DefModule.controls]
  congr 1
  induction ms with
  | nil => rw [DefModule.controlsAll]; rfl
  | cons m ms ih => rw [DefModule.controlsAll, ih]; rfl

/-- `fill_controls` gives each member its own entry, and refuses lists of another length. -/
theorem C23_fill {ms : List (DefModule d)} {cs : List (Ctrl d)} :
    (∀ ms', List.Forall₂ (fun (mc : DefModule d × Ctrl d) m' => mc.1.fillControls mc.2 = .ok m') (ms.zip cs) ms' →
      cs.length = ms.length → (DefModule.compound ms).fillControls (.list cs) = .ok (.compound ms')) ∧
    (cs.length ≠ ms.length → (DefModule.compound ms).fillControls (.list cs) = .error .assertion) := by
  refine ⟨fun ms' h hl => ?_, fun hl => by rw [DefModule.fillControls, if_neg hl]⟩
  rw [DefModule.fillControls, if_pos hl]
  have : DefModule.fillAll ms cs = .ok ms' := by
    induction ms generalizing cs ms' with
    | nil =>
      cases h
      exact fillAll_nil cs
    | cons m ms ih =>
      cases cs with
      | nil => cases hl
      | cons c cs =>
        cases h with
        | cons h1 h2 =>
          rw [DefModule.fillAll, h1]; dsimp only; rw [ih _ h2 (Nat.succ.inj hl)]
  rw [this]

/-- Geodesic controls are set member by member. -/
theorem C23_geodesic (man : Mfd d) (ms : List (DefModule d)) (m' : DefModule d) :
    (DefModule.compound ms).geodesic man = .ok m' ↔
      ∃ ms', m' = .compound ms' ∧ List.Forall₂ (fun m m' => m.geodesic man = .ok m') ms ms' := by
  have key : ∀ (ms ms' : List (DefModule d)), DefModule.geodesics man ms = .ok ms' ↔
      List.Forall₂ (fun m m' => m.geodesic man = .ok m') ms ms' := by
    intro ms
    induction ms with
    | nil =>
      intro ms'
      rw [DefModule.geodesics]
      constructor
      · intro h; rw [← Except.ok.inj h]; exact .nil
      · intro h; cases h; rfl
    | cons m ms ih =>
      intro ms'
      rw [DefModule.geodesics]
      constructor
      · intro h
        cases h1 : m.geodesic man with
        | error e => rw [h1] at h; cases h
        | ok a =>
          rw [h1] at h
          dsimp only at h
          cases h2 : DefModule.geodesics man ms with
          | error e => rw [h2] at h; cases h
          | ok as =>
            rw [h2] at h
            rw [← Except.ok.inj h]
            exact .cons h1 ((ih as).mp h2)
      · intro h
        cases h with
        | cons h1 h2 => rw [h1]; dsimp only; rw [(ih _).mpr h2]
  constructor
  · intro h
    obtain ⟨ms', h1, rfl⟩ := geodesic_compound h
    exact ⟨ms', rfl, (key ms ms').mp h1⟩
  · rintro ⟨ms', rfl, h⟩
    rw [DefModule.geodesic, (key ms ms').mpr h]

/-- Setting geodesic controls member by member maximises the joint Hamiltonian over all joint
controls. -/
theorem C23_joint_maximum (man : Mfd d) (ms ms' : List (DefModule d)) (hw : (DefModule.compound ms).NonnegWeights)
    (h : List.Forall₂ (fun m m' => m.geodesic man = .ok m') ms ms') :
    ∃ H, hamiltonianOn man (.compound ms') = .ok H ∧ ∀ c mc, (DefModule.compound ms).fillControls c = .ok mc →
      ∃ Hc, hamiltonianOn man mc = .ok Hc ∧ Hc ≤ H :=
  C17_geodesic_controls_maximise man _ _ hw ((C23_geodesic man ms _).mpr ⟨ms', rfl, h⟩)

/-- Without members the call and the cost are zero, but `field_generator()` raises. -/
theorem C23_empty_disagreement (x : Vec d) :
    (DefModule.compound []).call x = .ok 0 ∧ (DefModule.compound ([] : List (DefModule d))).cost = .ok 0 ∧
      (DefModule.compound ([] : List (DefModule d))).field = .error .assertion := by
  refine ⟨?_, ?_, ?_⟩
  · rw [DefModule.call, DefModule.callAll]; rfl
  · rw [DefModule.cost, DefModule.costs]
  · rw [DefModule.field, DefModule.fields]; rfl

/-! A compound of a translation and a linear field. -/
example (x : Vec 2) : ∃ t, (DefModule.compound [.globalTranslation ⟨1, ![1, 2]⟩, .linear ⟨1, 0, 0, 1, 3⟩]).call x = .ok t ∧
    ∀ I, t I = ![1, 2] (I 0) + 3 * x (I 0) := by
  refine ⟨_, C23_call (.cons (by rw [DefModule.call, DefModule.field] <;> first | rfl | simp)
    (.cons (by rw [DefModule.call, DefModule.field] <;> first | rfl | simp) .nil)), fun I => ?_⟩
  obtain ⟨i, rfl⟩ : ∃ i : Fin 2, I = fun _ => i := ⟨I 0, funext fun j => by rw [Subsingleton.elim j 0]⟩
  fin_cases i <;> simp [fieldConst, fieldAffine, Fin.sum_univ_two] <;> ring
example (x : Vec 2) : (DefModule.compound [.globalTranslation ⟨1, ![1, 2]⟩, .linear ⟨1, x, 0, 1, 3⟩]).cost = .ok 7 := by
  rw [C23_cost (.cons (by rw [DefModule.cost]) (.cons (by rw [DefModule.cost]) .nil))]
  refine congrArg Except.ok ?_
  simp [GlobalTranslation.cost, Linear.cost, Fin.sum_univ_two]
  norm_num

end
end Imodal
