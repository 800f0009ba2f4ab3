import Verif.Spec.Build
import Verif.Lemmas.Rest
import Verif.Lemmas.GivenTotal
import Verif.Lemmas.Speed
import Verif.Props.C23
/-!
# C96: a new module is at rest, and controls can be set to zero
-/
set_option autoImplicit false
namespace Imodal
noncomputable section
variable {d : Nat}

/-! ### Setting the controls to zero -/

mutual
theorem smul_zero_isZero : (c : Ctrl d) → (Ctrl.smul 0 c).IsZero
  | .vecs h => by rw [Ctrl.smul, Ctrl.IsZero]; intro i c; exact zero_mul _
  | .scalars h => by rw [Ctrl.smul, Ctrl.IsZero]; intro i; exact zero_mul _
  | .scalar h => by rw [Ctrl.smul, Ctrl.IsZero]; exact zero_mul _
  | .vec h => by rw [Ctrl.smul, Ctrl.IsZero]; intro c; exact zero_mul _
  | .none => by rw [Ctrl.smul, Ctrl.IsZero]; trivial
  | .list hs => by rw [Ctrl.smul, Ctrl.IsZero]; exact smulAll_zero_allZero hs
theorem smulAll_zero_allZero : (cs : List (Ctrl d)) → Ctrl.AllZero (Ctrl.smulAll 0 cs)
  | [] => by rw [Ctrl.smulAll, Ctrl.AllZero]; trivial
  | c :: cs => by rw [Ctrl.smulAll, Ctrl.AllZero]; exact ⟨smul_zero_isZero c, smulAll_zero_allZero cs⟩
end

theorem zeroVecs {n : Nat} (h : Fin n → Vec d) : (fun i c => 0 * h i c) = (0 : Fin n → Vec d) := by funext i c; exact zero_mul _
theorem zeroScalars {n : Nat} (h : Fin n → ℝ) : (fun i => 0 * h i) = (0 : Fin n → ℝ) := by funext i; exact zero_mul _

mutual
/-- Setting the controls to zero is setting the controls that have the same shape and are zero. -/
theorem zero_eq_fill : (m : DefModule d) → m.fillControlsZero = m.fillControls (Ctrl.smul 0 m.controls)
  | .translations m => by
    rw [DefModule.controls, Ctrl.smul, DefModule.fillControls, dif_pos rfl, DefModule.fillControlsZero, zeroVecs]
  | .implicit0 m => by
    rw [DefModule.controls, Ctrl.smul, DefModule.fillControls, dif_pos rfl, DefModule.fillControlsZero, zeroVecs]
  | .oriented m => by
    rw [DefModule.controls, Ctrl.smul, DefModule.fillControls, dif_pos rfl, DefModule.fillControlsZero, zeroScalars]
  | .constrained m => by rw [DefModule.controls, Ctrl.smul, DefModule.fillControls, DefModule.fillControlsZero, zero_mul]
  | .globalTranslation m => by
    rw [DefModule.controls, Ctrl.smul, DefModule.fillControls, DefModule.fillControlsZero, zeroScalars]
  | .linear m => by rw [DefModule.controls, Ctrl.smul, DefModule.fillControls, DefModule.fillControlsZero, zero_mul]
  | .implicit1 m => by
    rw [DefModule.controls, Ctrl.smul, DefModule.fillControls, dif_pos rfl, DefModule.fillControlsZero, zeroScalars]
  | .divFree m => by
    rw [DefModule.controls, Ctrl.smul, DefModule.fillControls, dif_pos rfl, DefModule.fillControlsZero, zeroVecs]
  | .arap m => by
    rw [DefModule.controls, Ctrl.smul, DefModule.fillControls, dif_pos rfl, DefModule.fillControlsZero, zeroVecs]
  | .silent s => by rw [DefModule.fillControls, DefModule.fillControlsZero]
  | .compound ms => by
    obtain ⟨h1, h2⟩ := zeroAll_eq_fill ms
    rw [DefModule.controls, Ctrl.smul, DefModule.fillControls, if_pos h1, DefModule.fillControlsZero, h2]
    cases DefModule.fillAll ms (Ctrl.smulAll 0 (DefModule.controlsAll ms)) <;> rfl
theorem zeroAll_eq_fill : (ms : List (DefModule d)) → (Ctrl.smulAll 0 (DefModule.controlsAll ms)).length = ms.length ∧
    DefModule.fillControlsZeroAll ms = DefModule.fillAll ms (Ctrl.smulAll 0 (DefModule.controlsAll ms))
  | [] => by rw [DefModule.controlsAll, Ctrl.smulAll, DefModule.fillControlsZeroAll, fillAll_nil]; exact ⟨rfl, rfl⟩
  | m :: ms => by
    obtain ⟨h1, h2⟩ := zeroAll_eq_fill ms
    rw [DefModule.controlsAll, Ctrl.smulAll, DefModule.fillControlsZeroAll, DefModule.fillAll, zero_eq_fill m, h2]
    refine ⟨by rw [List.length_cons, List.length_cons, h1], rfl⟩
end

theorem leaf_rest {m' : DefModule d} (hr : m'.AtRest) {f : FieldExpr d} (hf : m'.field = .ok f) (ha : Avail 0 f) {a : ℝ} (hc : m'.cost = .ok a) :
    m'.cost = .ok 0 ∧ ∀ x, m'.call x = .ok 0 := by
  refine ⟨by rw [hc, hr.cost hc], fun x => ?_⟩
  rw [C23_call_is_field m' hf x]
  obtain ⟨V, hV⟩ := ha
  have h1 := eval_scale (0 : ℝ) 0 x f
  rw [hr.field 0 hf, hV] at h1
  rw [hV, show V x = scT 0 (V x) from Except.ok.inj h1]
  congr 1
  funext I
  exact zero_mul _

theorem zero_rest {m m' : DefModule d} (h : m.fillControlsZero = .ok m') : m'.AtRest :=
  atRest_fill (smul_zero_isZero m.controls) ((zero_eq_fill m).symm.trans h)

mutual
/-- After the controls have been set to zero the cost is zero and the module moves nothing. -/
theorem zero_call : (m : DefModule d) → {m' : DefModule d} → m.fillControlsZero = .ok m' → m'.cost = .ok 0 ∧ ∀ x, m'.call x = .ok 0
  | .translations m, m', h => by
    have hr := zero_rest h
    rw [DefModule.fillControlsZero] at h
    obtain rfl := Except.ok.inj h
    exact leaf_rest hr rfl (isRep_f0 ..).avail rfl
  | .implicit0 m, m', h => by
    have hr := zero_rest h
    rw [DefModule.fillControlsZero] at h
    obtain rfl := Except.ok.inj h
    exact leaf_rest hr rfl (isRep_f0 ..).avail rfl
  | .oriented m, m', h => by
    have hr := zero_rest h
    rw [DefModule.fillControlsZero] at h
    obtain rfl := Except.ok.inj h
    exact leaf_rest hr rfl (isRep_f0 ..).avail rfl
  | .constrained m, m', h => by
    have hr := zero_rest h
    rw [DefModule.fillControlsZero] at h
    obtain rfl := Except.ok.inj h
    exact leaf_rest hr rfl (isRep_f0 ..).avail rfl
  | .globalTranslation m, m', h => by
    have hr := zero_rest h
    rw [DefModule.fillControlsZero] at h
    obtain rfl := Except.ok.inj h
    exact leaf_rest hr rfl (avail_const ..) rfl
  | .linear m, m', h => by
    have hr := zero_rest h
    rw [DefModule.fillControlsZero] at h
    obtain rfl := Except.ok.inj h
    exact leaf_rest hr rfl (avail_affine ..) rfl
  | .implicit1 m, m', h => by
    have hr := zero_rest h
    rw [DefModule.fillControlsZero] at h
    obtain ⟨a, ha, rfl⟩ := wrap_ok h
    obtain ⟨-, rfl⟩ := Implicit1.fill_ok ha
    exact leaf_rest hr rfl (isRep_fp ..).avail rfl
  | .divFree m, m', h => by
    have hr := zero_rest h
    rw [DefModule.fillControlsZero] at h
    obtain ⟨a, ha, rfl⟩ := wrap_ok h
    obtain ⟨-, rfl⟩ := DivFree.fill_ok ha
    exact leaf_rest hr rfl (m.isRep _).avail rfl
  | .arap m, m', h => by
    have hr := zero_rest h
    rw [DefModule.fillControlsZero] at h
    obtain ⟨a, ha, rfl⟩ := wrap_ok h
    obtain ⟨-, rfl⟩ := Arap.fill_ok ha
    exact leaf_rest hr rfl (m.isRep _).avail rfl
  | .silent s, m', h => by
    rw [DefModule.fillControlsZero] at h
    obtain rfl := Except.ok.inj h
    rw [DefModule.cost]
    exact ⟨rfl, fun x => by rw [DefModule.call]; rfl⟩
  | .compound ms, m', h => by
    rw [DefModule.fillControlsZero] at h
    cases h1 : DefModule.fillControlsZeroAll ms with
    | error e => rw [h1] at h; cases h
    | ok ms' =>
      rw [h1] at h
      obtain rfl := Except.ok.inj h
      obtain ⟨h2, h3⟩ := zero_callAll ms h1
      rw [DefModule.cost]
      exact ⟨h2, fun x => by rw [DefModule.call]; exact h3 x⟩
theorem zero_callAll : (ms : List (DefModule d)) → {ms' : List (DefModule d)} → DefModule.fillControlsZeroAll ms = .ok ms' →
    DefModule.costs ms' = .ok 0 ∧ ∀ x, DefModule.callAll ms' x = .ok 0
  | [], ms', h => by
    rw [DefModule.fillControlsZeroAll] at h
    obtain rfl := Except.ok.inj h
    rw [DefModule.costs]
    exact ⟨rfl, fun x => by rw [DefModule.callAll]; rfl⟩
  | m :: ms, ms', h => by
    rw [DefModule.fillControlsZeroAll] at h
    cases h1 : m.fillControlsZero with
    | error e => rw [h1] at h; cases h
    | ok m1 =>
      rw [h1] at h
      dsimp only at h
      cases h2 : DefModule.fillControlsZeroAll ms with
      | error e => rw [h2] at h; cases h
      | ok ms1 =>
        rw [h2] at h
        obtain rfl := Except.ok.inj h
        obtain ⟨c1, f1⟩ := zero_call m h1
        obtain ⟨c2, f2⟩ := zero_callAll ms h2
        refine ⟨by rw [DefModule.costs, c1, c2]; dsimp only; rw [add_zero], fun x => ?_⟩
        rw [DefModule.callAll, f1, f2]
        dsimp only
        congr 1
        funext I
        exact add_zero _
end

mutual
theorem zero_isZero : (m : DefModule d) → {m' : DefModule d} → m.fillControlsZero = .ok m' → m'.controls.IsZero
  | .translations m, m', h => by
    rw [DefModule.fillControlsZero] at h; obtain rfl := Except.ok.inj h
    rw [DefModule.controls, Ctrl.IsZero]; exact fun _ _ => rfl
  | .implicit0 m, m', h => by
    rw [DefModule.fillControlsZero] at h; obtain rfl := Except.ok.inj h
    rw [DefModule.controls, Ctrl.IsZero]; exact fun _ _ => rfl
  | .oriented m, m', h => by
    rw [DefModule.fillControlsZero] at h; obtain rfl := Except.ok.inj h
    rw [DefModule.controls, Ctrl.IsZero]; exact fun _ => rfl
  | .constrained m, m', h => by
    rw [DefModule.fillControlsZero] at h; obtain rfl := Except.ok.inj h
    rw [DefModule.controls, Ctrl.IsZero]
  | .globalTranslation m, m', h => by
    rw [DefModule.fillControlsZero] at h; obtain rfl := Except.ok.inj h
    rw [DefModule.controls, Ctrl.IsZero]; exact fun _ => rfl
  | .linear m, m', h => by
    rw [DefModule.fillControlsZero] at h; obtain rfl := Except.ok.inj h
    rw [DefModule.controls, Ctrl.IsZero]
  | .implicit1 m, m', h => by
    rw [DefModule.fillControlsZero] at h
    obtain ⟨a, ha, rfl⟩ := wrap_ok h
    obtain ⟨-, rfl⟩ := Implicit1.fill_ok ha
    rw [DefModule.controls, Ctrl.IsZero]; exact fun _ => rfl
  | .divFree m, m', h => by
    rw [DefModule.fillControlsZero] at h
    obtain ⟨a, ha, rfl⟩ := wrap_ok h
    obtain ⟨-, rfl⟩ := DivFree.fill_ok ha
    rw [DefModule.controls, Ctrl.IsZero]; exact fun _ _ => rfl
  | .arap m, m', h => by
    rw [DefModule.fillControlsZero] at h
    obtain ⟨a, ha, rfl⟩ := wrap_ok h
    obtain ⟨-, rfl⟩ := Arap.fill_ok ha
    rw [DefModule.controls, Ctrl.IsZero]; exact fun _ _ => rfl
  | .silent s, m', h => by
    rw [DefModule.fillControlsZero] at h; obtain rfl := Except.ok.inj h
    rw [DefModule.controls, Ctrl.IsZero]; trivial
  | .compound ms, m', h => by
    rw [DefModule.fillControlsZero] at h
    cases h1 : DefModule.fillControlsZeroAll ms with
    | error e => rw [h1] at h; cases h
    | ok ms' =>
      rw [h1] at h
      obtain rfl := Except.ok.inj h
      rw [DefModule.controls, Ctrl.IsZero]
      exact zero_allZero ms h1
theorem zero_allZero : (ms : List (DefModule d)) → {ms' : List (DefModule d)} → DefModule.fillControlsZeroAll ms = .ok ms' →
    Ctrl.AllZero (DefModule.controlsAll ms')
  | [], ms', h => by
    rw [DefModule.fillControlsZeroAll] at h
    obtain rfl := Except.ok.inj h
    rw [DefModule.controlsAll, Ctrl.AllZero]; trivial
  | m :: ms, ms', h => by
    rw [DefModule.fillControlsZeroAll] at h
    cases h1 : m.fillControlsZero with
    | error e => rw [h1] at h; cases h
    | ok m1 =>
      rw [h1] at h
      dsimp only at h
      cases h2 : DefModule.fillControlsZeroAll ms with
      | error e => rw [h2] at h; cases h
      | ok ms1 =>
        rw [h2] at h
        obtain rfl := Except.ok.inj h
        rw [DefModule.controlsAll, Ctrl.AllZero]
        exact ⟨zero_isZero m h1, zero_allZero ms h2⟩
end

mutual
theorem smul_of_isZero : (c : Ctrl d) → c.IsZero → Ctrl.smul 0 c = c
  | .vecs h, hz => by rw [Ctrl.IsZero] at hz; rw [Ctrl.smul]; congr 1; funext i c; rw [hz, mul_zero]
  | .scalars h, hz => by rw [Ctrl.IsZero] at hz; rw [Ctrl.smul]; congr 1; funext i; rw [hz, mul_zero]
  | .scalar h, hz => by rw [Ctrl.IsZero] at hz; rw [Ctrl.smul, hz, mul_zero]
  | .vec h, hz => by rw [Ctrl.IsZero] at hz; rw [Ctrl.smul]; congr 1; funext i; rw [hz, mul_zero]
  | .none, _ => by rw [Ctrl.smul]
  | .list hs, hz => by rw [Ctrl.IsZero] at hz; rw [Ctrl.smul, smulAll_of_allZero hs hz]
theorem smulAll_of_allZero : (cs : List (Ctrl d)) → Ctrl.AllZero cs → Ctrl.smulAll 0 cs = cs
  | [], _ => by rw [Ctrl.smulAll]
  | c :: cs, hz => by rw [Ctrl.AllZero] at hz; rw [Ctrl.smulAll, smul_of_isZero c hz.1, smulAll_of_allZero cs hz.2]
end

mutual
theorem zero_reset : (m : DefModule d) → m.reset.fillControlsZero = m.fillControlsZero
  | .translations m => by rw [DefModule.reset, DefModule.fillControlsZero, DefModule.fillControlsZero]
  | .implicit0 m => by rw [DefModule.reset, DefModule.fillControlsZero, DefModule.fillControlsZero]
  | .oriented m => by rw [DefModule.reset, DefModule.fillControlsZero, DefModule.fillControlsZero]
  | .constrained m => by rw [DefModule.reset, DefModule.fillControlsZero, DefModule.fillControlsZero]
  | .globalTranslation m => by rw [DefModule.reset, DefModule.fillControlsZero, DefModule.fillControlsZero]
  | .linear m => by rw [DefModule.reset, DefModule.fillControlsZero, DefModule.fillControlsZero]
  | .implicit1 m => by rw [DefModule.reset, DefModule.fillControlsZero, DefModule.fillControlsZero]; rfl
  | .divFree m => by rw [DefModule.reset, DefModule.fillControlsZero, DefModule.fillControlsZero]; rfl
  | .arap m => by rw [DefModule.reset, DefModule.fillControlsZero, DefModule.fillControlsZero]; rfl
  | .silent s => by rw [DefModule.reset]
  | .compound ms => by rw [DefModule.reset, DefModule.fillControlsZero, DefModule.fillControlsZero, zero_resetAll ms]
theorem zero_resetAll : (ms : List (DefModule d)) → DefModule.fillControlsZeroAll (DefModule.resetAll ms) = DefModule.fillControlsZeroAll ms
  | [] => by rw [DefModule.resetAll]
  | m :: ms => by rw [DefModule.resetAll, DefModule.fillControlsZeroAll, DefModule.fillControlsZeroAll, zero_reset m, zero_resetAll ms]
end

mutual
theorem zero_total : (m : DefModule d) → m.Regularised → ∃ m', m.fillControlsZero = .ok m'
  | .translations m, _ => ⟨_, by rw [DefModule.fillControlsZero]⟩
  | .implicit0 m, _ => ⟨_, by rw [DefModule.fillControlsZero]⟩
  | .oriented m, _ => ⟨_, by rw [DefModule.fillControlsZero]⟩
  | .constrained m, _ => ⟨_, by rw [DefModule.fillControlsZero]⟩
  | .globalTranslation m, _ => ⟨_, by rw [DefModule.fillControlsZero]⟩
  | .linear m, _ => ⟨_, by rw [DefModule.fillControlsZero]⟩
  | .implicit1 m, h => by
    rw [DefModule.Regularised] at h
    obtain ⟨m', h1, -⟩ := C20_implicit1_fill m h 0
    exact ⟨.implicit1 m', by rw [DefModule.fillControlsZero, h1]; rfl⟩
  | .divFree m, h => by
    rw [DefModule.Regularised] at h
    obtain ⟨m', h1, -⟩ := (C20_divFree m h).1 0
    exact ⟨.divFree m', by rw [DefModule.fillControlsZero, h1]; rfl⟩
  | .arap m, h => by
    rw [DefModule.Regularised] at h
    obtain ⟨m', h1, -⟩ := (C20_arap m h).1 0
    exact ⟨.arap m', by rw [DefModule.fillControlsZero, h1]; rfl⟩
  | .silent s, _ => ⟨_, by rw [DefModule.fillControlsZero]⟩
  | .compound ms, h => by
    rw [DefModule.Regularised] at h
    obtain ⟨ms', h1⟩ := zero_totalAll ms h
    exact ⟨.compound ms', by rw [DefModule.fillControlsZero, h1]⟩
theorem zero_totalAll : (ms : List (DefModule d)) → DefModule.AllRegularised ms → ∃ ms', DefModule.fillControlsZeroAll ms = .ok ms'
  | [], _ => ⟨[], by rw [DefModule.fillControlsZeroAll]⟩
  | m :: ms, h => by
    rw [DefModule.AllRegularised] at h
    obtain ⟨m', h1⟩ := zero_total m h.1
    obtain ⟨ms', h2⟩ := zero_totalAll ms h.2
    exact ⟨m' :: ms', by rw [DefModule.fillControlsZeroAll, h1, h2]⟩
end

/-- Setting the controls to zero, when it returns: the controls are zero, points and momenta are as before, the cost is
zero, the module moves no point, and doing it again changes nothing. -/
theorem C96_zero {m m' : DefModule d} (h : m.fillControlsZero = .ok m') :
    m'.controls.IsZero ∧ m'.manifold = m.manifold ∧ m'.cost = .ok 0 ∧ (∀ x, m'.call x = .ok 0) ∧ m'.fillControlsZero = .ok m' := by
  have h' := (zero_eq_fill m).symm.trans h
  have hz := zero_isZero m h
  obtain ⟨h1, h2⟩ := zero_call m h
  refine ⟨hz, fill_manifold m h', h1, h2, ?_⟩
  rw [zero_eq_fill, smul_of_isZero _ hz]
  exact fill_again h'

/-- It returns for every module whose linear systems are regularised. -/
theorem C96_zero_total (m : DefModule d) (h : m.Regularised) : ∃ m', m.fillControlsZero = .ok m' := zero_total m h

/-- It forgets all controls set before. -/
theorem C96_forgets {m m' : DefModule d} {c : Ctrl d} (h : m.fillControls c = .ok m') : m'.fillControlsZero = m.fillControlsZero := by
  rw [← zero_reset m', reset_fill m h, zero_reset]

/-! ### New modules -/

theorem transportOf_ok {s : String} {t : Transport} (h : transportOf s = .ok t) : (s = "vector" ↔ t = .vector) := by
  unfold transportOf at h
  split at h
  · next hs => cases h; exact ⟨fun _ => rfl, fun _ => hs⟩
  · next hs =>
    split at h
    · cases h; exact ⟨fun e => absurd e hs, fun e => by cases e⟩
    · cases h

theorem orZeros_eq {n : Nat} (g : Option (Fin n → Vec d)) : g.getD 0 = orZeros g := by cases g <;> rfl
theorem orZeros_fst {n : Nat} {β : Type} [Zero β] (g : Option ((Fin n → Vec d) × β)) : (g.getD 0).1 = orZeros (g.map (·.1)) := by cases g <;> rfl
theorem orZeros_snd {n : Nat} {β : Type} [Zero β] (g : Option (β × (Fin n → Vec d))) : (g.getD 0).2 = orZeros (g.map (·.2)) := by cases g <;> rfl

mutual
theorem build_total : (r : Recipe d) → r.Named → ∃ m, r.build = .ok m
  | .translations .., _ => ⟨_, by rw [Recipe.build]⟩
  | .implicit0 .., _ => ⟨_, by rw [Recipe.build]⟩
  | .oriented σ s coeff gd cot, h => by
    rw [Recipe.Named] at h
    rcases h with rfl | rfl
    · exact ⟨_, by rw [Recipe.build, transportOf, if_pos rfl]⟩
    · exact ⟨_, by rw [Recipe.build, transportOf, if_neg (by decide), if_pos rfl]⟩
  | .constrained .., _ => ⟨_, by rw [Recipe.build]⟩
  | .globalTranslation .., _ => ⟨_, by rw [Recipe.build]⟩
  | .linear .., _ => ⟨_, by rw [Recipe.build]⟩
  | .implicit1 .., _ => ⟨_, by rw [Recipe.build]⟩
  | .divFree .., _ => ⟨_, by rw [Recipe.build]⟩
  | .arap .., _ => ⟨_, by rw [Recipe.build]⟩
  | .silentLandmarks .., _ => ⟨_, by rw [Recipe.build]⟩
  | .compound rs, h => by
    rw [Recipe.Named] at h
    obtain ⟨ms, h1⟩ := buildAll_total rs h
    exact ⟨.compound ms, by rw [Recipe.build, h1]⟩
theorem buildAll_total : (rs : List (Recipe d)) → Recipe.AllNamed rs → ∃ ms, Recipe.buildAll rs = .ok ms
  | [], _ => ⟨[], by rw [Recipe.buildAll]⟩
  | r :: rs, h => by
    rw [Recipe.AllNamed] at h
    obtain ⟨m, h1⟩ := build_total r h.1
    obtain ⟨ms, h2⟩ := buildAll_total rs h.2
    exact ⟨m :: ms, by rw [Recipe.buildAll, h1, h2]⟩
end

mutual
/-- Everything about a new module. -/
theorem build_facts : (r : Recipe d) → {m : DefModule d} → r.build = .ok m → r.Named ∧ m.controls.IsZero ∧ r.Asked m.manifold ∧
    (r.Explicit → m.fillControlsZero = .ok m) ∧ (¬ r.Explicit → m.cost = .error .attribute ∧ ∀ x, m.call x = .error .attribute)
  | .translations r σ gd cot, m, h => by
    rw [Recipe.build] at h; obtain rfl := Except.ok.inj h
    refine ⟨by rw [Recipe.Named]; trivial, by rw [DefModule.controls, Ctrl.IsZero]; exact fun _ _ => rfl, ?_, fun _ => by rw [DefModule.fillControlsZero],
      fun hn => absurd (by rw [Recipe.Explicit]; trivial) hn⟩
    rw [DefModule.manifold, Recipe.Asked, ← orZeros_eq, ← orZeros_eq]; rfl
  | .implicit0 r σ ν coeff gd cot, m, h => by
    rw [Recipe.build] at h; obtain rfl := Except.ok.inj h
    refine ⟨by rw [Recipe.Named]; trivial, by rw [DefModule.controls, Ctrl.IsZero]; exact fun _ _ => rfl, ?_, fun _ => by rw [DefModule.fillControlsZero],
      fun hn => absurd (by rw [Recipe.Explicit]; trivial) hn⟩
    rw [DefModule.manifold, Recipe.Asked, ← orZeros_eq, ← orZeros_eq]; rfl
  | .oriented σ s coeff gd cot, m, h => by
    rw [Recipe.build] at h
    cases ht : transportOf s with
    | error e => rw [ht] at h; cases h
    | ok t =>
      rw [ht] at h; obtain rfl := Except.ok.inj h
      refine ⟨?_, by rw [DefModule.controls, Ctrl.IsZero]; exact fun _ => rfl, ?_, fun _ => by rw [DefModule.fillControlsZero],
        fun hn => absurd (by rw [Recipe.Explicit]; trivial) hn⟩
      · rw [Recipe.Named]
        unfold transportOf at ht
        split at ht
        · next hs => exact Or.inl hs
        · split at ht
          · next hs => exact Or.inr hs
          · cases ht
      · rw [DefModule.manifold, Recipe.Asked]
        refine ⟨t, transportOf_ok ht, ?_⟩
        rw [← orZeros_fst, ← orZeros_fst, ← orZeros_snd, ← orZeros_snd]; rfl
  | .constrained σ fs fv coeff gd cot, m, h => by
    rw [Recipe.build] at h; obtain rfl := Except.ok.inj h
    refine ⟨by rw [Recipe.Named]; trivial, by rw [DefModule.controls, Ctrl.IsZero], ?_, fun _ => by rw [DefModule.fillControlsZero],
      fun hn => absurd (by rw [Recipe.Explicit]; trivial) hn⟩
    rw [DefModule.manifold, Recipe.Asked, ← orZeros_eq, ← orZeros_eq]; rfl
  | .globalTranslation coeff, m, h => by
    rw [Recipe.build] at h; obtain rfl := Except.ok.inj h
    refine ⟨by rw [Recipe.Named]; trivial, by rw [DefModule.controls, Ctrl.IsZero]; exact fun _ => rfl, ?_, fun _ => by rw [DefModule.fillControlsZero],
      fun hn => absurd (by rw [Recipe.Explicit]; trivial) hn⟩
    rw [DefModule.manifold, Recipe.Asked]; rfl
  | .linear A coeff gd cot, m, h => by
    rw [Recipe.build] at h; obtain rfl := Except.ok.inj h
    refine ⟨by rw [Recipe.Named]; trivial, by rw [DefModule.controls, Ctrl.IsZero], ?_, fun _ => by rw [DefModule.fillControlsZero],
      fun hn => absurd (by rw [Recipe.Explicit]; trivial) hn⟩
    rw [DefModule.manifold, Recipe.Asked]; rfl
  | .implicit1 r σ C ν coeff gd cot, m, h => by
    rw [Recipe.build] at h; obtain rfl := Except.ok.inj h
    refine ⟨by rw [Recipe.Named]; trivial, by rw [DefModule.controls, Ctrl.IsZero]; exact fun _ => rfl, ?_,
      fun hn => by rw [Recipe.Explicit] at hn; exact hn.elim, fun _ => ⟨by rw [DefModule.cost]; rfl, fun x => ?_⟩⟩
    · rw [DefModule.manifold, Recipe.Asked]
      refine ⟨(gd.getD 0).2, (cot.getD 0).2, ?_, fun g hg => by rw [hg]; rfl, fun g hg => by rw [hg]; rfl⟩
      rw [← orZeros_fst, ← orZeros_fst]; rfl
    · rw [DefModule.call, DefModule.field, Implicit1.field] <;> simp
  | .divFree σ cd ν coeff gd cot, m, h => by
    rw [Recipe.build] at h; obtain rfl := Except.ok.inj h
    refine ⟨by rw [Recipe.Named]; trivial, by rw [DefModule.controls, Ctrl.IsZero]; exact fun _ _ => rfl, ?_,
      fun hn => by rw [Recipe.Explicit] at hn; exact hn.elim, fun _ => ⟨by rw [DefModule.cost]; rfl, fun x => ?_⟩⟩
    · rw [DefModule.manifold, Recipe.Asked, ← orZeros_eq, ← orZeros_eq]; rfl
    · rw [DefModule.call, DefModule.field, DivFree.field] <;> simp
  | .arap σ cd ν coeff gd cot, m, h => by
    rw [Recipe.build] at h; obtain rfl := Except.ok.inj h
    refine ⟨by rw [Recipe.Named]; trivial, by rw [DefModule.controls, Ctrl.IsZero]; exact fun _ _ => rfl, ?_,
      fun hn => by rw [Recipe.Explicit] at hn; exact hn.elim, fun _ => ⟨by rw [DefModule.cost]; rfl, fun x => ?_⟩⟩
    · rw [DefModule.manifold, Recipe.Asked, ← orZeros_eq, ← orZeros_eq]; rfl
    · rw [DefModule.call, DefModule.field, Arap.field] <;> simp
  | .silentLandmarks gd cot, m, h => by
    rw [Recipe.build] at h; obtain rfl := Except.ok.inj h
    refine ⟨by rw [Recipe.Named]; trivial, by rw [DefModule.controls, Ctrl.IsZero]; trivial, ?_, fun _ => by rw [DefModule.fillControlsZero],
      fun hn => absurd (by rw [Recipe.Explicit]; trivial) hn⟩
    rw [DefModule.manifold, Recipe.Asked, ← orZeros_eq, ← orZeros_eq]
  | .compound rs, m, h => by
    rw [Recipe.build] at h
    cases h1 : Recipe.buildAll rs with
    | error e => rw [h1] at h; cases h
    | ok ms =>
      rw [h1] at h; obtain rfl := Except.ok.inj h
      obtain ⟨a, b, c, f, g⟩ := buildAll_facts rs h1
      rw [Recipe.Named, DefModule.controls, Ctrl.IsZero, DefModule.manifold, Recipe.Asked, Recipe.Explicit, DefModule.cost]
      refine ⟨a, b, ⟨_, rfl, c⟩, fun he => by rw [DefModule.fillControlsZero, f he], fun hn => ⟨(g hn).1, fun x => ?_⟩⟩
      rw [DefModule.call]; exact (g hn).2 x
theorem buildAll_facts : (rs : List (Recipe d)) → {ms : List (DefModule d)} → Recipe.buildAll rs = .ok ms → Recipe.AllNamed rs ∧
    Ctrl.AllZero (DefModule.controlsAll ms) ∧ Recipe.AllAsked rs (DefModule.manifolds ms) ∧
    (Recipe.AllExplicit rs → DefModule.fillControlsZeroAll ms = .ok ms) ∧
    (¬ Recipe.AllExplicit rs → DefModule.costs ms = .error .attribute ∧ ∀ x, DefModule.callAll ms x = .error .attribute)
  | [], ms, h => by
    rw [Recipe.buildAll] at h; obtain rfl := Except.ok.inj h
    rw [Recipe.AllNamed, DefModule.controlsAll, Ctrl.AllZero, DefModule.manifolds, Recipe.AllAsked, Recipe.AllExplicit, DefModule.fillControlsZeroAll]
    exact ⟨trivial, trivial, rfl, fun _ => rfl, fun hn => absurd trivial hn⟩
  | r :: rs, ms, h => by
    rw [Recipe.buildAll] at h
    cases h1 : r.build with
    | error e => rw [h1] at h; cases h
    | ok m1 =>
      rw [h1] at h
      dsimp only at h
      cases h2 : Recipe.buildAll rs with
      | error e => rw [h2] at h; cases h
      | ok ms1 =>
        rw [h2] at h; obtain rfl := Except.ok.inj h
        obtain ⟨a, b, c, f, g⟩ := build_facts r h1
        obtain ⟨a', b', c', f', g'⟩ := buildAll_facts rs h2
        rw [Recipe.AllNamed, DefModule.controlsAll, Ctrl.AllZero, DefModule.manifolds, Recipe.AllAsked, Recipe.AllExplicit]
        refine ⟨⟨a, a'⟩, ⟨b, b'⟩, ⟨_, _, rfl, c, c'⟩, fun he => by rw [DefModule.fillControlsZeroAll, f he.1, f' he.2], fun hn => ?_⟩
        rw [DefModule.costs]
        by_cases he : r.Explicit
        · have hn' : ¬ Recipe.AllExplicit rs := fun h => hn ⟨he, h⟩
          obtain ⟨e1, e2⟩ := zero_call m1 (f he)
          refine ⟨by rw [e1, (g' hn').1], fun x => ?_⟩
          rw [DefModule.callAll, e2, (g' hn').2]
        · refine ⟨by rw [(g he).1], fun x => ?_⟩
          rw [DefModule.callAll, (g he).2]
end

/-- A builder returns exactly when the names of transports are known. -/
theorem C96_builds (r : Recipe d) : (∃ m, r.build = .ok m) ↔ r.Named := ⟨fun ⟨_, h⟩ => (build_facts r h).1, build_total r⟩

/-- A new module has zero controls, and its points and momenta are those asked for. -/
theorem C96_new {r : Recipe d} {m : DefModule d} (h : r.build = .ok m) : m.controls.IsZero ∧ r.Asked m.manifold :=
  ⟨(build_facts r h).2.1, (build_facts r h).2.2.1⟩

/-- A new module that needs no linear system is at rest: its cost is zero and it moves no point; setting its controls to
zero changes nothing. -/
theorem C96_partial {r : Recipe d} (hr : r.Explicit) {m : DefModule d} (h : r.build = .ok m) :
    m.cost = .ok 0 ∧ (∀ x, m.call x = .ok 0) ∧ m.fillControlsZero = .ok m := by
  have h1 := (build_facts r h).2.2.2.1 hr
  exact ⟨(zero_call m h1).1, (zero_call m h1).2, h1⟩

/-- Disagreement: a new module with a member whose field is found by solving a linear system has neither cost nor field:
asking for them raises AttributeError, although the controls are there and are zero. -/
theorem C96_disagreement {r : Recipe d} (hr : ¬ r.Explicit) {m : DefModule d} (h : r.build = .ok m) :
    m.cost = .error .attribute ∧ ∀ x, m.call x = .error .attribute := (build_facts r h).2.2.2.2 hr

/-- Such a module is at rest after its controls have been set to zero. -/
theorem C96_repaired {r : Recipe d} {m : DefModule d} (h : r.build = .ok m) (hm : m.Regularised) :
    ∃ m', m.fillControlsZero = .ok m' ∧ m'.controls.IsZero ∧ r.Asked m'.manifold ∧ m'.cost = .ok 0 ∧ ∀ x, m'.call x = .ok 0 := by
  obtain ⟨m', h1⟩ := zero_total m hm
  obtain ⟨a, b, c, f, -⟩ := C96_zero h1
  exact ⟨m', h1, a, by rw [b]; exact (C96_new h).2, c, f⟩

/-- A compound of translations on two given points, oriented translations and a linear deformation is explicit and named. -/
def exampleRecipe : Recipe 2 := .compound [.translations .torch 1 (some ![![0, 0], ![1, 0]]) none,
  .oriented (n := 1) 2 "orthogonal" 3 none none, .linear 1 1 none none]
example : exampleRecipe.Named ∧ exampleRecipe.Explicit := by
  simp [exampleRecipe, Recipe.Named, Recipe.AllNamed, Recipe.Explicit, Recipe.AllExplicit]
example : ¬ (Recipe.compound [exampleRecipe, .divFree (N := 1) (P := 2) 1 1 1 1 none none]).Explicit := by
  simp [Recipe.Explicit, Recipe.AllExplicit]
/-- The name of the transport matters. -/
example : ¬ (Recipe.oriented (d := 2) (n := 1) 2 "orthogonall" 3 none none).Named := by
  rw [Recipe.Named]; decide
example : ∃ m, (Recipe.divFree (d := 2) (N := 1) (P := 2) 1 1 1 1 none none).build = .ok m ∧ m.Regularised :=
  ⟨_, by rw [Recipe.build], by rw [DefModule.Regularised]; exact one_pos⟩

end
end Imodal
