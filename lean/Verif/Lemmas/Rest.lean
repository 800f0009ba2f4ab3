import Verif.Spec.Modules
import Verif.Lemmas.ScaleShoot
import Verif.Lemmas.OwnCotFill
import Verif.Lemmas.ResumeShoot
import Verif.Props.C26
import Verif.Model.Registration
/-!
# Shooting with zero controls
-/
set_option autoImplicit false
namespace Imodal
noncomputable section
variable {d : Nat}

mutual
theorem ctrl_scale_of_zero (a : ℝ) : (c : Ctrl d) → c.IsZero → c.scale a = c
  | .vecs h, hz => by
    rw [Ctrl.IsZero] at hz; rw [Ctrl.scale]; congr 1; funext i c; rw [hz, mul_zero]
  | .scalars h, hz => by
    rw [Ctrl.IsZero] at hz; rw [Ctrl.scale]; congr 1; funext i; rw [hz, mul_zero]
  | .scalar h, hz => by
    rw [Ctrl.IsZero] at hz; rw [Ctrl.scale, hz, mul_zero]
  | .vec h, hz => by
    rw [Ctrl.IsZero] at hz; rw [Ctrl.scale]; congr 1; funext i; rw [hz, mul_zero]
  | .none, _ => by rw [Ctrl.scale]
  | .list hs, hz => by rw [Ctrl.IsZero] at hz; rw [Ctrl.scale, ctrls_scale_of_zero a hs hz]
theorem ctrls_scale_of_zero (a : ℝ) : (cs : List (Ctrl d)) → Ctrl.AllZero cs → Ctrl.scaleAll a cs = cs
  | [], _ => by rw [Ctrl.scaleAll]
  | c :: cs, hz => by rw [Ctrl.AllZero] at hz; rw [Ctrl.scaleAll, ctrl_scale_of_zero a c hz.1, ctrls_scale_of_zero a cs hz.2]
end

mutual
theorem mfd_withCot_scale (a : ℝ) (y : Row) : (M : Mfd d) → (o : Nat) → (M.scale a).withCot y o = M.withCot y o
  | .landmarks _ _, o => by simp only [Mfd.scale, Mfd.withCot]
  | .direction _ _ _ _ _, o => by simp only [Mfd.scale, Mfd.withCot]
  | .frame _ _ _ _, o => by simp only [Mfd.scale, Mfd.withCot]
  | .empty, o => by rw [Mfd.scale]
  | .compound ms, o => by rw [Mfd.scale, Mfd.withCot, Mfd.withCot, mfds_withCot_scale a y ms o]
theorem mfds_withCot_scale (a : ℝ) (y : Row) : (Ms : List (Mfd d)) → (o : Nat) → Mfd.withCotAll y o (Mfd.scaleAll a Ms) = Mfd.withCotAll y o Ms
  | [], o => by rw [Mfd.scaleAll]
  | M :: Ms, o => by
    rw [Mfd.scaleAll, Mfd.withCotAll, Mfd.withCotAll, mfd_withCot_scale a y M o, mfds_withCot_scale a y Ms, mfd_size_scale]
end

mutual
theorem reset_withCot_scale (a : ℝ) (y : Row) : (m : DefModule d) → (o : Nat) → ((m.scale a).withCot y o).reset = (m.withCot y o).reset
  | .translations _, o => by simp only [DefModule.scale, DefModule.withCot, DefModule.reset]
  | .implicit0 _, o => by simp only [DefModule.scale, DefModule.withCot, DefModule.reset]
  | .oriented _, o => by simp only [DefModule.scale, DefModule.withCot, DefModule.reset]
  | .constrained _, o => by simp only [DefModule.scale, DefModule.withCot, DefModule.reset]
  | .globalTranslation _, o => by simp only [DefModule.scale, DefModule.withCot, DefModule.reset]
  | .linear _, o => by simp only [DefModule.scale, DefModule.withCot, DefModule.reset]
  | .implicit1 _, o => by simp only [DefModule.scale, DefModule.withCot, DefModule.reset]
  | .divFree _, o => by simp only [DefModule.scale, DefModule.withCot, DefModule.reset]
  | .arap _, o => by simp only [DefModule.scale, DefModule.withCot, DefModule.reset]
  | .silent man, o => by rw [DefModule.scale, DefModule.withCot, DefModule.withCot, mfd_withCot_scale a y man o]
  | .compound ms, o => by
    rw [DefModule.scale, DefModule.withCot, DefModule.withCot, DefModule.reset, DefModule.reset, resetAll_withCot_scale a y ms o]
theorem resetAll_withCot_scale (a : ℝ) (y : Row) : (ms : List (DefModule d)) → (o : Nat) →
    DefModule.resetAll (DefModule.withCotAll y o (DefModule.scaleAll a ms)) = DefModule.resetAll (DefModule.withCotAll y o ms)
  | [], o => by rw [DefModule.scaleAll]
  | m :: ms, o => by
    rw [DefModule.scaleAll, DefModule.withCotAll, DefModule.withCotAll, DefModule.resetAll, DefModule.resetAll, reset_withCot_scale a y m o,
      resetAll_withCot_scale a y ms, manifold_scale, mfd_size_scale]
end

/-- Controls and what is cached of them are zero: multiplying them changes nothing. -/
def DefModule.AtRest (m : DefModule d) : Prop := ∀ (a : ℝ) (y : Row), (m.scale a).withCot y 0 = m.withCot y 0

theorem atRest_fill {m m' : DefModule d} {c : Ctrl d} (hz : c.IsZero) (h : m.fillControls c = .ok m') : m'.AtRest := by
  intro a y
  have h1 := fillControls_scale a m c
  rw [ctrl_scale_of_zero a c hz, h] at h1
  have h2 := fill_withCot y (m.scale a) 0 c
  rw [h1, fill_of_reset (reset_withCot_scale a y m 0), fill_withCot, h] at h2
  exact (Except.ok.inj h2).symm

namespace DefModule.AtRest
variable {m : DefModule d} (h : m.AtRest)
include h

theorem withGd (x : Row) : (m.withGd x 0).AtRest := by
  intro a y
  rw [← scale_withGd, ← DefModule.withGd_withCot, h, DefModule.withGd_withCot]

theorem withCot (x : Row) : (m.withCot x 0).AtRest := by
  intro a y
  rw [← scale_withCot, DefModule.withCot_withCot, h, DefModule.withCot_withCot]

theorem cost {a : ℝ} (hc : m.cost = .ok a) : a = 0 := by
  have h1 := cost_scale 0 m
  rw [← cost_withCot 0 (m.scale 0) 0, h, cost_withCot, hc] at h1
  have := Except.ok.inj h1
  simpa using this

theorem field (a : ℝ) {f : FieldExpr d} (hf : m.field = .ok f) : f.scale a = f := by
  have h1 := field_scale a m
  rw [← field_withCot 0 (m.scale a) 0, h, field_withCot, hf] at h1
  exact (Except.ok.inj h1).symm

theorem action {f : FieldExpr d} (hf : m.field = .ok f) {M : Mfd d} {v : Tan d} (hv : M.action f = .ok v) : rowOf v.unroll.flatten = 0 := by
  have h1 := action_scale 0 f M
  rw [h.field 0 hf, ← action_withCot 0 f (M.scale 0) 0, mfd_withCot_scale, action_withCot, hv] at h1
  have e : v = v.scale 0 := Except.ok.inj h1
  rw [e, unrollTan_scale, ← List.map_flatten, rowOf_mapMul, zero_smul]

theorem innerProd {f : FieldExpr d} (hf : m.field = .ok f) {M : Mfd d} {v : ℝ} (hv : M.innerProd f = .ok v) : v = 0 := by
  have h1 := innerProd_scale (-1) f M
  rw [h.field (-1) hf, innerProd_scaleCot, hv] at h1
  have : -1 * v = (-1) ^ 2 * v := Except.ok.inj h1
  linarith

theorem value {a : ℝ} (hv : Hamiltonian.value m = .ok a) : a = 0 := by
  unfold Hamiltonian.value hamiltonianOn at hv
  cases h1 : m.field with
  | error e => rw [h1] at hv; cases hv
  | ok f =>
    rw [h1] at hv
    dsimp only at hv
    cases h2 : m.manifold.innerProd f with
    | error e => rw [h2] at hv; cases hv
    | ok b =>
      rw [h2] at hv
      dsimp only at hv
      cases h3 : m.cost with
      | error e => rw [h3] at hv; cases hv
      | ok c =>
        rw [h3] at hv
        rw [← Except.ok.inj hv, h.innerProd h1 h2, h.cost h3, sub_zero]
end DefModule.AtRest

/-- The Hamiltonian with zero controls does not depend on anything. -/
theorem gradH_atRest {controls : List (Ctrl d)} (hz : ∀ c ∈ controls, c.IsZero) (i : Nat) (m : DefModule d) :
    gradH (setControls (some controls) i) m = (0, 0) := by
  have h0 : (fun q p => valD (hamFn (setControls (some controls) i) m q p)) = fun _ _ => 0 := by
    funext q p
    unfold hamFn
    rw [withRows_eq]
    dsimp only
    unfold setControls
    dsimp only
    cases h1 : controls[i]? with
    | none => rfl
    | some c =>
      dsimp only
      cases h2 : ((m.withGd q 0).withCot p 0).fillControls c with
      | error e => rfl
      | ok m' =>
        dsimp only
        cases h3 : Hamiltonian.value m' with
        | error e => rfl
        | ok a => exact (atRest_fill (hz c (List.mem_of_getElem? h1)) h2).value h3
  unfold gradH
  dsimp only
  rw [h0]
  have hq : partialQ (fun _ _ => (0 : ℝ)) (gdRow m) (cotRow m) = 0 := by
    funext j; unfold partialQ; exact deriv_const _ _
  have hp : partialP (fun _ _ => (0 : ℝ)) (gdRow m) (cotRow m) = 0 := by
    funext j; unfold partialP; exact deriv_const _ _
  rw [hq, hp]
  ext j <;> simp [cut]

theorem ctrlEval_zero {m : DefModule d} {c : Ctrl d} (hz : c.IsZero) {x : Row} {r : DefModule d × Row} (h : ctrlEval m c x = .ok r) :
    r.2 = 0 ∧ r.1.AtRest ∧ r.1.cost = .ok 0 := by
  obtain ⟨h0, hc⟩ := ctrlEval_ok h
  have hr := atRest_fill hz h0
  refine ⟨?_, hr, by rw [hc, hr.cost hc]⟩
  unfold ctrlEval at h
  rw [h0] at h
  dsimp only at h
  rw [hc] at h
  dsimp only at h
  cases h3 : r.1.field with
  | error e => rw [h3] at h; cases h
  | ok f =>
    rw [h3] at h
    dsimp only at h
    cases h4 : r.1.manifold.action f with
    | error e => rw [h4] at h; cases h
    | ok v =>
      rw [h4] at h
      have e : r.2 = rowOf v.unroll.flatten := by rw [← Except.ok.inj h]
      rw [e]; exact hr.action h3 h4

/-! ## The solver -/

section
variable {σ V : Type} [AddCommGroup V] [Module ℝ V] {I J : σ → Prop} {f : ℝ → V → Prog σ V}

theorem step_rest (hJ : ∀ w, J w → I w) (h : ∀ t x w k w', I w → f t x w = (.ok k, w') → k = 0 ∧ J w') (s : Solver) (t t' : ℝ) {y y' : V}
    {w w' : σ} (hI : I w) (h1 : Solver.step f t t' y s w = (.ok y', w')) : y' = y ∧ J w' := by
  cases s with
  | euler =>
    obtain ⟨k, v, h1, h2⟩ := bind_ok h1
    obtain ⟨hk, hv⟩ := h _ _ _ _ _ hI h1
    obtain ⟨e, e'⟩ := pure_ok h2
    exact ⟨by rw [← e, hk, smul_zero, add_zero], e' ▸ hv⟩
  | midpoint =>
    obtain ⟨k, v, h1, h2⟩ := bind_ok h1
    obtain ⟨hk, hv⟩ := h _ _ _ _ _ hI h1
    obtain ⟨k', v', h1, h2⟩ := bind_ok h2
    obtain ⟨hk', hv'⟩ := h _ _ _ _ _ (hJ _ hv) h1
    obtain ⟨e, e'⟩ := pure_ok h2
    exact ⟨by rw [← e, hk', smul_zero, add_zero], e' ▸ hv'⟩
  | rk4 =>
    obtain ⟨k₁, v, h1, h2⟩ := bind_ok h1
    obtain ⟨hk₁, hv⟩ := h _ _ _ _ _ hI h1
    obtain ⟨k₂, v', h1, h2⟩ := bind_ok h2
    obtain ⟨hk₂, hv'⟩ := h _ _ _ _ _ (hJ _ hv) h1
    obtain ⟨k₃, v', h1, h2⟩ := bind_ok h2
    obtain ⟨hk₃, hv'⟩ := h _ _ _ _ _ (hJ _ hv') h1
    obtain ⟨k₄, v', h1, h2⟩ := bind_ok h2
    obtain ⟨hk₄, hv'⟩ := h _ _ _ _ _ (hJ _ hv') h1
    obtain ⟨e, e'⟩ := pure_ok h2
    exact ⟨by rw [← e, hk₁, hk₂, hk₃, hk₄]; simp, e' ▸ hv'⟩

theorem odeLoop_rest (hJ : ∀ w, J w → I w) (h : ∀ t x w k w', I w → f t x w = (.ok k, w') → k = 0 ∧ J w') (s : Solver) (t1 : ℝ) (it : Nat) :
    ∀ (n i : Nat) (y : V) (w w' : σ) (l : List V), I w → odeLoop s f t1 it i n y w = (.ok l, w') →
      l = List.replicate (n + 1) y ∧ I w' ∧ (n ≠ 0 ∨ J w → J w') := by
  intro n
  induction n with
  | zero =>
    intro i y w w' l hI hl
    rw [odeLoop] at hl
    obtain ⟨e, rfl⟩ := pure_ok hl
    exact ⟨e.symm, hI, fun h => h.resolve_left (absurd rfl)⟩
  | succ n ih =>
    intro i y w w' l hI hl
    rw [odeLoop] at hl
    obtain ⟨y', w₁, h1, h2⟩ := bind_ok hl
    obtain ⟨r, w₂, h3, h4⟩ := bind_ok h2
    obtain ⟨rfl, hI'⟩ := step_rest hJ h s _ _ hI h1
    obtain ⟨e, hI'', hJ'⟩ := ih _ _ _ _ _ (hJ _ hI') h3
    obtain ⟨e1, rfl⟩ := pure_ok h4
    exact ⟨by rw [← e1, e]; rfl, hI'', fun _ => hJ' (Or.inr hI')⟩

end

/-- What holds with zero controls before and after every evaluation. -/
def RestInv (ms : List (DefModule d)) (g : GradObj d) : Prop := InvC ms g ∧ ∀ c ∈ g.costs, c = 0

theorem pickControls_mem {controls : List (Ctrl d)} {it : Nat} {i : Int} {n : Nat} {c : Ctrl d} (h : pickControls controls it i n = .ok c) :
    c ∈ controls := by
  unfold pickControls at h
  dsimp only at h
  split at h
  · cases h
  · next heq => rw [← Except.ok.inj h]; exact List.mem_of_getElem? heq

theorem forwardC_rest {ms : List (DefModule d)} {controls : List (Ctrl d)} (hz : ∀ c ∈ controls, c.IsZero) (t1 : ℝ) (it : Nat) (t : ℝ) (x : Row)
    (w : GradObj d) (k : Row) (w' : GradObj d) (hI : RestInv ms w) (h : forwardControl controls t1 it t x w = (.ok k, w')) :
    k = 0 ∧ RestInv ms w' ∧ w'.module.AtRest := by
  obtain ⟨hI, hc⟩ := hI
  rw [forwardC_run hI] at h
  cases h1 : pickControls controls it (tToIt t1 it t) w.it with
  | error e => rw [h1] at h; cases h
  | ok c =>
    rw [h1] at h
    dsimp only at h
    cases h2 : ctrlEval (.compound ms) c x with
    | error e => rw [h2] at h; cases h
    | ok r =>
      rw [h2] at h
      dsimp only at h
      obtain ⟨e1, e2, e3⟩ := ctrlEval_zero (hz c (pickControls_mem h1)) h2
      obtain ⟨rfl, rfl⟩ : r.2 = k ∧ w.after t1 it t r.1 = w' := by
        have a := congrArg Prod.fst h
        have b := congrArg Prod.snd h
        exact ⟨Except.ok.inj a, b⟩
      refine ⟨e1, ⟨invC_after hI h2 .., ?_⟩, e2⟩
      intro a ha
      unfold GradObj.after at ha
      dsimp only at ha
      rw [e3] at ha
      split at ha
      · rw [List.mem_append, List.mem_singleton] at ha
        exact ha.elim (hc a) id
      · exact hc a ha

theorem shootControls_rest {ms : List (DefModule d)} {controls : List (Ctrl d)} (hz : ∀ c ∈ controls, c.IsZero) {s : Solver} {it : Nat} {t1 : ℝ}
    {r : Shot d} (h : shootControls s it t1 controls (.compound ms) = .ok r) :
    r.states = List.replicate (it + 1) (DefModule.compound ms).manifold ∧ r.module.manifold = (DefModule.compound ms).manifold
      ∧ (∀ c ∈ r.costs, c = 0) ∧ (it ≠ 0 → r.module.AtRest) := by
  by_cases hn : 0 < numCoords (.compound ms)
  swap
  · rw [shootControls, C07_no_coordinates (DefModule.compound ms) (by omega)] at h; cases h
  by_cases hp : PlainMembers ms
  swap
  · rw [shootC_not_plain hp hn] at h
    split at h <;> cases h
  cases hr : odeint s (forwardControl controls t1 it) t1 it (gdRow (.compound ms)) (GradObj.init (.compound ms)) with
  | mk q w =>
    rw [shootC_of_run hp hn s it t1 _ hr] at h
    cases q with
    | error e => cases h
    | ok xs =>
      unfold odeint at hr
      split at hr
      · cases hr
      obtain ⟨e, ⟨hI, hc⟩, hJ⟩ := odeLoop_rest (I := RestInv ms) (J := fun w => RestInv ms w ∧ w.module.AtRest) (fun _ h => h.1)
        (fun t x w k w' => forwardC_rest hz t1 it t x w k w') s t1 it it 0 _ _ _ _ ⟨invC_init hp, fun c hc => by cases hc⟩ hr
      have hlast : xs.getLastD (gdRow (.compound ms)) = gdRow (.compound ms) := by
        rw [e, List.getLastD_eq_getLast?, List.getLast?_replicate]; rfl
      dsimp only [Except.map] at h
      rw [hlast] at h
      cases h
      refine ⟨?_, ?_, hc, fun hit => (hJ (Or.inl hit)).2.withGd _⟩
      · dsimp only
        rw [e, List.map_replicate, DefModule.withGd_gdRow]
      · obtain ⟨ms', e', -, hs⟩ := hI
        dsimp only
        rw [e', manifold_of_reset (hs _), DefModule.withGd_gdRow]

/-! ## `torch_euler` -/

theorem eulerLoop_rest {controls : List (Ctrl d)} (hz : ∀ c ∈ controls, c.IsZero) {step : ℝ} {k : Nat} : ∀ {i : Nat} {m : DefModule d} {r : Shot d},
    eulerLoop step (some controls) i k m = .ok r →
      r.module.manifold = m.manifold ∧ r.states = List.replicate (k + 1) m.manifold ∧ (k ≠ 0 ∨ m.AtRest → r.module.AtRest) := by
  induction k with
  | zero => intro i m r h; cases h; exact ⟨rfl, rfl, fun h => h.resolve_left (absurd rfl)⟩
  | succ k ih =>
    intro i m r h
    rw [eulerLoop] at h
    cases h1 : eulerStep step (some controls) i m with
    | error e => rw [h1] at h; cases h
    | ok m' =>
      rw [h1] at h
      dsimp only at h
      obtain ⟨m1, v, e1, -, rfl⟩ := eulerStep_ok h1
      have hrest : m1.AtRest := by
        unfold setControls at e1
        dsimp only at e1
        cases h3 : controls[i]? with
        | none => rw [h3] at e1; cases e1
        | some c => rw [h3] at e1; exact atRest_fill (hz c (List.mem_of_getElem? h3)) e1
      rw [gradH_atRest hz] at h h1
      simp only [smul_zero, add_zero] at h
      have hre : (rowsMod m1 (gdRow m, cotRow m)).reset = m.reset := by
        rw [same_of_reset (setControls_reset e1), rowsMod_self]
      cases h2 : eulerLoop step (some controls) (i + 1) k (rowsMod m1 (gdRow m, cotRow m)) with
      | error e => rw [h2] at h; cases h
      | ok r' =>
        rw [h2] at h
        cases h
        have hman := manifold_of_reset hre
        obtain ⟨a, b, c⟩ := ih h2
        exact ⟨by rw [a, hman], by rw [b, hman]; rfl, fun _ => c (Or.inr ((hrest.withGd _).withCot _))⟩

/-- Shooting with zero controls, every solver. -/
theorem shoot_rest {ms : List (DefModule d)} {controls : List (Ctrl d)} (hz : ∀ c ∈ controls, c.IsZero) {s : SolverName} {it : Nat} {t1 : ℝ}
    {r : Shot d × Option (List ℝ)} (h : shoot s it t1 (some controls) (.compound ms) = .ok r) :
    r.1.states = List.replicate (it + 1) (DefModule.compound ms).manifold ∧ r.1.module.manifold = (DefModule.compound ms).manifold
      ∧ (∀ l, r.2 = some l → ∀ c ∈ l, c = 0) ∧ (it ≠ 0 → r.1.module.AtRest) := by
  cases s with
  | torchEuler =>
    unfold shoot at h
    dsimp only at h
    cases h1 : shootEuler it (some controls) (.compound ms) with
    | error e => rw [h1] at h; cases h
    | ok q =>
      rw [h1] at h
      cases h
      unfold shootEuler at h1
      split at h1
      · cases h1
      obtain ⟨a, b, c⟩ := eulerLoop_rest hz h1
      exact ⟨b, a, fun l hl => (by cases hl), fun hit => c (Or.inl hit)⟩
  | fixed s =>
    unfold shoot shootOde at h
    dsimp only at h
    cases h1 : shootControls s it t1 controls (.compound ms) with
    | error e => rw [h1] at h; cases h
    | ok q =>
      rw [h1] at h
      cases h
      obtain ⟨a, b, c, e⟩ := shootControls_rest hz h1
      exact ⟨a, b, fun l hl => (Option.some.inj hl) ▸ c, e⟩
  | adaptive => cases h
  | unknown => cases h

end
end Imodal
