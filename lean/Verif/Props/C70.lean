import Verif.Lemmas.OwnCotFill
import Verif.Props.C26
/-!
# C70: descriptors move by the infinitesimal action of the generated field
-/
set_option autoImplicit false
namespace Imodal
noncomputable section
open Matrix
variable {d : Nat}

theorem value_ok {m : DefModule d} {H : ℝ} (h : Hamiltonian.value m = .ok H) :
    ∃ f a c, m.field = .ok f ∧ m.manifold.innerProd f = .ok a ∧ m.cost = .ok c ∧ H = a - c := by
  unfold Hamiltonian.value hamiltonianOn at h
  cases h1 : m.field with
  | error e => rw [h1] at h; cases h
  | ok f =>
    rw [h1] at h; dsimp only at h
    cases h2 : m.manifold.innerProd f with
    | error e => rw [h2] at h; cases h
    | ok a =>
      rw [h2] at h; dsimp only at h
      cases h3 : m.cost with
      | error e => rw [h3] at h; cases h
      | ok c => rw [h3] at h; exact ⟨f, a, c, rfl, h2, rfl, (Except.ok.inj h).symm⟩

theorem setControls_manifold {controls : Option (List (Ctrl d))} {i : Nat} {m m1 : DefModule d}
    (h : setControls controls i m = .ok m1) : m1.manifold = m.manifold := manifold_of_reset (setControls_reset h)

theorem withCot_self (m : DefModule d) : m.withCot (cotRow m) 0 = m := DefModule.withCot_cotRow m

/-- The Hamiltonian as a function of the momentum alone. -/
theorem hamFn_cot (prepare : DefModule d → Py (DefModule d)) (m : DefModule d) (p : Row) : hamFn prepare m (gdRow m) p
    = match prepare (m.withCot p 0) with
      | .error e => .error e
      | .ok m' => Hamiltonian.value m' := by
  unfold hamFn
  rw [withRows_eq, DefModule.withGd_gdRow]
  rfl

/-- Along a line of momenta, with controls set anew or given, the Hamiltonian is a polynomial. -/
theorem hamFn_line {controls : Option (List (Ctrl d))} {i : Nat} {m m1 : DefModule d} {f : FieldExpr d} {w : Tan d}
    (h : setControls controls i m = .ok m1) (hf : m1.field = .ok f) {c0 : ℝ} (hc : m1.cost = .ok c0) (hw : m.manifold.action f = .ok w) (e : Row) :
    ∃ a c, ∀ t, hamFn (setControls controls i) m (gdRow m) (cotRow m + t • e)
      = .ok (a + t * dotRow e 0 w.unroll.flatten + t ^ 2 * c) := by
  cases controls with
  | none =>
    have hg : m.geodesic (m.manifold.withCot (cotRow m) 0) = .ok m1 := by
      have := h
      rw [setControls, Hamiltonian.geodesicControls] at this
      rw [← DefModule.manifold_withCot, withCot_self]; exact this
    obtain ⟨a, c, hac⟩ := hamOn_line hg hf e
    refine ⟨a, c, fun t => ?_⟩
    rw [action_moves _ hw, ← hac t, hamFn_cot, setControls, Hamiltonian.geodesicControls, DefModule.manifold_withCot, geodesic_withCot]
    unfold hamOn
    cases h2 : DefModule.geodesic (m.manifold.withCot (cotRow m + t • e) 0) m with
    | error e => rfl
    | ok m2 =>
      simp only [Except.map]
      unfold Hamiltonian.value
      rw [DefModule.manifold_withCot, geodesic_manifold h2, hamiltonianOn_withCot]
  | some cs =>
    refine ⟨dotRow (cotRow m) 0 w.unroll.flatten - c0, 0, fun t => ?_⟩
    rw [hamFn_cot]
    have h' := h
    unfold setControls at h' ⊢
    dsimp only at h' ⊢
    cases h3 : cs[i]? with
    | none => rw [h3] at h'; cases h'
    | some k =>
      rw [h3] at h'
      dsimp only at h' ⊢
      rw [fill_withCot, h']
      simp only [Except.map]
      unfold Hamiltonian.value hamiltonianOn
      rw [field_withCot, hf, cost_withCot, hc, DefModule.manifold_withCot, setControls_manifold h]
      dsimp only
      rw [innerProd_row _ _ _ hw]
      refine congrArg Except.ok ?_
      rw [dotRow_add]
      ring

/-- The Hamiltonian is differentiable in each entry of the momentum, and the derivative is the
velocity of the descriptor entry. -/
theorem hamFn_hasDerivAt {controls : Option (List (Ctrl d))} {i : Nat} {m m1 : DefModule d} {f : FieldExpr d} {w : Tan d}
    (h : setControls controls i m = .ok m1) (hf : m1.field = .ok f) {c0 : ℝ} (hc : m1.cost = .ok c0) (hw : m.manifold.action f = .ok w) (j : Nat) :
    HasDerivAt (fun s => valD (hamFn (setControls controls i) m (gdRow m) (Function.update (cotRow m) j s)))
      (rowOf w.unroll.flatten j) (cotRow m j) := by
  obtain ⟨a, c, hac⟩ := hamFn_line h hf hc hw (unitRow j)
  have hd : dotRow (unitRow j) 0 w.unroll.flatten = rowOf w.unroll.flatten j := by
    have := dotRow_unit j w.unroll.flatten 0
    rw [Nat.zero_add] at this
    exact this
  have : (fun s => valD (hamFn (setControls controls i) m (gdRow m) (Function.update (cotRow m) j s)))
      = fun s => a + (s - cotRow m j) * rowOf w.unroll.flatten j + (s - cotRow m j) ^ 2 * c := by
    funext s
    rw [update_eq, hac, hd]; rfl
  rw [this]
  have h1 : HasDerivAt (fun s : ℝ => s - cotRow m j) 1 (cotRow m j) := (hasDerivAt_id _).sub_const _
  have h2 := ((h1.mul_const (rowOf w.unroll.flatten j)).const_add a).add ((h1.pow 2).mul_const c)
  refine h2.congr_deriv ?_
  simp

theorem length_unroll_action {M : Mfd d} {f : FieldExpr d} {w : Tan d} (hw : M.action f = .ok w) : w.unroll.flatten.length = M.size := by
  rw [action_moves M hw, Mfd.length_moves]

/-- **C70.** Set the controls of a module, geodesic or given. If the Hamiltonian has a value then
the module generates a field, the field acts on the manifold of the module, and the derivative of
the Hamiltonian with respect to the momenta, the controls being set anew for each momentum, is
the unrolled infinitesimal action. -/
theorem C70_velocity {controls : Option (List (Ctrl d))} {i : Nat} {m m1 : DefModule d} {H : ℝ}
    (h : setControls controls i m = .ok m1) (hv : Hamiltonian.value m1 = .ok H) :
    ∃ f w, m1.field = .ok f ∧ m.manifold.action f = .ok w ∧ w.unroll.flatten.length = numCoords m ∧
      (∀ j, HasDerivAt (fun s => valD (hamFn (setControls controls i) m (gdRow m) (Function.update (cotRow m) j s)))
        (w.unroll.flatten.getD j 0) (cotRow m j)) ∧
      (gradH (setControls controls i) m).2 = rowOf w.unroll.flatten := by
  obtain ⟨f, a, c, hf, ha, hc, -⟩ := value_ok hv
  rw [setControls_manifold h] at ha
  obtain ⟨w, hw⟩ := action_of_innerProd _ ha
  have hl : w.unroll.flatten.length = numCoords m := by rw [length_unroll_action hw, numCoords_eq]
  refine ⟨f, w, hf, hw, hl, fun j => hamFn_hasDerivAt h hf hc hw j, ?_⟩
  funext j
  unfold gradH
  dsimp only
  by_cases hj : j < numCoords m
  · rw [cut_of_lt hj]
    exact (hamFn_hasDerivAt h hf hc hw j).deriv
  · rw [cut_of_le (by omega)]
    simp only [rowOf, List.getD, List.getElem?_eq_none (show w.unroll.flatten.length ≤ j by omega), Option.getD_none]

/-- One Euler step adds the infinitesimal action of the field of the controls it recorded. -/
theorem C70_euler_step {step : ℝ} {controls : Option (List (Ctrl d))} {i : Nat} {m m' : DefModule d}
    (h : eulerStep step controls i m = .ok m') :
    ∃ m1 f w, setControls controls i m = .ok m1 ∧ m'.controls = m1.controls ∧ m1.field = .ok f ∧ m.manifold.action f = .ok w ∧
      ∀ j < numCoords m, gdRow m' j = gdRow m j + step * w.unroll.flatten.getD j 0 := by
  obtain ⟨m1, v, h1, h2, rfl⟩ := eulerStep_ok h
  obtain ⟨f, w, hf, hw, -, -, hg⟩ := C70_velocity h1 h2
  have hn : numCoords m1 = numCoords m := numCoords_of_reset (setControls_reset h1)
  refine ⟨m1, f, w, h1, controls_rowsMod _ _, hf, hw, fun j hj => ?_⟩
  rw [gdRow_rowsMod, hn, cut_of_lt hj, hg]
  rfl

theorem eulerLoop_action {step : ℝ} {controls : Option (List (Ctrl d))} {k : Nat} :
    ∀ {i : Nat} {m : DefModule d} {r : Shot d}, eulerLoop step controls i k m = .ok r →
      ∃ M : Nat → DefModule d, M 0 = m ∧ M k = r.module ∧ (∀ j ≤ k, r.states[j]? = some (M j).manifold) ∧
        ∀ j < k, ∃ m1 f w, setControls controls (i + j) (M j) = .ok m1 ∧ r.ctrls[j]? = some m1.controls ∧
          m1.field = .ok f ∧ (M j).manifold.action f = .ok w ∧
          ∀ n < numCoords (M j), gdRow (M (j + 1)) n = gdRow (M j) n + step * w.unroll.flatten.getD n 0 := by
  induction k with
  | zero =>
    intro i m r h
    rw [eulerLoop] at h
    rw [← Except.ok.inj h]
    refine ⟨fun _ => m, rfl, rfl, fun j hj => ?_, fun j hj => absurd hj (by omega)⟩
    obtain rfl : j = 0 := by omega
    rfl
  | succ k ih =>
    intro i m r h
    rw [eulerLoop] at h
    cases h1 : eulerStep step controls i m with
    | error e => rw [h1] at h; cases h
    | ok m' =>
      rw [h1] at h
      dsimp only at h
      cases h2 : eulerLoop step controls (i + 1) k m' with
      | error e => rw [h2] at h; cases h
      | ok r' =>
        rw [h2] at h
        rw [← Except.ok.inj h]
        obtain ⟨M, e0, e1, e2, e3⟩ := ih h2
        refine ⟨fun j => match j with | 0 => m | j + 1 => M j, rfl, e1, ?_, ?_⟩
        · intro j hj
          cases j with
          | zero => rfl
          | succ j => simpa using e2 j (by omega)
        · intro j hj
          cases j with
          | zero =>
            obtain ⟨m1, f, w, a1, a2, a3, a4, a5⟩ := C70_euler_step h1
            exact ⟨m1, f, w, a1, by simp [a2], a3, a4, by simpa [e0] using a5⟩
          | succ j =>
            obtain ⟨m1, f, w, a1, a2, a3, a4, a5⟩ := e3 j (by omega)
            exact ⟨m1, f, w, by rw [show i + (j + 1) = i + 1 + j by omega]; exact a1, by simpa using a2, a3, a4, a5⟩

/-- **C70.** Every step of Euler shooting moves each descriptor entry by the step size times the
infinitesimal action, on the state before the step, of the field generated by the controls
recorded for that step. -/
theorem C70_shoot {it : Nat} {controls : Option (List (Ctrl d))} {m : DefModule d} {r : Shot d}
    (h : shootEuler it controls m = .ok r) :
    ∃ M : Nat → DefModule d, M 0 = m ∧ M it = r.module ∧ (∀ j ≤ it, r.states[j]? = some (M j).manifold) ∧
      ∀ j < it, ∃ m1 f w, setControls controls j (M j) = .ok m1 ∧ r.ctrls[j]? = some m1.controls ∧
        m1.field = .ok f ∧ (M j).manifold.action f = .ok w ∧
        ∀ n < numCoords (M j), gdRow (M (j + 1)) n = gdRow (M j) n + 1 / it * w.unroll.flatten.getD n 0 := by
  unfold shootEuler at h
  split at h
  · cases h
  · obtain ⟨M, a, b, c, e⟩ := eulerLoop_action h
    exact ⟨M, a, b, c, fun j hj => by simpa using e j hj⟩

/-- The right-hand side of the ODE solvers: its first row is the infinitesimal action. -/
theorem C70_rhs {m : DefModule d} {x y : Row × Row} (h : rhs m x = .ok y) :
    ∃ m1 f w, Hamiltonian.geodesicControls (rowsMod m x) = .ok m1 ∧ m1.field = .ok f ∧
      (rowsMod m x).manifold.action f = .ok w ∧ y.1 = rowOf w.unroll.flatten := by
  unfold rhs at h
  cases h1 : evalAt m x with
  | error e => rw [h1] at h; cases h
  | ok m1 =>
    rw [h1] at h
    unfold evalAt at h1
    cases h2 : Hamiltonian.geodesicControls (rowsMod m x) with
    | error e => rw [h2] at h1; cases h1
    | ok m2 =>
      rw [h2] at h1; dsimp only at h1
      cases h3 : Hamiltonian.value m2 with
      | error e => rw [h3] at h1; cases h1
      | ok v =>
        obtain ⟨f, w, hf, hw, -, -, hg⟩ := C70_velocity (controls := none) (i := 0) h2 h3
        refine ⟨m2, f, w, rfl, hf, hw, ?_⟩
        rw [← Except.ok.inj h]
        exact hg

/-- **C70.** A call of the callback `forward_moments` that returns gives back, as velocity of the
descriptors, the infinitesimal action of the field generated by the controls it leaves in the
module. -/
theorem C70_callback (ms : List (DefModule d)) (hp : PlainMembers ms) (t1 : ℝ) (it : Nat) (t : ℝ) (x : Row × Row)
    {y : Row × Row} {g : GradObj d} (h : forwardMoments t1 it t x (GradObj.init (.compound ms)) = (.ok y, g)) :
    ∃ f w, g.module.field = .ok f ∧ g.module.manifold.action f = .ok w ∧ y.1 = rowOf w.unroll.flatten := by
  rw [forward_run (inv_init hp)] at h
  cases h1 : evalAt (.compound ms) x with
  | error e => rw [h1] at h; cases h
  | ok m' =>
    rw [h1] at h
    simp only [Prod.mk.injEq, Except.ok.injEq] at h
    obtain ⟨rfl, rfl⟩ := h
    have hr : rhs (.compound ms) x = .ok (hamVec (.compound ms) x) := by rw [rhs, h1]
    obtain ⟨m1, f, w, a1, a2, a3, a4⟩ := C70_rhs hr
    have : m1 = m' := by
      unfold evalAt at h1
      rw [a1] at h1; dsimp only at h1
      cases h3 : Hamiltonian.value m1 with
      | error e => rw [h3] at h1; cases h1
      | ok v => rw [h3] at h1; exact Except.ok.inj h1
    subst this
    refine ⟨f, w, a2, ?_, a4⟩
    show m1.manifold.action f = .ok w
    rw [geodesic_manifold a1]; exact a3

/-! The hypotheses are met by a translation at one point and a silent point, at any positions and
number of steps; the silent point is carried along by the field of the translation. -/
example (p q : Vec 2) : ∃ m1 H, setControls none 0 (.compound (pairModule p q)) = .ok m1 ∧ Hamiltonian.value m1 = .ok H := by
  obtain ⟨r, hr⟩ := regular_shootEuler (it := 1) (pairModule_regular p q) (by norm_num)
  unfold shootEuler at hr
  rw [if_neg (by norm_num), eulerLoop] at hr
  cases h1 : eulerStep (1 / ((1 : Nat) : ℝ)) none 0 (.compound (pairModule p q)) with
  | error e => rw [h1] at hr; cases hr
  | ok m' =>
    obtain ⟨m1, v, a, b, -⟩ := eulerStep_ok h1
    exact ⟨m1, v, a, b⟩
example (p q : Vec 2) : ∃ r, shootEuler 10 none (.compound (pairModule p q)) = .ok r := regular_shootEuler (pairModule_regular p q) (by norm_num)

end
end Imodal
