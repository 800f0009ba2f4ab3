import Verif.Lemmas.Speed
import Verif.Lemmas.Carried
import Verif.Props.C27
import Verif.Props.C28
import Verif.Props.C71
/-! The costs of a shooting bound how far it moves the points. -/
set_option autoImplicit false
namespace Imodal
noncomputable section
variable {d : Nat}

mutual
theorem positive_withGd (x : Row) : (m : DefModule d) → (o : Nat) → m.PositiveWeights → (m.withGd x o).PositiveWeights
  | .translations _, _, h => by simpa only [DefModule.withGd, DefModule.PositiveWeights] using h
  | .implicit0 _, _, h => by simpa only [DefModule.withGd, DefModule.PositiveWeights] using h
  | .oriented _, _, h => by simpa only [DefModule.withGd, DefModule.PositiveWeights] using h
  | .constrained _, _, h => by simpa only [DefModule.withGd, DefModule.PositiveWeights] using h
  | .globalTranslation _, _, h => by simpa only [DefModule.withGd, DefModule.PositiveWeights] using h
  | .linear _, _, h => by simpa only [DefModule.withGd, DefModule.PositiveWeights] using h
  | .implicit1 _, _, h => by simpa only [DefModule.withGd, DefModule.PositiveWeights] using h
  | .divFree _, _, h => by simpa only [DefModule.withGd, DefModule.PositiveWeights] using h
  | .arap _, _, h => by simpa only [DefModule.withGd, DefModule.PositiveWeights] using h
  | .silent _, _, h => by simpa only [DefModule.withGd, DefModule.PositiveWeights] using h
  | .compound ms, o, h => by
    rw [DefModule.PositiveWeights] at h; rw [DefModule.withGd, DefModule.PositiveWeights]
    refine ⟨?_, positive_withGdAll x ms o h.2⟩
    cases ms with
    | nil => exact absurd rfl h.1
    | cons m ms => rw [DefModule.withGdAll]; exact List.cons_ne_nil _ _
theorem positive_withGdAll (x : Row) : (ms : List (DefModule d)) → (o : Nat) → DefModule.AllPositiveWeights ms → DefModule.AllPositiveWeights (DefModule.withGdAll x o ms)
  | [], _, _ => by rw [DefModule.withGdAll, DefModule.AllPositiveWeights]; trivial
  | m :: ms, o, h => by
    rw [DefModule.AllPositiveWeights] at h; rw [DefModule.withGdAll, DefModule.AllPositiveWeights]
    exact ⟨positive_withGd x m o h.1, positive_withGdAll x ms _ h.2⟩
end

mutual
theorem noLinear_withGd (x : Row) : (m : DefModule d) → (o : Nat) → m.NoLinear → (m.withGd x o).NoLinear
  | .translations _, _, h => by simpa only [DefModule.withGd, DefModule.NoLinear] using h
  | .implicit0 _, _, h => by simpa only [DefModule.withGd, DefModule.NoLinear] using h
  | .oriented _, _, h => by simpa only [DefModule.withGd, DefModule.NoLinear] using h
  | .constrained _, _, h => by simpa only [DefModule.withGd, DefModule.NoLinear] using h
  | .globalTranslation _, _, h => by simpa only [DefModule.withGd, DefModule.NoLinear] using h
  | .linear _, _, h => by simpa only [DefModule.withGd, DefModule.NoLinear] using h
  | .implicit1 _, _, h => by simpa only [DefModule.withGd, DefModule.NoLinear] using h
  | .divFree _, _, h => by simpa only [DefModule.withGd, DefModule.NoLinear] using h
  | .arap _, _, h => by simpa only [DefModule.withGd, DefModule.NoLinear] using h
  | .silent _, _, h => by simpa only [DefModule.withGd, DefModule.NoLinear] using h
  | .compound ms, o, h => by
    rw [DefModule.NoLinear] at h; rw [DefModule.withGd, DefModule.NoLinear]
    exact noLinear_withGdAll x ms o h
theorem noLinear_withGdAll (x : Row) : (ms : List (DefModule d)) → (o : Nat) → DefModule.AllNoLinear ms → DefModule.AllNoLinear (DefModule.withGdAll x o ms)
  | [], _, _ => by rw [DefModule.withGdAll, DefModule.AllNoLinear]; trivial
  | m :: ms, o, h => by
    rw [DefModule.AllNoLinear] at h; rw [DefModule.withGdAll, DefModule.AllNoLinear]
    exact ⟨noLinear_withGd x m o h.1, noLinear_withGdAll x ms _ h.2⟩
end

mutual
theorem mobility_withGd (x : Row) : (m : DefModule d) → (o : Nat) → (m.withGd x o).mobility = m.mobility
  | .translations _, _ => by simp only [DefModule.withGd, DefModule.mobility]
  | .implicit0 _, _ => by simp only [DefModule.withGd, DefModule.mobility]
  | .oriented _, _ => by simp only [DefModule.withGd, DefModule.mobility]
  | .constrained _, _ => by simp only [DefModule.withGd, DefModule.mobility]
  | .globalTranslation _, _ => by simp only [DefModule.withGd, DefModule.mobility]
  | .linear _, _ => by simp only [DefModule.withGd, DefModule.mobility]
  | .implicit1 _, _ => by simp only [DefModule.withGd, DefModule.mobility]
  | .divFree _, _ => by simp only [DefModule.withGd, DefModule.mobility]
  | .arap _, _ => by simp only [DefModule.withGd, DefModule.mobility]
  | .silent _, _ => by simp only [DefModule.withGd, DefModule.mobility]
  | .compound ms, o => by rw [DefModule.withGd, DefModule.mobility, DefModule.mobility, mobility_withGdAll x ms o]
theorem mobility_withGdAll (x : Row) : (ms : List (DefModule d)) → (o : Nat) → DefModule.mobilities (DefModule.withGdAll x o ms) = DefModule.mobilities ms
  | [], _ => by rw [DefModule.withGdAll]
  | m :: ms, o => by rw [DefModule.withGdAll, DefModule.mobilities, DefModule.mobilities, mobility_withGd x m o, mobility_withGdAll x ms]
end

mutual
theorem moves_zero : (M : Mfd d) → (x : ℝ) → x ∈ M.moves (fun _ => 0) (fun _ => 0) → x = 0
  | .landmarks gd _, x, h => by
    rw [Mfd.moves] at h
    simp [flatVecs] at h
    tauto
  | .direction .vector gd dir _ _, x, h => by
    rw [Mfd.moves] at h
    simp [flatVecs] at h
    tauto
  | .direction .orthogonal gd dir _ _, x, h => by
    rw [Mfd.moves] at h
    simp [flatVecs] at h
    tauto
  | .frame gd R _ _, x, h => by
    rw [Mfd.moves] at h
    simp [flatVecs, flatMats] at h
    tauto
  | .empty, x, h => by rw [Mfd.moves] at h; cases h
  | .compound ms, x, h => by rw [Mfd.moves] at h; exact movesAll_zero ms x h
theorem movesAll_zero : (ms : List (Mfd d)) → (x : ℝ) → x ∈ Mfd.movesAll (fun _ => 0) (fun _ => 0) ms → x = 0
  | [], x, h => by rw [Mfd.movesAll] at h; cases h
  | m :: ms, x, h => by
    rw [Mfd.movesAll, List.mem_append] at h
    exact h.elim (moves_zero m x) (movesAll_zero ms x)
end

theorem rowOf_of_zero {l : List ℝ} (h : ∀ x ∈ l, x = 0) : rowOf l = 0 := by
  funext j
  unfold rowOf
  rw [List.getD_eq_getElem?_getD]
  cases e : l[j]? with
  | none => rfl
  | some a => exact h a (List.mem_of_getElem? e)

theorem action_zero {f : FieldExpr d} (h : ∀ x, fieldVal f x = 0 ∧ fieldJac f x = 0) {M : Mfd d} {w : Tan d} (hw : M.action f = .ok w) :
    rowOf w.unroll.flatten = 0 := by
  refine rowOf_of_zero fun x hx => ?_
  rw [action_moves M hw, show fieldVal f = fun _ => 0 from funext fun y => (h y).1,
    show fieldJac f = fun _ => 0 from funext fun y => (h y).2] at hx
  exact moves_zero M x hx

/-- What an evaluation with given controls computes. -/
theorem ctrlRhs_parts {m : DefModule d} {c : Ctrl d} {x k : Row} (h : ctrlRhs m c x = .ok k) :
    ∃ m' a f v, (m.withGd x 0).fillControls c = .ok m' ∧ m'.cost = .ok a ∧ m'.field = .ok f ∧
      (m.manifold.withGd x 0).action f = .ok v ∧ k = rowOf v.unroll.flatten := by
  unfold ctrlRhs ctrlEval at h
  cases h1 : (m.withGd x 0).fillControls c with
  | error e => rw [h1] at h; cases h
  | ok m' =>
    rw [h1] at h
    dsimp only at h
    cases h2 : m'.cost with
    | error e => rw [h2] at h; cases h
    | ok a =>
      rw [h2] at h
      dsimp only at h
      cases h3 : m'.field with
      | error e => rw [h3] at h; cases h
      | ok f =>
        rw [h3] at h
        dsimp only at h
        cases h4 : m'.manifold.action f with
        | error e => rw [h4] at h; cases h
        | ok v =>
          rw [h4] at h
          have hm : m'.manifold = m.manifold.withGd x 0 := by
            rw [manifold_of_reset (reset_fill _ h1), DefModule.manifold_withGd]
          exact ⟨m', a, f, v, rfl, h2, h3, by rw [← hm, h4], (Except.ok.inj h).symm⟩

theorem CtrlCostAt.nonneg {m : DefModule d} (hw : m.PositiveWeights) {c : Ctrl d} {x : Row} {a : ℝ} (h : CtrlCostAt m c x a) : 0 ≤ a := by
  obtain ⟨m', h1, h2⟩ := h
  obtain ⟨f, a', -, e, -, -, h0, -⟩ := says_fill _ (positive_withGd x m 0 hw) h1
  rw [h2] at e
  rw [Except.ok.inj e]
  exact h0

/-- Controls without cost move nothing. -/
theorem CtrlCostAt.still {m : DefModule d} (hw : m.PositiveWeights) {c : Ctrl d} {x k : Row} (h : CtrlCostAt m c x 0)
    (hk : ctrlRhs m c x = .ok k) : k = 0 := by
  obtain ⟨m', h1, h2⟩ := h
  obtain ⟨f, a', h3, e, -, -, -, hr, -⟩ := says_fill _ (positive_withGd x m 0 hw) h1
  rw [h2] at e
  obtain ⟨m'', a, f', v, q1, -, q3, q4, rfl⟩ := ctrlRhs_parts hk
  rw [h1] at q1
  obtain rfl := Except.ok.inj q1
  rw [h3] at q3
  obtain rfl := Except.ok.inj q3
  exact action_zero (hr (Except.ok.inj e).symm) q4

/-- The cost of the controls bounds the velocities of the points. -/
theorem CtrlCostAt.slow {m : DefModule d} (hw : m.PositiveWeights) (hl : m.NoLinear) {c : Ctrl d} {x k : Row} {a : ℝ} (h : CtrlCostAt m c x a)
    (hk : ctrlRhs m c x = .ok k) {i n : Nat} {x₀ : Fin n → Vec d} (hx : m.manifold.At i x₀) (p : Fin n) :
    ∑ b, block (d := d) (n := n) (m.manifold.off i) k p b ^ 2 ≤ 2 * m.mobility * a := by
  obtain ⟨m', h1, h2⟩ := h
  obtain ⟨f, a', h3, e, h0, -, -, -, hr⟩ := says_fill _ (positive_withGd x m 0 hw) h1
  rw [h2] at e
  obtain rfl := Except.ok.inj e
  obtain ⟨m'', a', f', v, q1, -, q3, q4, rfl⟩ := ctrlRhs_parts hk
  rw [h1] at q1
  obtain rfl := Except.ok.inj q1
  rw [h3] at q3
  obtain rfl := Except.ok.inj q3
  have := (hx.withGd x).1.action q4
  rw [(hx.withGd x).2, h0.values] at this
  rw [← Except.ok.inj this]
  have := hr (noLinear_withGd x m 0 hl)
  rw [mobility_withGd] at this
  exact this _

/-- The steps of Euler's method with given controls and their costs. -/
theorem euler_costs {ms : List (DefModule d)} {it : Nat} {t1 : ℝ} {controls : List (Ctrl d)} {r : Shot d}
    (h : shootControls .euler it t1 controls (.compound ms) = .ok r) : r.costs.length = it ∧
    ∃ xs : List Row, xs.length = it + 1 ∧ xs[0]? = some (gdRow (.compound ms)) ∧
      r.states = xs.map (fun x => ((DefModule.compound ms).withGd x 0).manifold) ∧
      r.module.manifold = ((DefModule.compound ms).withGd (xs.getLastD (gdRow (.compound ms))) 0).manifold ∧
      ∀ l < it, ∃ x k c a, xs[l]? = some x ∧ xs[l + 1]? = some (x + (t1 / it) • k) ∧ r.costs[l]? = some a ∧
        CtrlCostAt (.compound ms) c x a ∧ ctrlRhs (.compound ms) c x = .ok k := by
  obtain ⟨hp, hn⟩ := shootC_plain h
  obtain ⟨ht, xs, h1, h2, h3, g, h4, h5⟩ := shootC_ok h
  obtain ⟨-, cs, b, cl, e⟩ := (clocked_control ms controls t1 it).odeint (invC_init hp) h4
  have hcs : r.costs = cs := by rw [h5, b]; simp [GradObj.init]
  obtain ⟨q1, q2, q3⟩ := orbitWith_steps h1
  refine ⟨by rw [hcs, cl], xs, q1, q2, h2, manifold_of_reset h3, fun l hl => ?_⟩
  obtain ⟨x, n, a, e1, ⟨c, e2, e3⟩, e4, -⟩ := e l hl
  obtain ⟨e5, e6⟩ := e4 (Or.inl (by decide))
  obtain ⟨y, y', r1, r2, r3⟩ := q3 l hl
  rw [e5] at r1
  obtain rfl := Option.some.inj r1
  obtain ⟨k, r4, rfl⟩ := map_eq_ok r3
  obtain ⟨c', r5, r6⟩ := bind_eq_ok r4
  refine ⟨x, k, c, a, e5, r2, by rw [hcs]; exact e1, e3, ?_⟩
  have hn0 : (GradObj.init (DefModule.compound ms)).it = 0 := rfl
  rw [e6, hn0, Nat.zero_add] at e2
  have : c' = c := by
    rw [Nat.zero_add, Nat.add_zero] at r5
    have r5' : pickControls controls it (tToIt t1 it (gridTime t1 it l)) (Solver.euler.stages * l) = .ok c' := r5
    rw [e2] at r5'
    exact (Except.ok.inj r5').symm
  rw [← this]
  exact r6

end
end Imodal
