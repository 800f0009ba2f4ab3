import Verif.Props.C33
import Verif.Props.C27
/-!
# C34: cost reduction modes
-/
set_option autoImplicit false
namespace Imodal
noncomputable section
variable {d : Nat} {G : Type}

/-- What the reductions say the cost of a shooting is. `'sum'`: the costs recorded at the steps
added up, one for each step. `'previous'`: the cost at the final state with geodesic controls.
`'lastcompound'`: the cost at the final state with the controls left there. `'totalcompound'`: the
costs at the beginnings of the steps with the given controls added up. Other reductions mean
nothing. -/
def Reduce.Says (it : Nat) (controls : Option (List (Ctrl d))) (r : Shot d) (c : ℝ) : Reduce → Prop
  | .sum => r.costs.length = it ∧ c = r.costs.sum
  | .previous => ∃ m', Hamiltonian.geodesicControls r.module = .ok m' ∧ m'.cost = .ok c
  | .lastCompound => r.module.cost = .ok c
  | .totalCompound => ∃ cs : List ℝ, cs.length = it ∧ c = cs.sum ∧ ∀ i < it, ∃ us S u m₁ m₂ a, controls = some us ∧ r.states[i]? = some S ∧
      us[i]? = some u ∧ r.module.fillGdFrom S = .ok m₁ ∧ m₁.fillControls u = .ok m₂ ∧ m₂.cost = .ok a ∧ cs[i]? = some a
  | .other => False

theorem eulerLoop_states {step : ℝ} {controls : Option (List (Ctrl d))} {m₀ : DefModule d} (k : Nat) : ∀ {i : Nat} {m : DefModule d} {r : Shot d},
    eulerLoop step controls i k m = .ok r → Same m m₀ → ∀ S ∈ r.states, ∃ m', Same m' m₀ ∧ m'.manifold = S := by
  induction k with
  | zero =>
    intro i m r h hs S hS
    rw [eulerLoop] at h
    cases h
    exact ⟨m, hs, (List.mem_singleton.1 hS).symm⟩
  | succ k ih =>
    intro i m r h hs S hS
    rw [eulerLoop] at h
    cases h1 : eulerStep step controls i m with
    | error e => rw [h1] at h; cases h
    | ok m' =>
      rw [h1] at h
      dsimp only at h
      cases h2 : eulerLoop step controls (i + 1) k m' with
      | error e => rw [h2] at h; cases h
      | ok r' =>
        rw [h2] at h
        cases h
        rcases List.mem_cons.1 hS with rfl | hS
        · exact ⟨m, hs, rfl⟩
        · exact ih h2 (eulerStep_at h1 hs).1 S hS

/-- The recorded states are states of the modules. -/
theorem shoot_states {ms : List (DefModule d)} {s : SolverName} {it : Nat} {t1 : ℝ} {controls : Option (List (Ctrl d))}
    {r : Shot d × Option (List ℝ)} (h : shoot s it t1 controls (.compound ms) = .ok r) :
    ∀ S ∈ r.1.states, ∃ m', Same m' (.compound ms) ∧ m'.manifold = S := by
  unfold shoot at h
  cases s with
  | adaptive => cases h
  | unknown => cases h
  | torchEuler =>
    dsimp only at h
    cases h1 : shootEuler it controls (.compound ms) with
    | error e => rw [h1] at h; cases h
    | ok r' =>
      rw [h1] at h
      cases h
      unfold shootEuler at h1
      split at h1
      · cases h1
      · exact eulerLoop_states it h1 (Same.refl _)
  | fixed s =>
    dsimp only at h
    cases h1 : shootOde s it t1 controls (.compound ms) with
    | error e => rw [h1] at h; cases h
    | ok r' =>
      rw [h1] at h
      cases h
      intro S hS
      cases controls with
      | some cs =>
        obtain ⟨-, xs, -, h2, -⟩ := shootC_ok h1
        dsimp only at hS
        rw [h2] at hS
        obtain ⟨x, -, rfl⟩ := List.mem_map.1 hS
        exact ⟨_, (sameGd_withGd _ x).same, rfl⟩
      | none =>
        obtain ⟨hp, hn⟩ := shoot_plain h1
        obtain ⟨xs, -, h2, -⟩ := shoot_ok hp hn h1
        dsimp only at hS
        rw [h2] at hS
        obtain ⟨x, -, rfl⟩ := List.mem_map.1 hS
        exact ⟨_, same_rowsMod _ x, rfl⟩

theorem fits_self (m : DefModule d) : m.manifold.Fits m := rfl

theorem totalLoop_says {states : List (Mfd d)} {us : List (Ctrl d)} {m₀ : DefModule d} (hf : ∀ S ∈ states, S.Fits m₀) (k : Nat) :
    ∀ {i : Nat} {m : DefModule d} {r : ℝ × DefModule d}, SameGd m m₀ → totalLoop states us i k m = .ok r →
      ∃ cs : List ℝ, cs.length = k ∧ r.1 = cs.sum ∧ ∀ j < k, ∃ S u m₁ m₂ a, states[i + j]? = some S ∧ us[i + j]? = some u ∧
        m₀.fillGdFrom S = .ok m₁ ∧ m₁.fillControls u = .ok m₂ ∧ m₂.cost = .ok a ∧ cs[j]? = some a := by
  induction k with
  | zero =>
    intro i m r _ h
    rw [totalLoop] at h
    cases h
    exact ⟨[], rfl, by simp, fun j hj => absurd hj (by omega)⟩
  | succ k ih =>
    intro i m r hs h
    rw [totalLoop] at h
    cases h1 : states[i]? with
    | none => rw [h1] at h; cases h
    | some S =>
      rw [h1] at h
      dsimp only at h
      have hS := hf S (List.mem_of_getElem? h1)
      rw [fillGdFrom_fits (fits_of_sameGd hs.same.symm hS)] at h
      dsimp only at h
      cases h3 : us[i]? with
      | none => rw [h3] at h; cases h
      | some u =>
        rw [h3] at h
        dsimp only at h
        cases h4 : (m.withGd S.rows.1 0).fillControls u with
        | error e => rw [h4] at h; cases h
        | ok m2 =>
          rw [h4] at h
          dsimp only at h
          cases h5 : m2.cost with
          | error e => rw [h5] at h; cases h
          | ok a =>
            rw [h5] at h
            dsimp only at h
            cases h6 : totalLoop states us (i + 1) k m2 with
            | error e => rw [h6] at h; cases h
            | ok r' =>
              rw [h6] at h
              cases h
              have hs2 : SameGd m2 m₀ := (sameGd_of_reset (reset_fill _ h4)).trans ((sameGd_withGd _ _).trans hs)
              obtain ⟨cs, hl, hc, hj⟩ := ih hs2 h6
              refine ⟨a :: cs, by simp [hl], by simp [hc], fun j hj' => ?_⟩
              cases j with
              | zero =>
                refine ⟨S, u, _, m2, a, h1, h3, fillGdFrom_fits hS, ?_, h5, rfl⟩
                rw [← h4]
                exact fill_of_reset (hs _).symm u
              | succ j =>
                obtain ⟨S', u', m₁, m₂, a', e1, e2, e3, e4, e5, e6⟩ := hj j (by omega)
                refine ⟨S', u', m₁, m₂, a', ?_, ?_, e3, e4, e5, by simpa using e6⟩
                · rw [← e1]; congr 1; omega
                · rw [← e2]; congr 1; omega

theorem shoot_costs {ms : List (DefModule d)} {s : SolverName} {it : Nat} {t1 : ℝ} {controls : Option (List (Ctrl d))}
    {r : Shot d} {cs : List ℝ} (h : shoot s it t1 controls (.compound ms) = .ok (r, some cs)) :
    cs = r.costs ∧ cs.length = it ∧ ∃ s', s = .fixed s' ∧ shootOde s' it t1 controls (.compound ms) = .ok r := by
  unfold shoot at h
  cases s with
  | adaptive => cases h
  | unknown => cases h
  | torchEuler =>
    dsimp only at h
    cases h1 : shootEuler it controls (.compound ms) with
    | error e => rw [h1] at h; cases h
    | ok r' => rw [h1] at h; cases h
  | fixed s =>
    dsimp only at h
    cases h1 : shootOde s it t1 controls (.compound ms) with
    | error e => rw [h1] at h; cases h
    | ok r' =>
      rw [h1] at h
      cases h
      refine ⟨rfl, ?_, s, rfl, h1⟩
      cases controls with
      | none => exact (C27_moments ms h1).1
      | some us => exact (C27_controls ms h1).1

/-- **C34.** A call that is given a dictionary for the costs, with one of the four reductions, and
returns, has put in it the cost the reduction says. Missing: an unknown reduction should raise
(`C34_unknown_disagreement`). -/
theorem C34_partial {Ds : List (Deformable d G)} {ms : List (DefModule d)} {s : SolverName} {it : Nat}
    {controls : Option (List (List (Ctrl d)))} {t1 : ℝ} {red : Reduce} {r : Deformed d G}
    (h : computeDeformed Ds ms s it true controls t1 red = .ok r) (hr : red ≠ .other) :
    ∃ c, r.cost = some c ∧ red.Says it (padControls Ds.length controls) r.shot c := by
  obtain ⟨-, -, costs, hs, hred, -⟩ := computeDeformed_inv h
  have hred := hred rfl
  unfold reduceCost at hred
  cases red with
  | other => exact absurd rfl hr
  | sum =>
    cases costs with
    | none => cases hred
    | some cs =>
      obtain ⟨e1, e2, -⟩ := shoot_costs hs
      dsimp only at hred
      refine ⟨cs.sum, ?_, ?_⟩
      · exact (congrArg Prod.fst (Except.ok.inj hred)).symm
      · rw [Reduce.Says, ← e1]; exact ⟨e2, rfl⟩
  | previous =>
    dsimp only at hred
    cases h1 : r.shot.module.geodesic r.shot.module.manifold with
    | error e => rw [h1] at hred; cases hred
    | ok m' =>
      rw [h1] at hred
      dsimp only at hred
      cases h2 : m'.cost with
      | error e => rw [h2] at hred; cases hred
      | ok a =>
        rw [h2] at hred
        exact ⟨a, (congrArg Prod.fst (Except.ok.inj hred)).symm, m', h1, h2⟩
  | lastCompound =>
    dsimp only at hred
    cases h2 : r.shot.module.cost with
    | error e => rw [h2] at hred; cases hred
    | ok a =>
      rw [h2] at hred
      exact ⟨a, (congrArg Prod.fst (Except.ok.inj hred)).symm, h2⟩
  | totalCompound =>
    dsimp only at hred
    cases hc : padControls Ds.length controls with
    | none =>
      rw [hc] at hred
      dsimp only at hred
      split at hred
      · next h0 =>
        exact ⟨0, (congrArg Prod.fst (Except.ok.inj hred)).symm, [], by simp [h0], by simp, fun i hi => absurd hi (by omega)⟩
      · split at hred
        · cases hred
        · split at hred <;> cases hred
    | some us =>
      rw [hc] at hred
      dsimp only at hred
      cases h1 : totalLoop r.shot.states us 0 it r.shot.module with
      | error e => rw [h1] at hred; cases hred
      | ok a =>
        rw [h1] at hred
        have hm := shoot_same hs
        obtain ⟨cs, e1, e2, e3⟩ := totalLoop_says (m₀ := r.shot.module) (fun S hS => by
          obtain ⟨m', hm', rfl⟩ := shoot_states hs S hS
          exact fits_of_sameGd (hm'.trans hm.symm) (fits_self m')) it (SameGd.refl _) h1
        refine ⟨a.1, (congrArg Prod.fst (Except.ok.inj hred)).symm, cs, e1, e2, fun i hi => ?_⟩
        obtain ⟨S, u, m₁, m₂, b, q⟩ := e3 i hi
        rw [Nat.zero_add] at q
        exact ⟨us, S, u, m₁, m₂, b, rfl, q⟩

/-- The costs `'sum'` adds, shooting with geodesic controls by Euler's or the midpoint method, are
those of the modules with geodesic controls at the beginnings of the steps, divided or multiplied
by nothing. -/
theorem C34_sum {Ds : List (Deformable d G)} {ms : List (DefModule d)} {s : Solver} (hs : s ≠ .rk4) {it : Nat} {t1 : ℝ} {r : Deformed d G}
    (h : computeDeformed Ds ms (.fixed s) it true none t1 .sum = .ok r) :
    r.cost = some r.shot.costs.sum ∧ r.shot.costs.length = it ∧ ∀ j < it, ∃ m m' a, r.shot.states[j]? = some m.manifold ∧
      Same m (.compound (Ds.map Deformable.silent ++ ms)) ∧ Hamiltonian.geodesicControls m = .ok m' ∧ m'.cost = .ok a ∧ r.shot.costs[j]? = some a := by
  obtain ⟨c, h1, h2, h3⟩ := C34_partial h (by decide)
  refine ⟨by rw [h1, h3], h2, fun j hj => ?_⟩
  obtain ⟨-, -, costs, hsh, -⟩ := computeDeformed_inv h
  unfold shoot at hsh
  dsimp only [padControls, Option.map_none, shootOde] at hsh
  cases h4 : shootMoments s it t1 (.compound (Ds.map Deformable.silent ++ ms)) with
  | error e => rw [h4] at hsh; cases hsh
  | ok q =>
    rw [h4] at hsh
    obtain ⟨rfl, -⟩ := Prod.mk.inj (Except.ok.inj hsh)
    obtain ⟨xs, e1, e2⟩ := C27_where _ h4
    obtain ⟨x, a, f1, ⟨m', f2, f2'⟩, f3, -⟩ := e2 j hj
    exact ⟨rowsMod _ x, m', a, by rw [e1, List.getElem?_map, f3 (Or.inl hs)]; rfl, same_rowsMod _ _, f2, f2', f1⟩

/-- **C34.** The solver `'torch_euler'` records no costs, and asking for their sum raises. -/
theorem C34_no_costs (Ds : List (Deformable d G)) (ms : List (DefModule d)) (it : Nat) (controls : Option (List (List (Ctrl d)))) (t1 : ℝ) :
    ∃ e, computeDeformed Ds ms .torchEuler it true controls t1 .sum = .error e := by
  cases h : computeDeformed Ds ms .torchEuler it true controls t1 .sum with
  | error e => exact ⟨e, rfl⟩
  | ok r =>
    obtain ⟨-, -, costs, hs, hred, -⟩ := computeDeformed_inv h
    cases costs with
    | none => have := hred rfl; cases this
    | some cs =>
      obtain ⟨-, -, s', e, -⟩ := shoot_costs hs
      cases e

/-- **C34.** A solver that is not known raises. -/
theorem C34_unknown_solver (Ds : List (Deformable d G)) (ms : List (DefModule d)) (it : Nat) (wantCosts : Bool)
    (controls : Option (List (List (Ctrl d)))) (t1 : ℝ) (red : Reduce) :
    computeDeformed Ds ms .unknown it wantCosts controls t1 red = .error .notImplemented := by
  unfold computeDeformed shoot
  rfl

/-- An unknown reduction is not reported: whenever `'sum'` returns, so does the unknown reduction,
and no deformation cost is reported at all. -/
theorem C34_unknown_disagreement {Ds : List (Deformable d G)} {ms : List (DefModule d)} {s : SolverName} {it : Nat}
    {controls : Option (List (List (Ctrl d)))} {t1 : ℝ} {r : Deformed d G} (h : computeDeformed Ds ms s it true controls t1 .sum = .ok r) :
    ∃ r', computeDeformed Ds ms s it true controls t1 .other = .ok r' ∧ r'.cost = none ∧ r'.geometries = r.geometries := by
  obtain ⟨hb, hg, costs, hs, -⟩ := computeDeformed_inv h
  refine ⟨⟨r.geometries, none, r.shot, r.shot.module⟩, ?_, rfl, rfl⟩
  unfold computeDeformed
  dsimp only
  rw [hs]
  dsimp only
  rw [if_neg (by simpa using hb), if_pos rfl, reduceCost]
  dsimp only
  rw [hg]

/-- `'totalcompound'` without controls raises as soon as there is a step. -/
theorem C34_total_needs_controls (Ds : List (Deformable d G)) (ms : List (DefModule d)) (s : SolverName) {it : Nat} (hit : it ≠ 0) (t1 : ℝ) :
    ∃ e, computeDeformed Ds ms s it true none t1 .totalCompound = .error e := by
  cases h : computeDeformed Ds ms s it true none t1 .totalCompound with
  | error e => exact ⟨e, rfl⟩
  | ok r =>
    obtain ⟨c, -, cs, -, -, h3⟩ := C34_partial h (by decide)
    obtain ⟨us, S, u, m₁, m₂, a, e, -⟩ := h3 0 (by omega)
    cases e

/-! The hypotheses are met: see the example of `C33_returns`, which asks for the sum. -/
example (a b : Fin 1 → Vec 2) (q p : Fin 4 → Vec 2) : ∃ r c, computeDeformed
    [⟨1, a, b, none, fun p => .ok p⟩] [.implicit0 ⟨.torch, q, p, 2, 1, 1, 0⟩] (.fixed .midpoint) 10 true none 1 .sum = .ok r ∧ r.cost = some c := by
  obtain ⟨r, hr⟩ := C33_returns (Ds := [⟨1, a, b, none, fun p => .ok p⟩]) (by simp) (by simp)
    (List.mem_cons_self ..) (by norm_num) (ms := [.implicit0 ⟨.torch, q, p, 2, 1, 1, 0⟩]) (by simp [DefModule.AllRegular, DefModule.Regular])
    (fun m hm => by
      simp only [DefModule.manifolds, DefModule.manifold, Implicit0.manifold, List.mem_cons, List.not_mem_nil, or_false] at hm
      subst hm; exact Or.inr rfl) .midpoint 10 one_ne_zero true
  exact ⟨r, _, hr, (C34_sum (by decide) hr).1⟩

end
end Imodal
