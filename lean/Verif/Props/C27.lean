import Verif.Lemmas.ShootCtrl
/-!
# C27: one deformation cost per step
-/
set_option autoImplicit false
namespace Imodal
noncomputable section
variable {d : Nat}

/-- `a` is the cost of the modules with geodesic controls at the state `x`. -/
def GeodesicCostAt (m : DefModule d) (x : Row × Row) (a : ℝ) : Prop :=
  ∃ m', Hamiltonian.geodesicControls (rowsMod m x) = .ok m' ∧ m'.cost = .ok a

/-- Shooting from momenta records exactly `it` costs for each of the three methods. -/
theorem C27_moments (ms : List (DefModule d)) {s : Solver} {it : Nat} {t1 : ℝ} {r : Shot d}
    (h : shootMoments s it t1 (.compound ms) = .ok r) :
    r.costs.length = it ∧ r.ctrls.length = s.stages * it := by
  obtain ⟨hp, hn⟩ := shoot_plain h
  obtain ⟨xs, h1, h2, h3, g, h4, h5, h6⟩ := shoot_ok hp hn h
  obtain ⟨a, cs, b, c, -⟩ := (clocked_moments ms t1 it).odeint (inv_init hp) h4
  refine ⟨by rw [h5, b]; simpa [GradObj.init] using c, ?_⟩
  have key := sim_odeint (f := forwardMoments t1 it) (f' := fun t x (w : GradObj d) => forwardMoments t1 it t x w)
    (R := fun g g' => g = g' ∧ Inv ms g ∧ g.ctrls.length = g.it) (by
      rintro t x g _ ⟨rfl, hI, hl⟩
      refine ⟨rfl, rfl, ?_⟩
      rw [forward_run hI]
      cases h : evalAt (.compound ms) x with
      | error e => exact ⟨hI, hl⟩
      | ok m' => exact ⟨inv_after hI h .., by simp [GradObj.after, hl]⟩) t1 it s (gdRow (.compound ms), cotRow (.compound ms))
    (GradObj.init (.compound ms)) _ ⟨rfl, inv_init hp, rfl⟩
  rw [h4] at key
  rw [h6, key.2.2.2, a]
  simp [GradObj.init]

/-- Cost number `j` belongs to the time `j`: with `euler` and `midpoint` it is the cost at the
recorded state `j`; with `rk4` the same for the first, and after that the cost at the point at
which the method evaluates for the end of step `j - 1`. -/
theorem C27_where (ms : List (DefModule d)) {s : Solver} {it : Nat} {t1 : ℝ} {r : Shot d}
    (h : shootMoments s it t1 (.compound ms) = .ok r) :
    ∃ xs : List (Row × Row), r.states = xs.map (fun x => (rowsMod (.compound ms) x).manifold) ∧
      ∀ j < it, ∃ x a, r.costs[j]? = some a ∧ GeodesicCostAt (.compound ms) x a ∧
        (s ≠ .rk4 ∨ j = 0 → xs[j]? = some x) ∧
        (s = .rk4 → ∀ i, j = i + 1 → ∃ y, xs[i]? = some y ∧ rk4End (fun _ => rhs (.compound ms)) (t1 / it) y = .ok x) := by
  obtain ⟨hp, hn⟩ := shoot_plain h
  obtain ⟨xs, h1, h2, h3, g, h4, h5, h6⟩ := shoot_ok hp hn h
  obtain ⟨a, cs, b, c, e⟩ := (clocked_moments ms t1 it).odeint (inv_init hp) h4
  refine ⟨xs, h2, fun j hj => ?_⟩
  obtain ⟨x, n, u, e1, e2, e3, e4⟩ := e j hj
  refine ⟨x, u, ?_, e2, fun h => (e3 h).1, fun hs i hi => (e4 hs i hi).2⟩
  rw [h5, b]
  simpa [GradObj.init] using e1

/-- With prescribed controls also exactly `it` costs are recorded. -/
theorem C27_controls (ms : List (DefModule d)) {s : Solver} {it : Nat} {t1 : ℝ} {controls : List (Ctrl d)} {r : Shot d}
    (h : shootControls s it t1 controls (.compound ms) = .ok r) :
    r.costs.length = it ∧ ∃ xs : List Row, r.states = xs.map (fun x => ((DefModule.compound ms).withGd x 0).manifold) ∧
      ∀ j < it, ∃ x a c, r.costs[j]? = some a ∧ c ∈ controls ∧ CtrlCostAt (.compound ms) c x a ∧
        (s ≠ .rk4 ∨ j = 0 → xs[j]? = some x) ∧ (controls.length = it → controls[j]? = some c) := by
  obtain ⟨hp, hn⟩ := shootC_plain h
  obtain ⟨ht, xs, h1, h2, h3, g, h4, h5⟩ := shootC_ok h
  obtain ⟨a, cs, b, c, e⟩ := (clocked_control ms controls t1 it).odeint (invC_init hp) h4
  have hcs : r.costs = cs := by rw [h5, b]; simp [GradObj.init]
  refine ⟨by rw [hcs, c], xs, h2, fun j hj => ?_⟩
  obtain ⟨x, n, u, e1, ⟨k, e2, e2'⟩, e3, e4⟩ := e j hj
  have ht' : t1 ≠ 0 := ht.resolve_left (by omega)
  rw [tToIt_grid ht' hj] at e2
  refine ⟨x, u, k, by rw [hcs]; exact e1, ?_, e2', fun h => (e3 h).1, fun hl => ?_⟩
  · unfold pickControls at e2
    dsimp only at e2
    split at e2
    · cases e2
    · next heq => rw [← Except.ok.inj e2]; exact List.mem_of_getElem? heq
  · unfold pickControls at e2
    dsimp only at e2
    rw [if_pos hl, Int.toNat_natCast] at e2
    split at e2
    · cases e2
    · next heq => rw [← Except.ok.inj e2]; exact heq

/-! The theorems apply: shooting a regularised module returns. -/
example (p q : Vec 2) (s : Solver) : ∃ r, shootMoments s 7 1 (.compound (pairModule p q)) = .ok r ∧ r.costs.length = 7 := by
  have hn : 0 < numCoords (.compound (pairModule p q)) := by rw [pairModule_numCoords]; norm_num
  obtain ⟨xs, hxs⟩ := orbit_total s (rhs_total (pairModule_regular p q)) one_ne_zero 7 (gdRow _, cotRow _)
  have hc := shoot_cases (pairModule_plain p q) hn s 7 1
  rw [hxs] at hc
  obtain ⟨g, -, -, h3⟩ := hc
  exact ⟨_, h3, (C27_moments _ h3).1⟩

end
end Imodal
