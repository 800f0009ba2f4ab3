import Verif.Props.C28
import Verif.Props.C70
import Verif.Props.C69
/-!
# C71: shooting with the recorded controls replays the trajectory
-/
set_option autoImplicit false
namespace Imodal
noncomputable section
variable {d : Nat}

/-- Filling in the controls found for some momenta gives, whatever the momenta now are, the field
and the cost found. -/
theorem refill {m : DefModule d} {p : Row} {m1 : DefModule d} (h : Hamiltonian.geodesicControls (m.withCot p 0) = .ok m1) :
    ∃ m2, m.fillControls m1.controls = .ok m2 ∧ m1 = m2.withCot p 0 := by
  have h1 := geodesic_fill _ _ h
  rw [fill_withCot] at h1
  cases h2 : m.fillControls m1.controls with
  | error e => rw [h2] at h1; cases h1
  | ok m2 => rw [h2] at h1; exact ⟨m2, rfl, (Except.ok.inj h1).symm⟩

/-- One evaluation with the controls recorded. -/
theorem replay_eval {m m1 : DefModule d} {x : Row × Row} (h : evalAt m x = .ok m1) :
    ∃ m2, ctrlEval m m1.controls x.1 = .ok (m2, (hamVec m x).1) ∧ m2.cost = m1.cost ∧ m2.controls = m1.controls := by
  have hr : rhs m x = .ok (hamVec m x) := by rw [rhs, h]
  obtain ⟨m1', f, w, a1, a2, a3, a4⟩ := C70_rhs hr
  have hv : ∃ v, Hamiltonian.value m1 = .ok v ∧ m1' = m1 := by
    unfold evalAt at h
    rw [a1] at h; dsimp only at h
    cases h3 : Hamiltonian.value m1' with
    | error e => rw [h3] at h; cases h
    | ok v => rw [h3] at h; cases h; exact ⟨v, h3, rfl⟩
  obtain ⟨v, hv, rfl⟩ := hv
  obtain ⟨-, -, c, -, -, hc, -⟩ := value_ok hv
  obtain ⟨m2, b1, b2⟩ := refill a1
  have hcost : m2.cost = m1'.cost := by rw [b2, cost_withCot]
  refine ⟨m2, ?_, hcost, by rw [b2, controls_withCot]⟩
  unfold ctrlEval
  rw [b1]
  dsimp only
  rw [hcost, hc]
  dsimp only
  rw [b2, field_withCot] at a2
  rw [a2]
  dsimp only
  rw [fill_manifold _ b1]
  rw [rowsMod, DefModule.manifold_withCot, action_withCot] at a3
  rw [a3, a4]

/-- The books of the two runs, `L` being the list the second is given. -/
structure Replay (ms : List (DefModule d)) (L : List (Ctrl d)) (g h : GradObj d) : Prop where
  inv : Inv ms g
  invC : InvC ms h
  it : h.it = g.it
  trueIt : h.trueIt = g.trueIt
  costs : h.costs = g.costs
  ctrls : h.ctrls = g.ctrls
  len : g.ctrls.length = g.it

theorem moments_ctrls {ms : List (DefModule d)} {t1 : ℝ} {it : Nat} {t : ℝ} {x k : Row × Row} {g g' : GradObj d} (hI : Inv ms g)
    (h : forwardMoments t1 it t x g = (.ok k, g')) : Inv ms g' ∧ g'.it = g.it + 1 ∧
      ∃ m1, evalAt (.compound ms) x = .ok m1 ∧ k = hamVec (.compound ms) x ∧ g' = g.after t1 it t m1 := by
  rw [forward_run hI] at h
  cases h1 : evalAt (.compound ms) x with
  | error e => rw [h1] at h; cases h
  | ok m' =>
    rw [h1] at h
    simp only [Prod.mk.injEq, Except.ok.injEq] at h
    obtain ⟨rfl, rfl⟩ := h
    exact ⟨inv_after hI h1 .., rfl, m', rfl, rfl, rfl⟩

/-- The `n`-th entry of a list of controls. -/
def nthCtrl (L : List (Ctrl d)) (n : Nat) : Py (Ctrl d) :=
  match L[n]? with
  | none => .error .index
  | some c => .ok c

theorem entry_of_prefix {L l : List (Ctrl d)} {c : Ctrl d} (h : l ++ [c] <+: L) : nthCtrl L l.length = .ok c := by
  obtain ⟨t, rfl⟩ := h
  unfold nthCtrl
  rw [List.append_assoc, List.getElem?_append_right (le_refl _), Nat.sub_self]
  rfl

theorem replay_run {ms : List (DefModule d)} {L : List (Ctrl d)} {t1 : ℝ} {it : Nat} {t : ℝ} {x k : Row × Row} {g g' h : GradObj d}
    (hR : Replay ms L g h) (hrun : forwardMoments t1 it t x g = (.ok k, g')) (hL : g'.ctrls <+: L)
    (hpick : pickControls L it (tToIt t1 it t) g.it = nthCtrl L g.it) :
    ∃ h', forwardControl L t1 it t x.1 h = (.ok k.1, h') ∧ Replay ms L g' h' := by
  obtain ⟨hI', -, m1, hev, rfl, rfl⟩ := moments_ctrls hR.inv hrun
  obtain ⟨m2, hc, hcost, hctl⟩ := replay_eval hev
  have he := entry_of_prefix hL
  rw [hR.len] at he
  rw [he, ← hR.it] at hpick
  have hr := forwardC_run hR.invC L t1 it t x.1
  rw [hpick] at hr
  dsimp only at hr
  rw [hc] at hr
  dsimp only at hr
  exact ⟨_, hr, hI', invC_after hR.invC hc .., by simp [GradObj.after, hR.it], by simp [GradObj.after],
    by simp [GradObj.after, hR.trueIt, hR.costs, hcost], by simp [GradObj.after, hR.ctrls, hctl],
    by simp [GradObj.after, hR.len]⟩

/-- What the list of controls of `g'` adds to that of `g`. -/
def Grows (g g' : GradObj d) : Prop := g.ctrls <+: g'.ctrls ∧ (g.ctrls.length = g.it → g'.ctrls.length = g'.it)
theorem Grows.trans {a b c : GradObj d} (h : Grows a b) (h' : Grows b c) : Grows a c := ⟨h.1.trans h'.1, fun e => h'.2 (h.2 e)⟩

theorem ctrls_grow {ms : List (DefModule d)} {t1 : ℝ} {it : Nat} {t : ℝ} {x k : Row × Row} {g g' : GradObj d} (hI : Inv ms g)
    (h : forwardMoments t1 it t x g = (.ok k, g')) : Grows g g' := by
  obtain ⟨-, -, m1, -, -, rfl⟩ := moments_ctrls hI h
  exact ⟨List.prefix_append _ _, fun e => by simp [GradObj.after, e]⟩

theorem step_grow {ms : List (DefModule d)} {t1 : ℝ} {it : Nat} {s : Solver} {t t' : ℝ} {y y' : Row × Row} {g g' : GradObj d} (hI : Inv ms g)
    (h : Solver.step (forwardMoments t1 it) t t' y s g = (.ok y', g')) : Inv ms g' ∧ g'.it = g.it + s.stages ∧ Grows g g' := by
  cases s with
  | euler =>
    rw [Solver.step] at h
    obtain ⟨k, w, h1, h2⟩ := bind_ok h
    obtain ⟨rfl, rfl⟩ := pure_ok h2
    obtain ⟨i1, n1, -⟩ := moments_ctrls hI h1
    exact ⟨i1, n1, ctrls_grow hI h1⟩
  | midpoint =>
    rw [Solver.step] at h
    obtain ⟨k, w, h1, h⟩ := bind_ok h
    obtain ⟨k', w', h2, h⟩ := bind_ok h
    obtain ⟨rfl, rfl⟩ := pure_ok h
    obtain ⟨i1, n1, -⟩ := moments_ctrls hI h1
    obtain ⟨i2, n2, -⟩ := moments_ctrls i1 h2
    exact ⟨i2, by rw [n2, n1, Solver.stages], (ctrls_grow hI h1).trans (ctrls_grow i1 h2)⟩
  | rk4 =>
    rw [Solver.step] at h
    obtain ⟨k₁, w₁, h1, h⟩ := bind_ok h
    obtain ⟨k₂, w₂, h2, h⟩ := bind_ok h
    obtain ⟨k₃, w₃, h3, h⟩ := bind_ok h
    obtain ⟨k₄, w₄, h4, h⟩ := bind_ok h
    obtain ⟨rfl, rfl⟩ := pure_ok h
    obtain ⟨i1, n1, -⟩ := moments_ctrls hI h1
    obtain ⟨i2, n2, -⟩ := moments_ctrls i1 h2
    obtain ⟨i3, n3, -⟩ := moments_ctrls i2 h3
    obtain ⟨i4, n4, -⟩ := moments_ctrls i3 h4
    exact ⟨i4, by rw [n4, n3, n2, n1, Solver.stages],
      (ctrls_grow hI h1).trans ((ctrls_grow i1 h2).trans ((ctrls_grow i2 h3).trans (ctrls_grow i3 h4)))⟩

theorem replay_step {ms : List (DefModule d)} {L : List (Ctrl d)} {t1 : ℝ} {it : Nat} {s : Solver} {t t' : ℝ} {y y' : Row × Row} {g g' h : GradObj d}
    (hR : Replay ms L g h) (hrun : Solver.step (forwardMoments t1 it) t t' y s g = (.ok y', g')) (hL : g'.ctrls <+: L)
    (hpick : ∀ j < s.stages, pickControls L it (tToIt t1 it (s.stageTime t t' j)) (g.it + j) = nthCtrl L (g.it + j)) :
    ∃ h', Solver.step (forwardControl L t1 it) t t' y.1 s h = (.ok y'.1, h') ∧ Replay ms L g' h' := by
  cases s with
  | euler =>
    rw [Solver.step] at hrun
    obtain ⟨k, w, h1, h2⟩ := bind_ok hrun
    obtain ⟨rfl, rfl⟩ := pure_ok h2
    obtain ⟨h', e1, R1⟩ := replay_run hR h1 hL (hpick 0 (by decide))
    refine ⟨h', ?_, R1⟩
    rw [Solver.step, Prog.bind_run, e1]
    rfl
  | midpoint =>
    rw [Solver.step] at hrun
    obtain ⟨k, w, h1, h⟩ := bind_ok hrun
    obtain ⟨k', w', h2, h⟩ := bind_ok h
    obtain ⟨rfl, rfl⟩ := pure_ok h
    obtain ⟨i1, n1, -⟩ := moments_ctrls hR.inv h1
    obtain ⟨h', e1, R1⟩ := replay_run hR h1 ((ctrls_grow i1 h2).1.trans hL) (hpick 0 (by decide))
    have p1 := hpick 1 (by decide)
    rw [← n1] at p1
    obtain ⟨h'', e2, R2⟩ := replay_run R1 h2 hL p1
    refine ⟨h'', ?_, R2⟩
    rw [Solver.step, Prog.bind_run, e1]
    dsimp only
    rw [Prog.bind_run]
    rw [show y.1 + (0.5 * (t' - t)) • k.1 = (y + (0.5 * (t' - t)) • k).1 from rfl, e2]
    rfl
  | rk4 =>
    rw [Solver.step] at hrun
    obtain ⟨k₁, w₁, h1, h⟩ := bind_ok hrun
    obtain ⟨k₂, w₂, h2, h⟩ := bind_ok h
    obtain ⟨k₃, w₃, h3, h⟩ := bind_ok h
    obtain ⟨k₄, w₄, h4, h⟩ := bind_ok h
    obtain ⟨rfl, rfl⟩ := pure_ok h
    obtain ⟨i1, n1, -⟩ := moments_ctrls hR.inv h1
    obtain ⟨i2, n2, -⟩ := moments_ctrls i1 h2
    obtain ⟨i3, n3, -⟩ := moments_ctrls i2 h3
    have g4 := (ctrls_grow i3 h4).1
    have g3 := (ctrls_grow i2 h3).1
    have g2 := (ctrls_grow i1 h2).1
    obtain ⟨v₁, e1, R1⟩ := replay_run hR h1 (g2.trans (g3.trans (g4.trans hL))) (hpick 0 (by decide))
    have p1 := hpick 1 (by decide)
    rw [← n1] at p1
    obtain ⟨v₂, e2, R2⟩ := replay_run R1 h2 (g3.trans (g4.trans hL)) p1
    have p2 := hpick 2 (by decide)
    rw [show g.it + 2 = w₂.it by omega] at p2
    obtain ⟨v₃, e3, R3⟩ := replay_run R2 h3 (g4.trans hL) p2
    have p3 := hpick 3 (by decide)
    rw [show g.it + 3 = w₃.it by omega] at p3
    obtain ⟨v₄, e4, R4⟩ := replay_run R3 h4 hL p3
    refine ⟨v₄, ?_, R4⟩
    rw [Solver.step, Prog.bind_run, e1]
    dsimp only
    rw [Prog.bind_run]
    rw [show y.1 + ((t' - t) * (1 / 3)) • k₁.1 = (y + ((t' - t) * (1 / 3)) • k₁).1 from rfl, e2]
    dsimp only
    rw [Prog.bind_run]
    rw [show y.1 + (t' - t) • (k₂.1 - (1 / 3 : ℝ) • k₁.1) = (y + (t' - t) • (k₂ - (1 / 3 : ℝ) • k₁)).1 from rfl, e3]
    dsimp only
    rw [Prog.bind_run]
    rw [show y.1 + (t' - t) • (k₁.1 - k₂.1 + k₃.1) = (y + (t' - t) • (k₁ - k₂ + k₃)).1 from rfl, e4]
    rfl

theorem loop_grow {ms : List (DefModule d)} {t1 : ℝ} {it : Nat} {s : Solver} {k : Nat} :
    ∀ {i : Nat} {y : Row × Row} {xs : List (Row × Row)} {g g' : GradObj d}, Inv ms g →
      odeLoop s (forwardMoments t1 it) t1 it i k y g = (.ok xs, g') → g'.it = g.it + s.stages * k ∧ Grows g g' := by
  induction k with
  | zero =>
    intro i y xs g g' _ h
    obtain ⟨rfl, rfl⟩ := pure_ok h
    exact ⟨rfl, List.prefix_refl _, id⟩
  | succ k ih =>
    intro i y xs g g' hI h
    rw [odeLoop] at h
    obtain ⟨y', w, h1, h⟩ := bind_ok h
    obtain ⟨rest, w', h2, h⟩ := bind_ok h
    obtain ⟨rfl, rfl⟩ := pure_ok h
    obtain ⟨i1, n1, p1⟩ := step_grow hI h1
    obtain ⟨n2, p2⟩ := ih i1 h2
    exact ⟨by rw [n2, n1]; ring, p1.trans p2⟩

theorem replay_loop {ms : List (DefModule d)} {L : List (Ctrl d)} {t1 : ℝ} {it : Nat} {s : Solver}
    (hpick : ∀ i < it, ∀ j < s.stages, pickControls L it (tToIt t1 it (s.stageTime (gridTime t1 it i) (gridTime t1 it (i + 1)) j)) (s.stages * i + j)
      = nthCtrl L (s.stages * i + j)) {k : Nat} :
    ∀ {i : Nat} {y : Row × Row} {xs : List (Row × Row)} {g g' h : GradObj d}, i + k = it → Replay ms L g h → g.it = s.stages * i →
      odeLoop s (forwardMoments t1 it) t1 it i k y g = (.ok xs, g') → g'.ctrls <+: L →
      ∃ h', odeLoop s (forwardControl L t1 it) t1 it i k y.1 h = (.ok (xs.map Prod.fst), h') ∧ Replay ms L g' h' := by
  induction k with
  | zero =>
    intro i y xs g g' h _ hR _ hr _
    obtain ⟨rfl, rfl⟩ := pure_ok hr
    exact ⟨h, rfl, hR⟩
  | succ k ih =>
    intro i y xs g g' h hik hR hg hr hL
    rw [odeLoop] at hr
    obtain ⟨y', w, h1, hr⟩ := bind_ok hr
    obtain ⟨rest, w', h2, hr⟩ := bind_ok hr
    obtain ⟨rfl, rfl⟩ := pure_ok hr
    obtain ⟨i1, n1, p1⟩ := step_grow hR.inv h1
    obtain ⟨-, p2⟩ := loop_grow i1 h2
    obtain ⟨v, e1, R1⟩ := replay_step hR h1 (p2.1.trans hL) (by rw [hg]; exact hpick i (by omega))
    obtain ⟨v', e2, R2⟩ := ih (i := i + 1) (by omega) R1 (by rw [n1, hg]; ring) h2 hL
    refine ⟨v', ?_, R2⟩
    rw [odeLoop, Prog.bind_run, e1]
    dsimp only
    rw [Prog.bind_run, e2]
    rfl

/-- With one control per evaluation, `euler` included, evaluation `n` picks entry `n`. -/
theorem pick_recorded {L : List (Ctrl d)} {t1 : ℝ} {it : Nat} {s : Solver} (ht : t1 ≠ 0) (hl : L.length = s.stages * it) {i : Nat} (hi : i < it) {j : Nat}
    (hj : j < s.stages) : pickControls L it (tToIt t1 it (s.stageTime (gridTime t1 it i) (gridTime t1 it (i + 1)) j)) (s.stages * i + j)
      = nthCtrl L (s.stages * i + j) := by
  rw [tToIt_stage ht hi s hj]
  unfold pickControls nthCtrl
  dsimp only
  cases s with
  | euler =>
    simp only [Solver.stages] at hl hj
    rw [if_pos (by omega), Int.toNat_natCast]
    have hj0 : j = 0 := by omega
    simp only [Solver.stageIt, Solver.stages, hj0, Nat.one_mul, Nat.add_zero]
    cases L[i]? <;> rfl
  | midpoint =>
    simp only [Solver.stages] at hl
    rw [if_neg (by omega), if_pos (by omega)]
    cases L[(_ : Nat)]? <;> rfl
  | rk4 =>
    simp only [Solver.stages] at hl
    rw [if_neg (by omega), if_pos (by omega)]
    cases L[(_ : Nat)]? <;> rfl

/-- **C71.** Shooting from momenta records one control per evaluation, and shooting the same module
with these controls returns, with the same descriptors at every grid point and at the end, the same
costs and the same controls. -/
theorem C71_solver (ms : List (DefModule d)) (s : Solver) (it : Nat) (t1 : ℝ) {r : Shot d}
    (h : shootMoments s it t1 (.compound ms) = .ok r) :
    r.ctrls.length = s.stages * it ∧ ∃ r', shootControls s it t1 r.ctrls (.compound ms) = .ok r' ∧
      r'.states.map Mfd.unrollGd = r.states.map Mfd.unrollGd ∧ r'.module.manifold.unrollGd = r.module.manifold.unrollGd ∧
      r'.costs = r.costs ∧ r'.ctrls = r.ctrls := by
  obtain ⟨hp, hn⟩ := shoot_plain h
  obtain ⟨xs, h1, h2, h3, g, h4, h5, h6⟩ := shoot_ok hp hn h
  have key : r.ctrls.length = s.stages * it ∧ ∃ h', odeint s (forwardControl r.ctrls t1 it) t1 it (gdRow (.compound ms)) (GradObj.init (.compound ms))
      = (.ok (xs.map Prod.fst), h') ∧ Replay ms r.ctrls g h' := by
    unfold odeint at h4
    split at h4
    · cases h4
    · next hc =>
      have ht : it = 0 ∨ t1 ≠ 0 := by tauto
      have hR : Replay ms r.ctrls (GradObj.init (.compound ms)) (GradObj.init (.compound ms)) :=
        ⟨inv_init hp, invC_init hp, rfl, rfl, rfl, rfl, rfl⟩
      obtain ⟨n1, -, hlen⟩ := loop_grow (inv_init hp) h4
      have hl : r.ctrls.length = s.stages * it := by rw [h6, hlen rfl, n1]; simp [GradObj.init]
      refine ⟨hl, ?_⟩
      have hpk : ∀ i < it, ∀ j < s.stages, pickControls r.ctrls it (tToIt t1 it (s.stageTime (gridTime t1 it i) (gridTime t1 it (i + 1)) j)) (s.stages * i + j)
          = nthCtrl r.ctrls (s.stages * i + j) := fun i hi j hj => pick_recorded (ht.resolve_left (by omega)) hl hi hj
      obtain ⟨h', e, R⟩ := replay_loop hpk (by omega) hR rfl h4 (by rw [h6])
      refine ⟨h', ?_, R⟩
      unfold odeint
      rw [if_neg hc]
      exact e
  obtain ⟨hl, h', e, R⟩ := key
  refine ⟨hl, ?_⟩
  obtain ⟨hcase⟩ : Nonempty (∃ g, odeint s (forwardControl r.ctrls t1 it) t1 it (gdRow (.compound ms)) (GradObj.init (.compound ms)) = (.ok (xs.map Prod.fst), g)
        ∧ shootControls s it t1 r.ctrls (.compound ms)
          = .ok ⟨g.module.withGd ((xs.map Prod.fst).getLastD (gdRow (.compound ms))) 0, g.costs,
              (xs.map Prod.fst).map (fun x => ((DefModule.compound ms).withGd x 0).manifold), g.ctrls⟩) := by
    have := shootC_cases hp hn s it t1 r.ctrls
    split at this
    · next e' he =>
      exfalso
      have hs := this
      rw [shootControls, initRows_ok hn] at hs
      dsimp only at hs
      rw [e] at hs
      dsimp only at hs
      obtain ⟨ms', e2, hp', hs'⟩ := R.invC
      rw [e2, readGd_eq hp'] at hs
      dsimp only at hs
      have hmem : ∀ yl, ((DefModule.compound ms').withGd yl 0).members = DefModule.withGdAll yl 0 ms' := fun yl => by
        rw [DefModule.withGd, DefModule.members]
      rw [collectList_ok (fun y => readStateC_eq (by rw [hmem]; exact plainMembers_withGd _ _ hp')
        (by rw [hmem, ← DefModule.withGd]; exact ((sameGd_withGd _ _).trans hs').same) y)] at hs
      cases hs
    · next xs' he =>
      obtain ⟨g', q1, -, q3⟩ := this
      rw [e] at q1
      cases q1
      exact ⟨h', e, q3⟩
  obtain ⟨g', q1, q2⟩ := hcase
  rw [e] at q1
  cases q1
  refine ⟨_, q2, ?_, ?_, by rw [h5]; exact R.costs, by rw [h6]; exact R.ctrls⟩
  · dsimp only
    rw [h2, List.map_map, List.map_map, List.map_map]
    refine List.map_congr_left fun x _ => ?_
    simp only [Function.comp_apply]
    rw [rowsMod, DefModule.manifold_withCot, Mfd.unrollGd_withCot]
  · dsimp only
    rw [manifold_of_reset h3, rowsMod, DefModule.manifold_withCot, Mfd.unrollGd_withCot]
    obtain ⟨ms', e2, -, hs'⟩ := R.invC
    rw [e2, manifold_of_reset (hs' _)]
    congr 3
    rw [show gdRow (.compound ms) = Prod.fst (gdRow (.compound ms), cotRow (.compound ms)) from rfl]
    generalize (gdRow (.compound ms), cotRow (.compound ms)) = z
    clear * -
    induction xs generalizing z with
    | nil => rfl
    | cons a l ih => simp only [List.map_cons, List.getLastD_cons]; exact ih a

/-! ## `_shoot_euler` -/

theorem eulerStep_replay {step : ℝ} {i : Nat} {m m' : DefModule d} (h : eulerStep step none i m = .ok m') {cs : List (Ctrl d)}
    (hc : cs[i]? = some m'.controls) (p : Row) :
    ∃ p', eulerStep step (some cs) i (m.withCot p 0) = .ok (m'.withCot p' 0) := by
  obtain ⟨m1, v, h1, h2, rfl⟩ := eulerStep_ok h
  obtain ⟨f, a, c, hf, ha, hcost, -⟩ := value_ok h2
  obtain ⟨f', w, hf', hw, -, -, hg⟩ := C70_velocity h1 h2
  rw [hf] at hf'; cases hf'
  have hset : setControls (some cs) i (m.withCot p 0) = .ok (m1.withCot p 0) := by
    unfold setControls
    dsimp only
    rw [hc]
    dsimp only
    rw [controls_rowsMod, fill_withCot, geodesic_fill _ _ h1]
    rfl
  have hm1 : m1.manifold = m.manifold := setControls_manifold h1
  obtain ⟨a', ha'⟩ := innerProd_of_action p m.manifold 0 hw
  have hval : Hamiltonian.value (m1.withCot p 0) = .ok (a' - c) := by
    unfold Hamiltonian.value hamiltonianOn
    rw [field_withCot, hf, cost_withCot, hcost, DefModule.manifold_withCot, hm1]
    dsimp only
    rw [ha']
  obtain ⟨f', w', hf', hw', -, -, hg'⟩ := C70_velocity hset hval
  rw [field_withCot, hf] at hf'; cases hf'
  rw [DefModule.manifold_withCot, action_withCot, hw] at hw'; cases hw'
  refine ⟨cotRow (m.withCot p 0) + -step • (gradH (setControls (some cs) i) (m.withCot p 0)).1, ?_⟩
  unfold eulerStep
  rw [hset]
  dsimp only
  rw [hval]
  dsimp only
  rw [withRows_eq, hg', gdRow_withCot, DefModule.withGd_withCot, DefModule.withCot_withCot, rowsMod, hg]
  dsimp only
  rw [DefModule.withCot_withCot]

theorem eulerLoop_replay {step : ℝ} {cs : List (Ctrl d)} {k : Nat} :
    ∀ {i : Nat} {m : DefModule d} {r : Shot d} (p : Row), eulerLoop step none i k m = .ok r → (∀ j < k, cs[i + j]? = r.ctrls[j]?) →
      ∃ r', eulerLoop step (some cs) i k (m.withCot p 0) = .ok r' ∧ r'.states.map Mfd.unrollGd = r.states.map Mfd.unrollGd ∧
        r'.module.manifold.unrollGd = r.module.manifold.unrollGd ∧ r'.ctrls = r.ctrls := by
  induction k with
  | zero =>
    intro i m r p h _
    cases h
    refine ⟨_, rfl, ?_, ?_, rfl⟩
    · rw [List.map_cons, List.map_cons, DefModule.manifold_withCot, Mfd.unrollGd_withCot]
    · dsimp only
      rw [DefModule.manifold_withCot, Mfd.unrollGd_withCot]
  | succ k ih =>
    intro i m r p h hcs
    rw [eulerLoop] at h
    cases h1 : eulerStep step none i m with
    | error e => rw [h1] at h; cases h
    | ok m' =>
      rw [h1] at h
      dsimp only at h
      cases h2 : eulerLoop step none (i + 1) k m' with
      | error e => rw [h2] at h; cases h
      | ok r1 =>
        rw [h2] at h
        cases h
        obtain ⟨p', hp'⟩ := eulerStep_replay h1 (by simpa using hcs 0 (by omega)) p
        obtain ⟨r', e1, e2, e3, e4⟩ := ih p' h2 fun j hj => by
          have := hcs (j + 1) (by omega)
          rw [show i + 1 + j = i + (j + 1) by omega]
          simpa using this
        rw [eulerLoop, hp']
        dsimp only
        rw [e1]
        refine ⟨_, rfl, ?_, e3, ?_⟩
        · dsimp only
          rw [List.map_cons, List.map_cons, e2, DefModule.manifold_withCot, Mfd.unrollGd_withCot]
        · dsimp only
          rw [e4, controls_withCot]

/-- **C71.** The same without torchdiffeq. -/
theorem C71_euler (m : DefModule d) (it : Nat) {r : Shot d} (h : shootEuler it none m = .ok r) :
    r.ctrls.length = it ∧ ∃ r', shootEuler it (some r.ctrls) m = .ok r' ∧ r'.states.map Mfd.unrollGd = r.states.map Mfd.unrollGd ∧
      r'.module.manifold.unrollGd = r.module.manifold.unrollGd ∧ r'.ctrls = r.ctrls := by
  obtain ⟨hit, -, hl, -⟩ := C26_steps h
  refine ⟨hl, ?_⟩
  unfold shootEuler at h ⊢
  rw [if_neg hit] at h ⊢
  have := eulerLoop_replay (cs := r.ctrls) (cotRow m) h fun j _ => by rw [Nat.zero_add]
  rwa [withCot_self] at this

/-! A translation and a silent point, from any positions and momenta. -/
example (p q : Vec 2) (s : Solver) : ∃ r, shootMoments s 10 1 (.compound (pairModule p q)) = .ok r := by
  obtain ⟨r, hr, -⟩ := C69_solver (pairModule p q) (pairModule_regular p q) (pairModule_plain p q) (by rw [pairModule_numCoords]; norm_num) s 10 one_ne_zero
  exact ⟨r, hr⟩
example (p q : Vec 2) : ∃ r, shootEuler 10 none (.compound (pairModule p q)) = .ok r := regular_shootEuler (pairModule_regular p q) (by norm_num)

end
end Imodal
