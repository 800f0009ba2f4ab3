import Verif.Lemmas.Clock
/-!
# Shooting with prescribed controls
-/
set_option autoImplicit false
namespace Imodal
noncomputable section
variable {d : Nat}

/-- The same modules up to descriptors, controls and cached results. -/
def SameGd (m m' : DefModule d) : Prop := ∀ x, (m.withGd x 0).reset = (m'.withGd x 0).reset

theorem SameGd.refl (m : DefModule d) : SameGd m m := fun _ => rfl
theorem SameGd.symm {m m' : DefModule d} (h : SameGd m m') : SameGd m' m := fun x => (h x).symm
theorem SameGd.trans {m m' m'' : DefModule d} (h : SameGd m m') (h' : SameGd m' m'') : SameGd m m'' := fun x => (h x).trans (h' x)
theorem sameGd_withGd (m : DefModule d) (x : Row) : SameGd (m.withGd x 0) m := fun y => by rw [DefModule.withGd_withGd]
theorem sameGd_of_reset {m m' : DefModule d} (h : m.reset = m'.reset) : SameGd m m' := fun x => by
  rw [reset_withGd, reset_withGd, h]
theorem SameGd.same {m m' : DefModule d} (h : SameGd m m') : Same m m' := fun x => by
  unfold rowsMod
  rw [reset_withCot, reset_withCot, h]

/-- The module with controls `c` at descriptors `x`, and the velocity of its descriptors. -/
def ctrlEval (m : DefModule d) (c : Ctrl d) (x : Row) : Py (DefModule d × Row) :=
  match (m.withGd x 0).fillControls c with
  | .error e => .error e
  | .ok m' =>
    match m'.cost with
    | .error e => .error e
    | .ok _ =>
      match m'.field with
      | .error e => .error e
      | .ok f =>
        match m'.manifold.action f with
        | .error e => .error e
        | .ok v => .ok (m', rowOf v.unroll.flatten)

/-- The velocity of the descriptors `x` under the controls `c`. -/
def ctrlRhs (m : DefModule d) (c : Ctrl d) (x : Row) : Py Row := (ctrlEval m c x).map Prod.snd

/-- The same with the controls an evaluation picks. -/
def pickRhs (m : DefModule d) (controls : List (Ctrl d)) (t1 : ℝ) (it : Nat) (t : ℝ) (n : Nat) (x : Row) : Py Row :=
  (pickControls controls it (tToIt t1 it t) n).bind fun c => ctrlRhs m c x

theorem ctrlEval_same {m m' : DefModule d} (h : SameGd m m') (c : Ctrl d) (x : Row) : ctrlEval m c x = ctrlEval m' c x := by
  unfold ctrlEval
  rw [fill_of_reset (h x)]

theorem ctrlEval_ok {m : DefModule d} {c : Ctrl d} {x : Row} {r : DefModule d × Row} (h : ctrlEval m c x = .ok r) :
    (m.withGd x 0).fillControls c = .ok r.1 ∧ r.1.cost = .ok (valD r.1.cost) := by
  unfold ctrlEval at h
  cases h1 : (m.withGd x 0).fillControls c with
  | error e => rw [h1] at h; cases h
  | ok m' =>
    rw [h1] at h
    dsimp only at h
    cases h2 : m'.cost with
    | error e => rw [h2] at h; cases h
    | ok a =>
      rw [h2] at h
      dsimp only at h
      cases h3 : m'.field with
      | error e => rw [h3] at h; cases h
      | ok f =>
        rw [h3] at h
        dsimp only at h
        cases h4 : m'.manifold.action f with
        | error e => rw [h4] at h; cases h
        | ok v =>
          rw [h4] at h
          cases h
          exact ⟨rfl, by rw [h2]; rfl⟩

/-- The module the callback holds is the initial one up to what every evaluation sets. -/
def InvC (ms : List (DefModule d)) (g : GradObj d) : Prop :=
  ∃ ms', g.module = .compound ms' ∧ PlainMembers ms' ∧ SameGd (.compound ms') (.compound ms)

theorem invC_init {ms : List (DefModule d)} (h : PlainMembers ms) : InvC ms (GradObj.init (.compound ms)) :=
  ⟨ms, rfl, h, SameGd.refl _⟩

theorem forwardC_run {ms : List (DefModule d)} {g : GradObj d} (hI : InvC ms g) (controls : List (Ctrl d)) (t1 : ℝ) (it : Nat) (t : ℝ) (x : Row) :
    forwardControl controls t1 it t x g = match pickControls controls it (tToIt t1 it t) g.it with
      | .error e => (.error e, g)
      | .ok c => match ctrlEval (.compound ms) c x with
        | .error e => (.error e, g)
        | .ok r => (.ok r.2, g.after t1 it t r.1) := by
  obtain ⟨ms', hm, hp, hs⟩ := hI
  unfold forwardControl
  simp only [Prog.bind_run, Prog.get_run, Prog.lift_run, hm]
  rw [readGd_eq hp]
  dsimp only
  cases h1 : pickControls controls it (tToIt t1 it t) g.it with
  | error e => rfl
  | ok c =>
    dsimp only
    rw [← ctrlEval_same hs]
    unfold ctrlEval
    cases h2 : ((DefModule.compound ms').withGd x 0).fillControls c with
    | error e => rfl
    | ok m' =>
      dsimp only
      cases h3 : m'.cost with
      | error e => rfl
      | ok a =>
        dsimp only
        cases h4 : m'.field with
        | error e => rfl
        | ok f =>
          dsimp only
          cases h5 : m'.manifold.action f with
          | error e => rfl
          | ok v =>
            dsimp only
            simp only [Prog.set_run, Prog.pure_run, GradObj.after, h3, valD]

theorem invC_after {ms : List (DefModule d)} {g : GradObj d} (hI : InvC ms g) {c : Ctrl d} {x : Row} {r : DefModule d × Row}
    (h : ctrlEval (.compound ms) c x = .ok r) (t1 : ℝ) (it : Nat) (t : ℝ) : InvC ms (g.after t1 it t r.1) := by
  obtain ⟨ms', -, hp, hs⟩ := hI
  rw [← ctrlEval_same hs] at h
  have hr := reset_fill _ (ctrlEval_ok h).1
  have hs' : SameGd r.1 (.compound ms) := (sameGd_of_reset hr).trans ((sameGd_withGd _ x).trans hs)
  rw [DefModule.withGd] at hr
  obtain ⟨ms'', e, hp''⟩ := compound_of_reset hr (plainMembers_withGd _ _ hp)
  exact ⟨ms'', e, hp'', e ▸ hs'⟩

theorem sim_control (ms : List (DefModule d)) (controls : List (Ctrl d)) (t1 : ℝ) (it : Nat) :
    Sim (fun g n => InvC ms g ∧ g.it = n) (forwardControl controls t1 it) (countRhs (pickRhs (.compound ms) controls t1 it)) := by
  rintro t x g _ ⟨hI, rfl⟩
  rw [forwardC_run hI]
  unfold countRhs pickRhs ctrlRhs
  cases h1 : pickControls controls it (tToIt t1 it t) g.it with
  | error e => exact ⟨rfl, hI, rfl⟩
  | ok c =>
    dsimp only [Except.bind]
    cases h2 : ctrlEval (.compound ms) c x with
    | error e => exact ⟨rfl, hI, rfl⟩
    | ok r => exact ⟨rfl, invC_after hI h2 .., rfl⟩

/-- The cost of the module with the controls `c` at the descriptors `x`. -/
def CtrlCostAt (m : DefModule d) (c : Ctrl d) (x : Row) (a : ℝ) : Prop :=
  ∃ m', (m.withGd x 0).fillControls c = .ok m' ∧ m'.cost = .ok a

theorem clocked_control (ms : List (DefModule d)) (controls : List (Ctrl d)) (t1 : ℝ) (it : Nat) :
    Clocked (InvC ms) t1 it (forwardControl controls t1 it) (pickRhs (.compound ms) controls t1 it)
      fun t x n a => ∃ c, pickControls controls it (tToIt t1 it t) n = .ok c ∧ CtrlCostAt (.compound ms) c x a where
  run t x g k g' hI h := by
    rw [forwardC_run hI] at h
    cases h1 : pickControls controls it (tToIt t1 it t) g.it with
    | error e => rw [h1] at h; cases h
    | ok c =>
      rw [h1] at h
      dsimp only at h
      cases h2 : ctrlEval (.compound ms) c x with
      | error e => rw [h2] at h; cases h
      | ok r =>
        rw [h2] at h
        cases h
        refine ⟨invC_after hI h2 .., rfl, rfl, ?_, _, ⟨c, rfl, r.1, (ctrlEval_ok h2).1, (ctrlEval_ok h2).2⟩, rfl⟩
        unfold pickRhs ctrlRhs
        rw [h1]
        dsimp only [Except.bind]
        rw [h2]
        rfl

theorem clocked_moments (ms : List (DefModule d)) (t1 : ℝ) (it : Nat) :
    Clocked (Inv ms) t1 it (forwardMoments t1 it) (fun _ _ x => rhs (.compound ms) x)
      fun _ x _ a => ∃ m', Hamiltonian.geodesicControls (rowsMod (.compound ms) x) = .ok m' ∧ m'.cost = .ok a where
  run t x g k g' hI h := by
    rw [forward_run hI] at h
    unfold rhs
    cases h1 : evalAt (.compound ms) x with
    | error e => rw [h1] at h; cases h
    | ok m' =>
      rw [h1] at h
      cases h
      refine ⟨inv_after hI h1 .., rfl, rfl, rfl, _, ⟨m', ?_, evalAt_cost h1⟩, rfl⟩
      unfold evalAt at h1
      cases h2 : Hamiltonian.geodesicControls (rowsMod (.compound ms) x) with
      | error e => rw [h2] at h1; cases h1
      | ok m1 =>
        rw [h2] at h1
        dsimp only at h1
        cases h3 : Hamiltonian.value m1 with
        | error e => rw [h3] at h1; cases h1
        | ok v => rw [h3] at h1; cases h1; rfl

theorem readStateC_eq {ms ms' : List (DefModule d)} (hp : PlainMembers ms') (hs : Same (.compound ms') (.compound ms)) (x : Row) :
    readState (DefModule.manifolds ms') (DefModule.compound ms).manifold x none = .ok ((DefModule.compound ms).withGd x 0).manifold := by
  have hsl : ∀ y : Row, sliceAll y (DefModule.manifolds ms') 0 = .ok (slicesAt y (DefModule.compound ms).manifold.unrollGd 0) := fun y => by
    rw [sliceAll_plain y _ 0 hp, ← slices_same hs, DefModule.manifold, Mfd.unrollGd]
  have h1 := Mfd.rollFillGd_slices x (DefModule.compound ms).manifold 0 []
  rw [List.append_nil] at h1
  rw [readState, hsl, DefModule.manifold_withGd]
  dsimp only
  rw [h1]

open Classical in
/-- Shooting with controls follows the trajectory of the controlled system. -/
theorem shootC_cases {ms : List (DefModule d)} (hp : PlainMembers ms) (hn : 0 < numCoords (.compound ms)) (s : Solver) (it : Nat) (t1 : ℝ)
    (controls : List (Ctrl d)) :
    match if it ≠ 0 ∧ t1 = 0 then .error .assertion else
      orbitWith s (fun i j => pickRhs (.compound ms) controls t1 it (s.stageTime (gridTime t1 it i) (gridTime t1 it (i + 1)) j) (s.stages * i + j))
        (t1 / it) 0 it (gdRow (.compound ms)) with
    | .error e => shootControls s it t1 controls (.compound ms) = .error e
    | .ok xs => ∃ g, odeint s (forwardControl controls t1 it) t1 it (gdRow (.compound ms)) (GradObj.init (.compound ms)) = (.ok xs, g)
        ∧ InvC ms g ∧ shootControls s it t1 controls (.compound ms)
          = .ok ⟨g.module.withGd (xs.getLastD (gdRow (.compound ms))) 0, g.costs,
              xs.map (fun x => ((DefModule.compound ms).withGd x 0).manifold), g.ctrls⟩ := by
  obtain ⟨h1, h2⟩ := sim_odeint (sim_control ms controls t1 it) t1 it s (gdRow (.compound ms)) _ 0 ⟨invC_init hp, rfl⟩
  rw [shootControls, initRows_ok hn]
  dsimp only
  have key : (odeint s (countRhs (pickRhs (.compound ms) controls t1 it)) t1 it (gdRow (.compound ms)) 0).1
      = if it ≠ 0 ∧ t1 = 0 then .error .assertion else
      orbitWith s (fun i j => pickRhs (.compound ms) controls t1 it (s.stageTime (gridTime t1 it i) (gridTime t1 it (i + 1)) j) (s.stages * i + j))
        (t1 / it) 0 it (gdRow (.compound ms)) := by
    unfold odeint
    split
    · rfl
    · have hl := loop_count s (pickRhs (.compound ms) controls t1 it) t1 it it 0 (gdRow (.compound ms))
      rw [Nat.mul_zero] at hl
      cases h3 : orbitWith s (fun i j => pickRhs (.compound ms) controls t1 it (s.stageTime (gridTime t1 it i) (gridTime t1 it (i + 1)) j) (s.stages * i + j))
        (t1 / it) 0 it (gdRow (.compound ms)) with
      | error e => rw [h3] at hl; exact hl
      | ok l => rw [h3] at hl; dsimp only at hl; rw [hl]
  rw [← key, ← h1]
  cases h : odeint s (forwardControl controls t1 it) t1 it (gdRow (.compound ms)) (GradObj.init (.compound ms)) with
  | mk r g =>
    rw [h] at h2
    cases r with
    | error e => rfl
    | ok xs =>
      dsimp only
      refine ⟨g, rfl, h2.1, ?_⟩
      obtain ⟨⟨ms', e2, hp', hs'⟩, -⟩ := h2
      dsimp only at e2
      generalize hy : xs.getLastD (gdRow (.compound ms)) = yl
      rw [e2, readGd_eq hp']
      dsimp only
      have hmem : ((DefModule.compound ms').withGd yl 0).members = DefModule.withGdAll yl 0 ms' := by
        rw [DefModule.withGd, DefModule.members]
      have hpl : PlainMembers ((DefModule.compound ms').withGd yl 0).members := by
        rw [hmem]; exact plainMembers_withGd _ _ hp'
      have hsame : Same (.compound ((DefModule.compound ms').withGd yl 0).members) (.compound ms) := by
        rw [hmem, ← DefModule.withGd]; exact ((sameGd_withGd _ _).trans hs').same
      rw [collectList_ok (fun y => readStateC_eq hpl hsame y)]

/-- Shooting with controls that returns was given modules the state vector can be built from and
read into. -/
theorem shootC_plain {ms : List (DefModule d)} {s : Solver} {it : Nat} {t1 : ℝ} {controls : List (Ctrl d)} {r : Shot d}
    (h : shootControls s it t1 controls (.compound ms) = .ok r) : PlainMembers ms ∧ 0 < numCoords (.compound ms) := by
  have hn : 0 < numCoords (.compound ms) := by
    by_contra h0
    rw [shootControls, C07_no_coordinates _ (by omega)] at h
    cases h
  refine ⟨?_, hn⟩
  by_contra hp
  have hr : ∀ x, readGd (.compound ms) x = .error .attribute := fun x => by
    rw [readGd, DefModule.members, sliceAll_not_plain x _ 0 (by simpa [PlainMembers] using hp)]
  have hf : ∀ t x, forwardControl controls t1 it t x (GradObj.init (.compound ms)) = (.error .attribute, GradObj.init (.compound ms)) := fun t x => by
    unfold forwardControl
    simp only [Prog.bind_run, Prog.get_run, Prog.lift_run, GradObj.init, hr]
  rw [shootControls, initRows_ok hn] at h
  dsimp only at h
  cases it with
  | zero =>
    have : odeint s (forwardControl controls t1 0) t1 0 (gdRow (.compound ms)) (GradObj.init (.compound ms))
        = (.ok [gdRow (.compound ms)], GradObj.init (.compound ms)) := by
      unfold odeint
      rw [if_neg (fun h => h.1 rfl)]
      rfl
    rw [this] at h
    dsimp only at h
    rw [GradObj.init, hr] at h
    cases h
  | succ k =>
    unfold odeint at h
    split at h
    · cases h
    · next xs g heq =>
      split at heq
      · cases heq
      · rw [odeLoop, Prog.bind_run] at heq
        cases s <;> · rw [Solver.step, Prog.bind_run, hf] at heq; cases heq

theorem shootC_ok {ms : List (DefModule d)} {s : Solver} {it : Nat} {t1 : ℝ} {controls : List (Ctrl d)} {r : Shot d}
    (h : shootControls s it t1 controls (.compound ms) = .ok r) :
    (it = 0 ∨ t1 ≠ 0) ∧ ∃ xs, orbitWith s (fun i j => pickRhs (.compound ms) controls t1 it
        (s.stageTime (gridTime t1 it i) (gridTime t1 it (i + 1)) j) (s.stages * i + j)) (t1 / it) 0 it (gdRow (.compound ms)) = .ok xs
      ∧ r.states = xs.map (fun x => ((DefModule.compound ms).withGd x 0).manifold)
      ∧ r.module.reset = ((DefModule.compound ms).withGd (xs.getLastD (gdRow (.compound ms))) 0).reset
      ∧ ∃ g, odeint s (forwardControl controls t1 it) t1 it (gdRow (.compound ms)) (GradObj.init (.compound ms)) = (.ok xs, g)
        ∧ r.costs = g.costs := by
  obtain ⟨hp, hn⟩ := shootC_plain h
  have := shootC_cases hp hn s it t1 controls
  by_cases hc : it ≠ 0 ∧ t1 = 0
  · rw [if_pos hc] at this
    rw [this] at h; cases h
  · rw [if_neg hc] at this
    refine ⟨by tauto, ?_⟩
    cases ho : orbitWith s (fun i j => pickRhs (.compound ms) controls t1 it
        (s.stageTime (gridTime t1 it i) (gridTime t1 it (i + 1)) j) (s.stages * i + j)) (t1 / it) 0 it (gdRow (.compound ms)) with
    | error e => rw [ho] at this; rw [this] at h; cases h
    | ok xs =>
      rw [ho] at this
      obtain ⟨g, h1, ⟨ms', e, -, hs⟩, h3⟩ := this
      rw [h3] at h
      cases h
      exact ⟨xs, rfl, rfl, by dsimp only; rw [e]; exact hs _, g, h1, rfl⟩

end
end Imodal
