import Verif.Lemmas.Reset
import Verif.Props.C07
/-!
# The right-hand side of the solver as a function of the state vector

The evaluations of `forward_moments` depend on the state vector only, not on what earlier
evaluations left in the module.
-/
set_option autoImplicit false
namespace Imodal
noncomputable section
variable {d : Nat}

/-- The module at a state vector. -/
def rowsMod (m : DefModule d) (x : Row × Row) : DefModule d := (m.withGd x.1 0).withCot x.2 0

theorem rowsMod_rowsMod (m : DefModule d) (x y : Row × Row) : rowsMod (rowsMod m x) y = rowsMod m y := by
  unfold rowsMod
  rw [DefModule.withGd_withCot, DefModule.withGd_withGd, DefModule.withCot_withCot]

theorem rowsMod_self (m : DefModule d) : rowsMod m (gdRow m, cotRow m) = m := by
  unfold rowsMod
  dsimp only
  rw [DefModule.withGd_gdRow, DefModule.withCot_cotRow]

theorem reset_rowsMod (m : DefModule d) (x : Row × Row) : (rowsMod m x).reset = rowsMod m.reset x := by
  unfold rowsMod
  rw [reset_withCot, reset_withGd]

theorem gdRow_rowsMod (m : DefModule d) (x : Row × Row) : gdRow (rowsMod m x) = cut (numCoords m) x.1 := by
  unfold rowsMod
  rw [gdRow_withCot, gdRow_withGd]
theorem cotRow_rowsMod (m : DefModule d) (x : Row × Row) : cotRow (rowsMod m x) = cut (numCoords m) x.2 := by
  unfold rowsMod
  rw [cotRow_withCot, numCoords_withGd]
theorem numCoords_rowsMod (m : DefModule d) (x : Row × Row) : numCoords (rowsMod m x) = numCoords m := by
  unfold rowsMod
  rw [numCoords_withCot, numCoords_withGd]
theorem manifold_rowsMod (m : DefModule d) (x : Row × Row) :
    (rowsMod m x).manifold = (m.manifold.withGd x.1 0).withCot x.2 0 := by
  unfold rowsMod
  rw [DefModule.manifold_withCot, DefModule.manifold_withGd]

/-- The same modules up to descriptors, momenta, controls and cached results. -/
def Same (m m' : DefModule d) : Prop := ∀ x, (rowsMod m x).reset = (rowsMod m' x).reset

theorem Same.refl (m : DefModule d) : Same m m := fun _ => rfl
theorem Same.symm {m m' : DefModule d} (h : Same m m') : Same m' m := fun x => (h x).symm
theorem Same.trans {m m' m'' : DefModule d} (h : Same m m') (h' : Same m' m'') : Same m m'' := fun x => (h x).trans (h' x)
theorem same_rowsMod (m : DefModule d) (x : Row × Row) : Same (rowsMod m x) m := fun y => by rw [rowsMod_rowsMod]
theorem same_of_reset {m m' : DefModule d} (h : m.reset = m'.reset) : Same m m' := fun x => by
  rw [reset_rowsMod, reset_rowsMod, h]

theorem manifold_of_reset {m m' : DefModule d} (h : m.reset = m'.reset) : m.manifold = m'.manifold := by
  rw [← DefModule.manifold_reset, h, DefModule.manifold_reset]

theorem geodesicControls_of_reset {m m' : DefModule d} (h : m.reset = m'.reset) :
    Hamiltonian.geodesicControls m = Hamiltonian.geodesicControls m' := by
  unfold Hamiltonian.geodesicControls
  rw [← geodesic_reset, h, geodesic_reset, manifold_of_reset h]

theorem fill_of_reset {m m' : DefModule d} (h : m.reset = m'.reset) (c : Ctrl d) : m.fillControls c = m'.fillControls c := by
  rw [← fill_reset, h, fill_reset]

theorem setControls_of_reset (controls : Option (List (Ctrl d))) (i : Nat) {m m' : DefModule d} (h : m.reset = m'.reset) :
    setControls controls i m = setControls controls i m' := by
  unfold setControls
  cases controls with
  | none => exact geodesicControls_of_reset h
  | some cs =>
    dsimp only
    cases cs[i]? with
    | none => rfl
    | some c => exact fill_of_reset h c

theorem setControls_reset {controls : Option (List (Ctrl d))} {i : Nat} {m m' : DefModule d}
    (h : setControls controls i m = .ok m') : m'.reset = m.reset := by
  unfold setControls at h
  cases controls with
  | none => exact reset_geodesic h
  | some cs =>
    cases hc : cs[i]? with
    | none => simp only [hc] at h; cases h
    | some c => simp only [hc] at h; exact reset_fill m h

/-- A way to set the controls that depends on nothing the controls change. -/
def ResetFree (prepare : DefModule d → Py (DefModule d)) : Prop := ∀ m m' : DefModule d, m.reset = m'.reset → prepare m = prepare m'

theorem hamFn_same {prepare : DefModule d → Py (DefModule d)} (hp : ResetFree prepare) {m m' : DefModule d} (h : Same m m') (q p : Row) :
    hamFn prepare m q p = hamFn prepare m' q p := by
  unfold hamFn
  rw [withRows_eq, withRows_eq]
  dsimp only
  have := hp _ _ (h (q, p))
  unfold rowsMod at this
  dsimp only at this
  rw [this]

theorem numCoords_of_reset {m m' : DefModule d} (h : m.reset = m'.reset) : numCoords m = numCoords m' := by
  unfold numCoords
  rw [manifold_of_reset h]
theorem numCoords_same {m m' : DefModule d} (h : Same m m') : numCoords m = numCoords m' := by
  rw [← numCoords_rowsMod m (0, 0), numCoords_of_reset (h (0, 0)), numCoords_rowsMod]

theorem gradH_of_reset {prepare : DefModule d → Py (DefModule d)} (hp : ResetFree prepare) {m m' : DefModule d} (h : m.reset = m'.reset) :
    gradH prepare m = gradH prepare m' := by
  unfold gradH
  have h1 : hamFn prepare m = hamFn prepare m' := by
    funext q p; exact hamFn_same hp (same_of_reset h) q p
  rw [numCoords_of_reset h, gdRow, gdRow, cotRow, cotRow, manifold_of_reset h, h1]

theorem geodesic_resetFree : ResetFree (Hamiltonian.geodesicControls (d := d)) := fun _ _ h => geodesicControls_of_reset h
theorem setControls_resetFree (controls : Option (List (Ctrl d))) (i : Nat) : ResetFree (setControls controls i) :=
  fun _ _ h => setControls_of_reset controls i h

/-! ## `forward_moments` -/

/-- The module as the evaluation at a state vector leaves it. -/
def evalAt (m : DefModule d) (x : Row × Row) : Py (DefModule d) :=
  match Hamiltonian.geodesicControls (rowsMod m x) with
  | .error e => .error e
  | .ok m' =>
    match Hamiltonian.value m' with
    | .error e => .error e
    | .ok _ => .ok m'

/-- `(∂H/∂p, -∂H/∂q)` at a state vector. -/
def hamVec (m : DefModule d) (x : Row × Row) : Row × Row :=
  ((gradH Hamiltonian.geodesicControls (rowsMod m x)).2, -(gradH Hamiltonian.geodesicControls (rowsMod m x)).1)

theorem evalAt_same {m m' : DefModule d} (h : Same m m') (x : Row × Row) : evalAt m x = evalAt m' x := by
  unfold evalAt
  rw [geodesicControls_of_reset (h x)]
theorem hamVec_same {m m' : DefModule d} (h : Same m m') (x : Row × Row) : hamVec m x = hamVec m' x := by
  unfold hamVec
  rw [gradH_of_reset geodesic_resetFree (h x)]

theorem evalAt_reset {m m' : DefModule d} {x : Row × Row} (h : evalAt m x = .ok m') : m'.reset = (rowsMod m x).reset := by
  unfold evalAt at h
  cases h1 : Hamiltonian.geodesicControls (rowsMod m x) with
  | error e => rw [h1] at h; cases h
  | ok m1 =>
    rw [h1] at h
    dsimp only at h
    cases h2 : Hamiltonian.value m1 with
    | error e => rw [h2] at h; cases h
    | ok v => rw [h2] at h; rw [← Except.ok.inj h]; exact reset_geodesic h1

theorem cost_of_value {m : DefModule d} {v : ℝ} (h : Hamiltonian.value m = .ok v) : ∃ c, m.cost = .ok c := by
  unfold Hamiltonian.value hamiltonianOn at h
  cases h1 : m.field with
  | error e => rw [h1] at h; cases h
  | ok f =>
    rw [h1] at h
    dsimp only at h
    cases h2 : m.manifold.innerProd f with
    | error e => rw [h2] at h; cases h
    | ok a =>
      rw [h2] at h
      dsimp only at h
      cases h3 : m.cost with
      | error e => rw [h3] at h; cases h
      | ok c => exact ⟨c, rfl⟩

theorem evalAt_cost {m m' : DefModule d} {x : Row × Row} (h : evalAt m x = .ok m') : m'.cost = .ok (valD m'.cost) := by
  unfold evalAt at h
  cases h1 : Hamiltonian.geodesicControls (rowsMod m x) with
  | error e => rw [h1] at h; cases h
  | ok m1 =>
    rw [h1] at h
    dsimp only at h
    cases h2 : Hamiltonian.value m1 with
    | error e => rw [h2] at h; cases h
    | ok v =>
      rw [h2] at h
      rw [← Except.ok.inj h]
      obtain ⟨c, hc⟩ := cost_of_value h2
      rw [hc]; rfl

theorem compound_of_reset {m : DefModule d} {ms : List (DefModule d)} (h : m.reset = (DefModule.compound ms).reset)
    (hp : PlainMembers ms) : ∃ ms', m = .compound ms' ∧ PlainMembers ms' := by
  have hm := manifold_of_reset h
  rw [DefModule.reset] at h
  cases m with
  | compound ms' =>
    refine ⟨ms', rfl, ?_⟩
    rw [DefModule.manifold, DefModule.manifold] at hm
    unfold PlainMembers
    rw [Mfd.compound.inj hm]
    exact hp
  | _ => rw [DefModule.reset] at h; cases h

/-- The module the solver's callback holds is the initial one up to what every evaluation sets. -/
def Inv (ms : List (DefModule d)) (g : GradObj d) : Prop :=
  ∃ ms', g.module = .compound ms' ∧ PlainMembers ms' ∧ Same (.compound ms') (.compound ms)

theorem inv_init {ms : List (DefModule d)} (h : PlainMembers ms) : Inv ms (GradObj.init (.compound ms)) :=
  ⟨ms, rfl, h, Same.refl _⟩

/-- The state the callback leaves. -/
def GradObj.after (t1 : ℝ) (it : Nat) (t : ℝ) (m' : DefModule d) (g : GradObj d) : GradObj d :=
  ⟨m', g.it + 1, tToIt t1 it t, if addCost g.trueIt (tToIt t1 it t) t then g.costs ++ [valD m'.cost] else g.costs,
    g.ctrls ++ [m'.controls]⟩

theorem rowsMod_compound (ms : List (DefModule d)) (x : Row × Row) :
    rowsMod (.compound ms) x = .compound (DefModule.withCotAll x.2 0 (DefModule.withGdAll x.1 0 ms)) := by
  unfold rowsMod
  rw [DefModule.withGd, DefModule.withCot]

theorem inv_after {ms : List (DefModule d)} {g : GradObj d} (hI : Inv ms g) {x : Row × Row} {m' : DefModule d}
    (h : evalAt (.compound ms) x = .ok m') (t1 : ℝ) (it : Nat) (t : ℝ) : Inv ms (g.after t1 it t m') := by
  obtain ⟨ms', -, hp, hs⟩ := hI
  rw [← evalAt_same hs] at h
  have hr := evalAt_reset h
  have hs' : Same m' (.compound ms) := (same_of_reset hr).trans ((same_rowsMod _ x).trans hs)
  rw [rowsMod_compound] at hr
  obtain ⟨ms'', e, hp''⟩ := compound_of_reset hr (plainMembers_withCot _ _ (plainMembers_withGd _ _ hp))
  exact ⟨ms'', e, hp'', e ▸ hs'⟩

theorem forward_run {ms : List (DefModule d)} {g : GradObj d} (hI : Inv ms g) (t1 : ℝ) (it : Nat) (t : ℝ) (x : Row × Row) :
    forwardMoments t1 it t x g = match evalAt (.compound ms) x with
      | .error e => (.error e, g)
      | .ok m' => (.ok (hamVec (.compound ms) x), g.after t1 it t m') := by
  obtain ⟨ms', hm, hp, hs⟩ := hI
  have hread := readBoth_eq hp x
  unfold readBoth at hread
  rw [readGd_eq hp] at hread
  dsimp only at hread
  rw [← evalAt_same hs, ← hamVec_same hs]
  unfold forwardMoments evalAt
  simp only [Prog.bind_run, Prog.get_run, Prog.lift_run, hm]
  rw [readGd_eq hp]
  dsimp only
  rw [hread]
  dsimp only
  rw [show ((DefModule.compound ms').withGd x.1 0).withCot x.2 0 = rowsMod (.compound ms') x from rfl]
  cases h1 : Hamiltonian.geodesicControls (rowsMod (.compound ms') x) with
  | error e => rfl
  | ok m1 =>
    dsimp only
    cases h2 : Hamiltonian.value m1 with
    | error e => rfl
    | ok v =>
      dsimp only
      obtain ⟨c, hc⟩ := cost_of_value h2
      rw [hc]
      simp only [Prog.set_run, Prog.pure_run, GradObj.after, valD, hc, hamVec]

/-! ## Two callbacks with the same values -/

/-- From related states both return the same and leave related states. -/
def Sim {σ τ V : Type} (R : σ → τ → Prop) (f : ℝ → V → Prog σ V) (f' : ℝ → V → Prog τ V) : Prop :=
  ∀ t x w w', R w w' → (f t x w).1 = (f' t x w').1 ∧ R (f t x w).2 (f' t x w').2

/-- The same for two programs. -/
def SimP {σ τ β : Type} (R : σ → τ → Prop) (p : Prog σ β) (p' : Prog τ β) : Prop :=
  ∀ w w', R w w' → (p w).1 = (p' w').1 ∧ R (p w).2 (p' w').2

theorem SimP.bind {σ τ β γ : Type} {R : σ → τ → Prop} {p : Prog σ β} {p' : Prog τ β} {k : β → Prog σ γ} {k' : β → Prog τ γ}
    (h : SimP R p p') (hk : ∀ b, SimP R (k b) (k' b)) : SimP R (p >>= k) (p' >>= k') := by
  intro w w' hw
  obtain ⟨h1, h2⟩ := h w w' hw
  rw [Prog.bind_run, Prog.bind_run]
  cases hp : p w with
  | mk r s =>
    cases hp' : p' w' with
    | mk r' s' =>
      rw [hp, hp'] at h1 h2
      dsimp only at h1 h2
      subst h1
      cases r with
      | error e => exact ⟨rfl, h2⟩
      | ok b => exact hk b _ _ h2

theorem SimP.pure {σ τ β : Type} {R : σ → τ → Prop} (b : β) : SimP R (Pure.pure b : Prog σ β) (Pure.pure b) :=
  fun _ _ h => ⟨rfl, h⟩

theorem sim_step {σ τ V : Type} [AddCommGroup V] [Module ℝ V] {R : σ → τ → Prop} {f : ℝ → V → Prog σ V} {f' : ℝ → V → Prog τ V}
    (h : Sim R f f') (t t' : ℝ) (y : V) (s : Solver) : SimP R (Solver.step f t t' y s) (Solver.step f' t t' y s) := by
  have hc : ∀ t x, SimP R (f t x) (f' t x) := fun t x w w' => h t x w w'
  cases s with
  | euler => exact (hc _ _).bind fun _ => SimP.pure _
  | midpoint => exact (hc _ _).bind fun _ => (hc _ _).bind fun _ => SimP.pure _
  | rk4 => exact (hc _ _).bind fun _ => (hc _ _).bind fun _ => (hc _ _).bind fun _ => (hc _ _).bind fun _ => SimP.pure _

theorem sim_loop {σ τ V : Type} [AddCommGroup V] [Module ℝ V] {R : σ → τ → Prop} {f : ℝ → V → Prog σ V} {f' : ℝ → V → Prog τ V}
    (h : Sim R f f') (t1 : ℝ) (it : Nat) (s : Solver) (k : Nat) :
    ∀ (i : Nat) (y : V), SimP R (odeLoop s f t1 it i k y) (odeLoop s f' t1 it i k y) := by
  induction k with
  | zero => intro i y; exact SimP.pure _
  | succ k ih =>
    intro i y
    rw [odeLoop, odeLoop]
    exact (sim_step h _ _ y s).bind fun y' => (ih _ _).bind fun _ => SimP.pure _

theorem sim_odeint {σ τ V : Type} [AddCommGroup V] [Module ℝ V] {R : σ → τ → Prop} {f : ℝ → V → Prog σ V} {f' : ℝ → V → Prog τ V}
    (h : Sim R f f') (t1 : ℝ) (it : Nat) (s : Solver) (y : V) : SimP R (odeint s f t1 it y) (odeint s f' t1 it y) := by
  intro w w' hw
  unfold odeint
  split
  · exact ⟨rfl, hw⟩
  · exact sim_loop h t1 it s it 0 y w w' hw

/-! ## Invariants of the values a solver visits -/

/-- A right-hand side without state. -/
def pureRhs {V : Type} (X : V → Py V) : ℝ → V → Prog Unit V := fun _ x => Prog.lift (X x)

/-- The right-hand side of the Hamiltonian system. -/
def rhs (m : DefModule d) (x : Row × Row) : Py (Row × Row) :=
  match evalAt m x with
  | .error e => .error e
  | .ok _ => .ok (hamVec m x)

theorem sim_forward (ms : List (DefModule d)) (t1 : ℝ) (it : Nat) :
    Sim (fun g (_ : Unit) => Inv ms g) (forwardMoments t1 it) (pureRhs (rhs (.compound ms))) := by
  intro t x g _ hI
  rw [forward_run hI]
  unfold pureRhs rhs
  cases h : evalAt (.compound ms) x with
  | error e => exact ⟨rfl, hI⟩
  | ok m' => exact ⟨rfl, inv_after hI h ..⟩

end
end Imodal
