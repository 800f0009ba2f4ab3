import Verif.Lemmas.BackendShoot
/-!
# Shooting and registration with modules that differ in their compute backends
-/
set_option autoImplicit false
namespace Imodal
noncomputable section
variable {d : Nat}

namespace SameButBackend

theorem refl (m : DefModule d) : SameButBackend m m := rfl
theorem symm {m m' : DefModule d} (h : SameButBackend m m') : SameButBackend m' m := Eq.symm h
theorem torch (m : DefModule d) : SameButBackend m m.torch := (torch_torch m).symm

theorem combine {α : Type} {f : α → α} {p p' t : Py α} (h : PyRel (fun a b => b = f a) p t) (h' : PyRel (fun a b => b = f a) p' t) :
    PyRel (fun a b => f a = f b) p p' := by
  rcases h.both with ⟨a, b, rfl, rfl, rfl⟩ | ⟨_, _, rfl, rfl⟩ <;> rcases h'.both with ⟨a', b', rfl, e, e'⟩ | ⟨_, _, rfl, e⟩
  · cases e; exact e'
  · cases e
  · cases e
  · trivial

variable {m m' : DefModule d} (h : SameButBackend m m')
include h

theorem manifold : m.manifold = m'.manifold := by rw [← manifold_torch m, ← manifold_torch m', show m.torch = m'.torch from h]
theorem controls : m.controls = m'.controls := by rw [← controls_torch m, ← controls_torch m', show m.torch = m'.torch from h]
theorem cost : m.cost = m'.cost := by rw [← cost_torch m, ← cost_torch m', show m.torch = m'.torch from h]
theorem members : DefModule.torchAll m.members = DefModule.torchAll m'.members := by
  rw [← members_torch, ← members_torch, show m.torch = m'.torch from h]
theorem memberManifolds : DefModule.manifolds m.members = DefModule.manifolds m'.members := by
  rw [← manifolds_torch, h.members, manifolds_torch]

theorem field : PyRel FieldExpr.Alike m.field m'.field := by
  have h1 := field_torch m
  rw [show m.torch = m'.torch from h] at h1
  rcases h1.both with ⟨f, g, e, e', hfg⟩ | ⟨_, _, e, e'⟩ <;> rcases (field_torch m').both with ⟨f', g', e2, e2', hfg'⟩ | ⟨_, _, e2, e2'⟩
  · rw [e, e2]
    rw [e'] at e2'
    cases e2'
    exact hfg.trans hfg'.symm
  · rw [e'] at e2'; cases e2'
  · rw [e'] at e2'; cases e2'
  · rw [e, e2]; trivial

theorem geodesic (man : Mfd d) : PyRel SameButBackend (m.geodesic man) (m'.geodesic man) := by
  have h1 := geodesic_torch man m
  rw [show m.torch = m'.torch from h] at h1
  exact combine h1 (geodesic_torch man m')

theorem fillControls (c : Ctrl d) : PyRel SameButBackend (m.fillControls c) (m'.fillControls c) := by
  have h1 := fillControls_torch m c
  rw [show m.torch = m'.torch from h] at h1
  exact combine h1 (fillControls_torch m' c)

theorem rollFillGd (l : List Row) : PyRel (fun a b => SameButBackend a.1 b.1 ∧ a.2 = b.2) (m.rollFillGd l) (m'.rollFillGd l) := by
  have h1 := rollFillGd_torch m l
  rw [show m.torch = m'.torch from h, rollFillGd_torch m' l] at h1
  cases e : m.rollFillGd l <;> cases e' : m'.rollFillGd l <;> rw [e, e'] at h1 <;> simp only [Except.map] at h1
  · trivial
  · cases h1
  · cases h1
  · have h2 := Except.ok.inj h1
    exact ⟨(congrArg Prod.fst h2).symm, (congrArg Prod.snd h2).symm⟩

theorem rollFillCot (l : List Row) : PyRel (fun a b => SameButBackend a.1 b.1 ∧ a.2 = b.2) (m.rollFillCot l) (m'.rollFillCot l) := by
  have h1 := rollFillCot_torch m l
  rw [show m.torch = m'.torch from h, rollFillCot_torch m' l] at h1
  cases e : m.rollFillCot l <;> cases e' : m'.rollFillCot l <;> rw [e, e'] at h1 <;> simp only [Except.map] at h1
  · trivial
  · cases h1
  · cases h1
  · have h2 := Except.ok.inj h1
    exact ⟨(congrArg Prod.fst h2).symm, (congrArg Prod.snd h2).symm⟩

theorem readGd (x : Row) : PyRel SameButBackend (Imodal.readGd m x) (Imodal.readGd m' x) := by
  unfold Imodal.readGd
  rw [h.memberManifolds]
  cases sliceAll x (DefModule.manifolds m'.members) 0 with
  | error _ => trivial
  | ok l =>
    dsimp only
    rcases (h.rollFillGd l).both with ⟨a, b, e, e', h'⟩ | ⟨_, _, e, e'⟩
    · rw [e, e']; exact h'.1
    · rw [e, e']; trivial

theorem readCot (x : Row) : PyRel SameButBackend (Imodal.readCot m x) (Imodal.readCot m' x) := by
  unfold Imodal.readCot
  rw [h.memberManifolds]
  cases sliceAll x (DefModule.manifolds m'.members) 0 with
  | error _ => trivial
  | ok l =>
    dsimp only
    rcases (h.rollFillCot l).both with ⟨a, b, e, e', h'⟩ | ⟨_, _, e, e'⟩
    · rw [e, e']; exact h'.1
    · rw [e, e']; trivial

theorem withRows (q p : Row) : PyRel SameButBackend (Imodal.withRows m q p) (Imodal.withRows m' q p) := by
  unfold Imodal.withRows
  rw [h.manifold]
  rcases (h.rollFillGd (slicesOf q m'.manifold)).both with ⟨a, b, e, e', h1⟩ | ⟨_, _, e, e'⟩
  · rw [e, e']
    dsimp only
    rcases (SameButBackend.rollFillCot h1.1 (slicesOf p m'.manifold)).both with ⟨a, b, e, e', h2⟩ | ⟨_, _, e, e'⟩
    · rw [e, e']; exact h2.1
    · rw [e, e']; trivial
  · rw [e, e']; trivial

theorem value : PyRel Eq (Hamiltonian.value m) (Hamiltonian.value m') := by
  unfold Hamiltonian.value hamiltonianOn
  rw [h.manifold, h.cost]
  rcases h.field.both with ⟨f, g, e, e', h1⟩ | ⟨_, _, e, e'⟩
  · rw [e, e']
    dsimp only
    rw [innerProd_alike h1]
    exact PyRel.refl (fun _ => rfl) _
  · rw [e, e']; trivial

theorem geodesicControls : PyRel SameButBackend (Hamiltonian.geodesicControls m) (Hamiltonian.geodesicControls m') := by
  unfold Hamiltonian.geodesicControls
  rw [h.manifold]
  exact h.geodesic _

theorem setControls (controls : Option (List (Ctrl d))) (i : Nat) : PyRel SameButBackend (Imodal.setControls controls i m) (Imodal.setControls controls i m') := by
  unfold Imodal.setControls
  cases controls with
  | none => exact h.geodesicControls
  | some cs =>
    dsimp only
    cases cs[i]? with
    | none => trivial
    | some c => exact h.fillControls c

theorem gradH {P : DefModule d → Py (DefModule d)} (hP : ∀ m m' : DefModule d, SameButBackend m m' → PyRel SameButBackend (P m) (P m')) :
    Imodal.gradH P m = Imodal.gradH P m' := by
  have hF : (fun q p => valD (hamFn P m q p)) = fun q p => valD (hamFn P m' q p) := by
    funext q p
    refine PyRel.eq ?_
    unfold hamFn
    rcases (h.withRows q p).both with ⟨a, b, e, e', h1⟩ | ⟨_, _, e, e'⟩
    · rw [e, e']
      dsimp only
      rcases (hP a b h1).both with ⟨a, b, e, e', h2⟩ | ⟨_, _, e, e'⟩
      · rw [e, e']; exact SameButBackend.value h2
      · rw [e, e']; trivial
    · rw [e, e']; trivial
  unfold Imodal.gradH
  rw [hF]
  unfold numCoords gdRow cotRow
  rw [h.manifold]

/-! ## Shooting -/

theorem eulerStep (step : ℝ) (controls : Option (List (Ctrl d))) (i : Nat) :
    PyRel SameButBackend (Imodal.eulerStep step controls i m) (Imodal.eulerStep step controls i m') := by
  unfold Imodal.eulerStep
  rcases (h.setControls controls i).both with ⟨a, b, e, e', h1⟩ | ⟨_, _, e, e'⟩
  · rw [e, e']
    dsimp only
    rcases (SameButBackend.value h1).both with ⟨_, _, e, e', _⟩ | ⟨_, _, e, e'⟩
    · rw [e, e']
      dsimp only
      rw [h.gradH fun _ _ h => h.setControls controls i]
      have hg : gdRow m = gdRow m' := by unfold gdRow; rw [h.manifold]
      have hc : cotRow m = cotRow m' := by unfold cotRow; rw [h.manifold]
      rw [hg, hc]
      exact SameButBackend.withRows h1 _ _
    · rw [e, e']; trivial
  · rw [e, e']; trivial

omit h in
theorem eulerLoop (step : ℝ) (controls : Option (List (Ctrl d))) (k : Nat) : ∀ (i : Nat) {m m' : DefModule d}, SameButBackend m m' →
    PyRel Shot.SameButBackend (Imodal.eulerLoop step controls i k m) (Imodal.eulerLoop step controls i k m') := by
  induction k with
  | zero =>
    intro i m m' h
    rw [Imodal.eulerLoop, Imodal.eulerLoop]
    exact PyRel.ok ⟨h, rfl, by rw [h.manifold], rfl⟩
  | succ k ih =>
    intro i m m' h
    rw [Imodal.eulerLoop, Imodal.eulerLoop]
    rcases (h.eulerStep step controls i).both with ⟨a, b, e, e', h1⟩ | ⟨_, _, e, e'⟩
    · rw [e, e']
      dsimp only
      rcases (ih (i + 1) h1).both with ⟨r, r', e, e', h2⟩ | ⟨_, _, e, e'⟩
      · rw [e, e']
        exact PyRel.ok ⟨h2.module, rfl, by rw [h.manifold, h2.states], by rw [SameButBackend.controls h1, h2.ctrls]⟩
      · rw [e, e']; trivial
    · rw [e, e']; trivial

theorem shootEuler (it : Nat) (controls : Option (List (Ctrl d))) :
    PyRel Shot.SameButBackend (Imodal.shootEuler it controls m) (Imodal.shootEuler it controls m') := by
  unfold Imodal.shootEuler
  split
  · trivial
  · exact SameButBackend.eulerLoop _ controls it 0 h

/-- Solver objects that differ at most in the backends of their modules. -/
structure _root_.Imodal.GradObj.Twin (w w' : GradObj d) : Prop where
  module : SameButBackend w.module w'.module
  it : w.it = w'.it
  trueIt : w.trueIt = w'.trueIt
  costs : w.costs = w'.costs
  ctrls : w.ctrls = w'.ctrls

omit h in
theorem lift {σ τ α β γ δ : Type} {R : σ → τ → Prop} {Q : α → β → Prop} {S : γ → δ → Prop} {x : Py α} {y : Py β} (h : PyRel Q x y)
    {k : α → Prog σ γ} {k' : β → Prog τ δ} (hk : ∀ a b, Q a b → ProgRel R S (k a) (k' b)) :
    ProgRel R S (Prog.lift x >>= k) (Prog.lift y >>= k') := by
  refine ProgRel.bind (Q := Q) ?_ hk
  intro w w' hw
  rcases h.both with ⟨a, b, rfl, rfl, h⟩ | ⟨e, e', rfl, rfl⟩
  · exact Or.inl ⟨a, b, w, w', rfl, rfl, h, hw⟩
  · exact Or.inr ⟨e, e', w, w', rfl, rfl⟩

omit h in
theorem get {σ τ γ δ : Type} {R : σ → τ → Prop} {S : γ → δ → Prop} {k : σ → Prog σ γ} {k' : τ → Prog τ δ}
    (hk : ∀ w w', R w w' → ProgRel R S (k w) (k' w')) : ProgRel R S (Prog.get >>= k) (Prog.get >>= k') := by
  refine ProgRel.bind (Q := R) ?_ hk
  exact fun w w' hw => Or.inl ⟨w, w', w, w', rfl, rfl, hw, hw⟩

omit h in
theorem set {σ τ γ δ : Type} {R : σ → τ → Prop} {S : γ → δ → Prop} {v : σ} {v' : τ} (hv : R v v') {k : Unit → Prog σ γ} {k' : Unit → Prog τ δ}
    (hk : ProgRel R S (k ()) (k' ())) : ProgRel R S (Prog.set v >>= k) (Prog.set v' >>= k') := by
  refine ProgRel.bind (Q := fun _ _ => True) ?_ fun _ _ _ => hk
  exact fun w w' hw => Or.inl ⟨(), (), v, v', rfl, rfl, trivial, hv⟩

omit h in
theorem forwardMoments (t1 : ℝ) (it : Nat) (t : ℝ) (x : Row × Row) :
    ProgRel GradObj.Twin Eq (Imodal.forwardMoments (d := d) t1 it t x) (Imodal.forwardMoments (d := d) t1 it t x) := by
  unfold Imodal.forwardMoments
  refine get fun w w' hw => ?_
  refine lift (hw.module.readGd _) fun m m' h => ?_
  refine lift (h.readCot _) fun m m' h => ?_
  refine lift h.geodesicControls fun m1 m1' h1 => ?_
  refine lift h1.value fun _ _ _ => ?_
  refine lift (PyRel.of_eq (Q := Eq) (fun _ => rfl) h1.cost) fun c c' hc => ?_
  subst hc
  rw [h.gradH fun _ _ h => h.geodesicControls]
  exact set ⟨h1, by rw [hw.it], rfl, by dsimp only; rw [hw.trueIt, hw.costs], by dsimp only; rw [hw.ctrls, h1.controls]⟩ (ProgRel.pure rfl)

omit h in
theorem forwardControl (controls : List (Ctrl d)) (t1 : ℝ) (it : Nat) (t : ℝ) (x : Row) :
    ProgRel GradObj.Twin Eq (Imodal.forwardControl controls t1 it t x) (Imodal.forwardControl controls t1 it t x) := by
  unfold Imodal.forwardControl
  refine get fun w w' hw => ?_
  refine lift (hw.module.readGd _) fun m m' h => ?_
  rw [hw.it]
  refine lift (PyRel.refl (Q := Eq) (fun _ => rfl) _) fun c c' hc => ?_
  subst hc
  refine lift (h.fillControls c) fun m1 m1' h1 => ?_
  refine lift (PyRel.of_eq (Q := Eq) (fun _ => rfl) h1.cost) fun a a' ha => ?_
  subst ha
  refine lift h1.field fun f f' hf => ?_
  refine lift (Q := Eq) (PyRel.of_eq (fun _ => rfl) (by rw [h1.manifold, action_alike hf])) fun v v' hv => ?_
  subst hv
  exact set ⟨h1, rfl, rfl, by dsimp only; rw [hw.trueIt, hw.costs], by dsimp only; rw [hw.ctrls, h1.controls]⟩ (ProgRel.pure rfl)

omit h in
theorem odeint {V : Type} [AddCommGroup V] [Module ℝ V] {f : ℝ → V → Prog (GradObj d) V}
    (hf : ∀ t x, ProgRel GradObj.Twin Eq (f t x) (f t x)) (s : Solver) (t1 : ℝ) (it : Nat) (y : V) :
    ProgRel GradObj.Twin Eq (Imodal.odeint s f t1 it y) (Imodal.odeint s f t1 it y) := by
  have H : MapsTo (Set.univ : Set V) ⊤ LinearMap.id GradObj.Twin f f :=
    ⟨fun _ _ _ _ => Set.mem_univ _, fun t y _ w w' hw => by
      rcases hf t y w w' hw with ⟨b, c, s, s', e, e', h, h'⟩ | h
      · exact Or.inl ⟨b, c, s, s', e, e', ⟨trivial, h.symm⟩, h'⟩
      · exact Or.inr h⟩
  intro w w' hw
  rcases H.odeint s t1 it (Set.mem_univ y) w w' hw with ⟨b, c, s, s', e, e', h, h'⟩ | h
  · refine Or.inl ⟨b, c, s, s', e, e', ?_, h'⟩
    rw [h.2]; exact (List.map_id b).symm
  · exact Or.inr h

theorem initRows : Imodal.initRows m = Imodal.initRows m' := by unfold Imodal.initRows stateEntries; rw [h.manifold]

theorem init : GradObj.Twin (GradObj.init m) (GradObj.init m') := ⟨h, rfl, rfl, rfl, rfl⟩

theorem shootMoments (s : Solver) (it : Nat) (t1 : ℝ) : PyRel Shot.SameButBackend (Imodal.shootMoments s it t1 m) (Imodal.shootMoments s it t1 m') := by
  unfold Imodal.shootMoments
  rw [h.initRows, h.manifold]
  cases Imodal.initRows m' with
  | error _ => trivial
  | ok x₀ =>
    dsimp only
    rcases SameButBackend.odeint (SameButBackend.forwardMoments t1 it) s t1 it x₀ _ _ h.init with ⟨xs, xs', g, g', e, e', rfl, hg⟩ | ⟨_, _, _, _, e, e'⟩
    · rw [e, e']
      dsimp only
      rcases (hg.module.readGd (xs.getLastD x₀).1).both with ⟨m1, m1', e, e', h1⟩ | ⟨_, _, e, e'⟩
      · rw [e, e']
        dsimp only
        rcases (SameButBackend.readCot h1 (xs.getLastD x₀).2).both with ⟨m2, m2', e, e', h2⟩ | ⟨_, _, e, e'⟩
        · rw [e, e']
          dsimp only
          rw [SameButBackend.memberManifolds h2]
          split
          · trivial
          · exact PyRel.ok ⟨h2, hg.costs, rfl, hg.ctrls⟩
        · rw [e, e']; trivial
      · rw [e, e']; trivial
    · rw [e, e']; trivial

theorem shootControls (s : Solver) (it : Nat) (t1 : ℝ) (controls : List (Ctrl d)) :
    PyRel Shot.SameButBackend (Imodal.shootControls s it t1 controls m) (Imodal.shootControls s it t1 controls m') := by
  unfold Imodal.shootControls
  rw [h.initRows, h.manifold]
  cases Imodal.initRows m' with
  | error _ => trivial
  | ok x₀ =>
    dsimp only
    rcases SameButBackend.odeint (SameButBackend.forwardControl controls t1 it) s t1 it x₀.1 _ _ h.init with ⟨xs, xs', g, g', e, e', rfl, hg⟩ | ⟨_, _, _, _, e, e'⟩
    · rw [e, e']
      dsimp only
      rcases (hg.module.readGd (xs.getLastD x₀.1)).both with ⟨m1, m1', e, e', h1⟩ | ⟨_, _, e, e'⟩
      · rw [e, e']
        dsimp only
        rw [SameButBackend.memberManifolds h1]
        split
        · trivial
        · exact PyRel.ok ⟨h1, hg.costs, rfl, hg.ctrls⟩
      · rw [e, e']; trivial
    · rw [e, e']; trivial

theorem shoot (s : SolverName) (it : Nat) (t1 : ℝ) (controls : Option (List (Ctrl d))) :
    PyRel (fun r r' => r.1.SameButBackend r'.1 ∧ r.2 = r'.2) (Imodal.shoot s it t1 controls m) (Imodal.shoot s it t1 controls m') := by
  unfold Imodal.shoot
  cases s with
  | torchEuler =>
    dsimp only
    rcases (h.shootEuler it controls).both with ⟨r, r', e, e', h1⟩ | ⟨_, _, e, e'⟩
    · rw [e, e']; exact PyRel.ok ⟨h1, rfl⟩
    · rw [e, e']; trivial
  | fixed s =>
    dsimp only
    have H : PyRel Shot.SameButBackend (shootOde s it t1 controls m) (shootOde s it t1 controls m') := by
      unfold shootOde
      cases controls with
      | none => exact h.shootMoments s it t1
      | some cs => exact h.shootControls s it t1 cs
    rcases H.both with ⟨r, r', e, e', h1⟩ | ⟨_, _, e, e'⟩
    · rw [e, e']; exact PyRel.ok ⟨h1, by rw [h1.costs]⟩
    · rw [e, e']; trivial
  | adaptive => trivial
  | unknown => trivial

/-! ## Deforming -/

theorem fillGdFrom (man : Mfd d) : PyRel SameButBackend (m.fillGdFrom man) (m'.fillGdFrom man) := by
  unfold DefModule.fillGdFrom
  rcases (h.rollFillGd (slicesOf (rowOf man.unrollGd.flatten) man)).both with ⟨a, b, e, e', h1⟩ | ⟨_, _, e, e'⟩
  · rw [e, e']; exact h1.1
  · rw [e, e']; trivial

theorem fillCotFrom (man : Mfd d) : PyRel SameButBackend (m.fillCotFrom man) (m'.fillCotFrom man) := by
  unfold DefModule.fillCotFrom
  rcases (h.rollFillCot (slicesOf (rowOf man.unrollCot.flatten) man)).both with ⟨a, b, e, e', h1⟩ | ⟨_, _, e, e'⟩
  · rw [e, e']; exact h1.1
  · rw [e, e']; trivial

omit h in
theorem totalLoop (states : List (Mfd d)) (controls : List (Ctrl d)) (k : Nat) : ∀ (i : Nat) {m m' : DefModule d}, SameButBackend m m' →
    PyRel (fun r r' => r.1 = r'.1 ∧ SameButBackend r.2 r'.2) (Imodal.totalLoop states controls i k m) (Imodal.totalLoop states controls i k m') := by
  induction k with
  | zero => intro i m m' h; rw [Imodal.totalLoop, Imodal.totalLoop]; exact PyRel.ok ⟨rfl, h⟩
  | succ k ih =>
    intro i m m' h
    rw [Imodal.totalLoop, Imodal.totalLoop]
    cases states[i]? with
    | none => trivial
    | some S =>
      dsimp only
      rcases (h.fillGdFrom S).both with ⟨a, b, e, e', h1⟩ | ⟨_, _, e, e'⟩
      · rw [e, e']
        dsimp only
        cases controls[i]? with
        | none => trivial
        | some c =>
          dsimp only
          rcases (SameButBackend.fillControls h1 c).both with ⟨a, b, e, e', h2⟩ | ⟨_, _, e, e'⟩
          · rw [e, e']
            dsimp only
            rw [SameButBackend.cost h2]
            cases b.cost with
            | error _ => trivial
            | ok z =>
              dsimp only
              rcases (ih (i + 1) h2).both with ⟨r, r', e, e', h3⟩ | ⟨_, _, e, e'⟩
              · rw [e, e']; exact PyRel.ok ⟨by rw [h3.1], h3.2⟩
              · rw [e, e']; trivial
          · rw [e, e']; trivial
      · rw [e, e']; trivial

theorem reduceCost (red : Reduce) (it : Nat) (costs : Option (List ℝ)) (controls : Option (List (Ctrl d))) (states : List (Mfd d)) :
    PyRel (fun r r' => r.1 = r'.1 ∧ SameButBackend r.2 r'.2) (Imodal.reduceCost red it costs controls states m)
      (Imodal.reduceCost red it costs controls states m') := by
  unfold Imodal.reduceCost
  cases red with
  | sum =>
    dsimp only
    cases costs with
    | none => trivial
    | some cs => exact PyRel.ok ⟨rfl, h⟩
  | previous =>
    dsimp only
    rw [h.manifold]
    rcases (h.geodesic m'.manifold).both with ⟨a, b, e, e', h1⟩ | ⟨_, _, e, e'⟩
    · rw [e, e']
      dsimp only
      rw [SameButBackend.cost h1]
      cases b.cost with
      | error _ => trivial
      | ok z => exact PyRel.ok ⟨rfl, h1⟩
    · rw [e, e']; trivial
  | lastCompound =>
    dsimp only
    rw [h.cost]
    cases m'.cost with
    | error _ => trivial
    | ok z => exact PyRel.ok ⟨rfl, h⟩
  | totalCompound =>
    dsimp only
    cases controls with
    | none =>
      dsimp only
      split
      · exact PyRel.ok ⟨rfl, h⟩
      · cases states[0]? with
        | none => trivial
        | some S =>
          dsimp only
          rcases (h.fillGdFrom S).both with ⟨a, b, e, e', h1⟩ | ⟨_, _, e, e'⟩
          · rw [e, e']; trivial
          · rw [e, e']; trivial
    | some cs =>
      dsimp only
      rcases (SameButBackend.totalLoop states cs it 0 h).both with ⟨a, b, e, e', h1⟩ | ⟨_, _, e, e'⟩
      · rw [e, e']; exact PyRel.ok ⟨by rw [h1.1], h1.2⟩
      · rw [e, e']; trivial
  | other => exact PyRel.ok ⟨rfl, h⟩

end SameButBackend

end
end Imodal
