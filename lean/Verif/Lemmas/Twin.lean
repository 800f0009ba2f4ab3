import Verif.Lemmas.RigidShoot
import Verif.Lemmas.TurnGrad
import Verif.Lemmas.BackendShoot
/-!
# Shooting two systems whose coordinates correspond
-/
set_option autoImplicit false
namespace Imodal
noncomputable section

/-! ## Solver runs related state by state -/

/-- The second program does what the first does, up to relations on the state and on the result. -/
def ProgTwin {σ τ β γ : Type} (R : σ → τ → Prop) (Φ : β → γ → Prop) (p : Prog σ β) (p' : Prog τ γ) : Prop :=
  ∀ w w', R w w' → PyRel (fun b c => Φ b c ∧ R (p w).2 (p' w').2) (p w).1 (p' w').1

theorem ProgTwin.bind {σ τ β γ β' γ' : Type} {R : σ → τ → Prop} {Φ : β → γ → Prop} {Ψ : β' → γ' → Prop} {p : Prog σ β} {p' : Prog τ γ}
    {k : β → Prog σ β'} {k' : γ → Prog τ γ'} (h : ProgTwin R Φ p p') (hk : ∀ b c, Φ b c → ProgTwin R Ψ (k b) (k' c)) :
    ProgTwin R Ψ (p >>= k) (p' >>= k') := by
  intro w w' hw
  have h1 := h w w' hw
  rw [Prog.bind_run, Prog.bind_run]
  cases hp : p w with
  | mk r s =>
    cases hp' : p' w' with
    | mk r' s' =>
      rw [hp, hp'] at h1
      rcases PyRel.both h1 with ⟨a, b, e, e', hab, hs⟩ | ⟨e, e', h2, h3⟩
      · dsimp only at e e'
        subst e e'
        exact hk a b hab s s' hs
      · dsimp only at h2 h3
        subst h2 h3
        trivial

theorem ProgTwin.pure {σ τ β γ : Type} {R : σ → τ → Prop} {Φ : β → γ → Prop} {b : β} {c : γ} (h : Φ b c) :
    ProgTwin R Φ (Pure.pure b) (Pure.pure c) := fun _ _ hw => ⟨h, hw⟩

/-- A relation closed under the operations of the solvers. -/
structure LinRel {V W : Type} [AddCommGroup V] [Module ℝ V] [AddCommGroup W] [Module ℝ W] (ρ : V → W → Prop) : Prop where
  add : ∀ {y z k l}, ρ y z → ρ k l → ρ (y + k) (z + l)
  smul : ∀ (c : ℝ) {k l}, ρ k l → ρ (c • k) (c • l)

theorem LinRel.sub {V W : Type} [AddCommGroup V] [Module ℝ V] [AddCommGroup W] [Module ℝ W] {ρ : V → W → Prop} (h : LinRel ρ) {y k : V} {z l : W}
    (h1 : ρ y z) (h2 : ρ k l) : ρ (y - k) (z - l) := by
  have := h.add h1 (h.smul (-1) h2)
  rwa [neg_one_smul, neg_one_smul, ← sub_eq_add_neg, ← sub_eq_add_neg] at this

section
variable {σ τ V W : Type} [AddCommGroup V] [Module ℝ V] [AddCommGroup W] [Module ℝ W] {R : σ → τ → Prop} {ρ : V → W → Prop}
  {f : ℝ → V → Prog σ V} {f' : ℝ → W → Prog τ W}

theorem progTwin_step (hρ : LinRel ρ) (h : ∀ t y z, ρ y z → ProgTwin R ρ (f t y) (f' t z)) (t t' : ℝ) {y : V} {z : W} (hyz : ρ y z) (s : Solver) :
    ProgTwin R ρ (Solver.step f t t' y s) (Solver.step f' t t' z s) := by
  cases s with
  | euler => exact (h _ _ _ hyz).bind fun k l hk => ProgTwin.pure (hρ.add hyz (hρ.smul _ hk))
  | midpoint =>
    exact (h _ _ _ hyz).bind fun k l hk => (h _ _ _ (hρ.add hyz (hρ.smul _ hk))).bind fun k l hk => ProgTwin.pure (hρ.add hyz (hρ.smul _ hk))
  | rk4 =>
    exact (h _ _ _ hyz).bind fun k₁ l₁ h₁ =>
      (h _ _ _ (hρ.add hyz (hρ.smul _ h₁))).bind fun k₂ l₂ h₂ =>
      (h _ _ _ (hρ.add hyz (hρ.smul _ (hρ.sub h₂ (hρ.smul _ h₁))))).bind fun k₃ l₃ h₃ =>
      (h _ _ _ (hρ.add hyz (hρ.smul _ (hρ.add (hρ.sub h₁ h₂) h₃)))).bind fun k₄ l₄ h₄ =>
      ProgTwin.pure (hρ.add hyz (hρ.smul _ (hρ.add (hρ.add h₁ (hρ.smul _ (hρ.add h₂ h₃))) h₄)))

theorem progTwin_loop (hρ : LinRel ρ) (h : ∀ t y z, ρ y z → ProgTwin R ρ (f t y) (f' t z)) (s : Solver) (t1 : ℝ) (it : Nat) :
    ∀ (k i : Nat) {y : V} {z : W}, ρ y z → ProgTwin R (List.Forall₂ ρ) (odeLoop s f t1 it i k y) (odeLoop s f' t1 it i k z)
  | 0, i, y, z, hyz => by
    rw [odeLoop, odeLoop]
    exact ProgTwin.pure (List.Forall₂.cons hyz List.Forall₂.nil)
  | k + 1, i, y, z, hyz => by
    rw [odeLoop, odeLoop]
    exact (progTwin_step hρ h _ _ hyz s).bind fun y' z' h' => (progTwin_loop hρ h s t1 it k (i + 1) h').bind fun l l' hl =>
      ProgTwin.pure (List.Forall₂.cons hyz hl)

theorem progTwin_odeint (hρ : LinRel ρ) (h : ∀ t y z, ρ y z → ProgTwin R ρ (f t y) (f' t z)) (s : Solver) (t1 : ℝ) (it : Nat) {y : V} {z : W}
    (hyz : ρ y z) : ProgTwin R (List.Forall₂ ρ) (odeint s f t1 it y) (odeint s f' t1 it z) := by
  intro w w' hw
  unfold odeint
  split
  · trivial
  · exact progTwin_loop hρ h s t1 it it 0 hyz w w' hw
end

theorem forall₂_getLastD {α β : Type} {ρ : α → β → Prop} {l : List α} {l' : List β} (h : List.Forall₂ ρ l l') {a : α} {b : β} (hab : ρ a b) :
    ρ (l.getLastD a) (l'.getLastD b) := by
  induction h generalizing a b with
  | nil => exact hab
  | cons h1 _ ih => rw [List.getLastD_cons, List.getLastD_cons]; exact ih h1

variable {d : Nat}

/-! ## Rows -/

/-- The entries of the second row are those of the first in another order. -/
def Along (N : Nat) (e : Nat → Nat) (x x' : Row) : Prop := ∀ j < N, x' j = x (e j)
/-- The same for descriptors and momenta. -/
def Along₂ (N : Nat) (e : Nat → Nat) (x x' : Row × Row) : Prop := Along N e x.1 x'.1 ∧ Along N e x.2 x'.2

theorem along_lin (N : Nat) (e : Nat → Nat) : LinRel (Along N e) where
  add h h' j hj := by rw [Pi.add_apply, Pi.add_apply, h j hj, h' j hj]
  smul c _ _ h j hj := by rw [Pi.smul_apply, Pi.smul_apply, h j hj]
theorem along₂_lin (N : Nat) (e : Nat → Nat) : LinRel (Along₂ N e) where
  add h h' := ⟨(along_lin N e).add h.1 h'.1, (along_lin N e).add h.2 h'.2⟩
  smul c _ _ h := ⟨(along_lin N e).smul c h.1, (along_lin N e).smul c h.2⟩

theorem along_cut {N : Nat} {e : Nat → Nat} (he : ∀ j < N, e j < N) {x x' : Row} (h : Along N e x x') : Along N e (cut N x) (cut N x') := fun j hj => by
  unfold cut; rw [if_pos hj, if_pos (he j hj), h j hj]

theorem along_neg {N : Nat} {e : Nat → Nat} {x x' : Row} (h : Along N e x x') : Along N e (-x) (-x') := fun j hj => by
  rw [Pi.neg_apply, Pi.neg_apply, h j hj]

theorem along_update {N : Nat} {e : Nat → Nat} (hinj : ∀ i < N, ∀ j < N, e i = e j → i = j) {x x' : Row} (h : Along N e x x') {j : Nat} (hj : j < N) (s : ℝ) :
    Along N e (Function.update x (e j) s) (Function.update x' j s) := fun i hi => by
  by_cases hij : i = j
  · subst hij; rw [Function.update_self, Function.update_self]
  · rw [Function.update_of_ne hij, Function.update_of_ne (fun h' => hij (hinj i hi j hj h')), h i hi]

/-- Partial derivatives of functions that agree on corresponding rows correspond. -/
theorem partials_along {N : Nat} {e : Nat → Nat} (hinj : ∀ i < N, ∀ j < N, e i = e j → i = j) {F F' : Row → Row → ℝ}
    (hF : ∀ q q' p p', Along N e q q' → Along N e p p' → F' q' p' = F q p) {q q' p p' : Row} (hq : Along N e q q') (hp : Along N e p p') :
    Along N e (partialQ F q p) (partialQ F' q' p') ∧ Along N e (partialP F q p) (partialP F' q' p') := by
  refine ⟨fun j hj => ?_, fun j hj => ?_⟩
  · unfold partialQ
    have : (fun s => F' (Function.update q' j s) p') = fun s => F (Function.update q (e j) s) p :=
      funext fun s => hF _ _ _ _ (along_update hinj hq hj s) hp
    rw [this, hq j hj]
  · unfold partialP
    have : (fun s => F' q' (Function.update p' j s)) = fun s => F q (Function.update p (e j) s) :=
      funext fun s => hF _ _ _ _ hq (along_update hinj hp hj s)
    rw [this, hp j hj]

/-! ## Twins -/

/-- The velocity of the descriptors of a module under its own field. -/
def DefModule.velocity (m : DefModule d) : Py (Tan d) :=
  match m.field with
  | .error e => .error e
  | .ok f => m.manifold.action f

/-- A relation between modules kept by everything shooting does with them. -/
structure Twin (N : Nat) (e : Nat → Nat) (Q : DefModule d → DefModule d → Prop) (κ : Ctrl d → Ctrl d → Prop) : Prop where
  lt : ∀ j < N, e j < N
  inj : ∀ i < N, ∀ j < N, e i = e j → i = j
  size : ∀ {a b}, Q a b → numCoords a = N ∧ numCoords b = N
  gd : ∀ {a b}, Q a b → Along N e (gdRow a) (gdRow b)
  cot : ∀ {a b}, Q a b → Along N e (cotRow a) (cotRow b)
  setGd : ∀ {a b x x'}, Q a b → Along N e x x' → Q (a.withGd x 0) (b.withGd x' 0)
  setCot : ∀ {a b x x'}, Q a b → Along N e x x' → Q (a.withCot x 0) (b.withCot x' 0)
  geo : ∀ {a b}, Q a b → PyRel Q (Hamiltonian.geodesicControls a) (Hamiltonian.geodesicControls b)
  fill : ∀ {a b c c'}, Q a b → κ c c' → PyRel Q (a.fillControls c) (b.fillControls c')
  value : ∀ {a b}, Q a b → PyRel Eq (Hamiltonian.value a) (Hamiltonian.value b)
  cost : ∀ {a b}, Q a b → PyRel Eq a.cost b.cost
  ctrl : ∀ {a b}, Q a b → κ a.controls b.controls
  vel : ∀ {a b}, Q a b → PyRel (fun v v' => Along N e (rowOf v.unroll.flatten) (rowOf v'.unroll.flatten)) a.velocity b.velocity
  plain : ∀ {ms ms'}, Q (.compound ms) (.compound ms') → (PlainMembers ms' ↔ PlainMembers ms)

/-- Two results of shooting that correspond. The states are those of the first and the second
modules along corresponding rows. -/
structure Shot.Twin (N : Nat) (e : Nat → Nat) (Q : DefModule d → DefModule d → Prop) (κ : Ctrl d → Ctrl d → Prop) (r r' : Shot d) : Prop where
  module : Q r.module r'.module
  costs : r'.costs = r.costs
  ctrls : List.Forall₂ κ r.ctrls r'.ctrls
  states : List.Forall₂ (fun S S' => ∃ a a', Q a a' ∧ S = a.manifold ∧ S' = a'.manifold) r.states r'.states

namespace Twin
variable {N : Nat} {e : Nat → Nat} {Q : DefModule d → DefModule d → Prop} {κ : Ctrl d → Ctrl d → Prop} (T : Twin N e Q κ)
include T

theorem setRows {a b : DefModule d} {x x' : Row × Row} (h : Q a b) (hx : Along₂ N e x x') : Q (rowsMod a x) (rowsMod b x') :=
  T.setCot (T.setGd h hx.1) hx.2

/-- Derivatives with the controls set in corresponding ways. -/
theorem gradH {P P' : DefModule d → Py (DefModule d)} (hP : ∀ {a b}, Q a b → PyRel Q (P a) (P' b)) {a b : DefModule d} (h : Q a b) :
    Along₂ N e (Imodal.gradH P a) (Imodal.gradH P' b) := by
  have hF : ∀ q q' p p', Along N e q q' → Along N e p p' → valD (hamFn P' b q' p') = valD (hamFn P a q p) := fun q q' p p' hq hp => by
    unfold hamFn
    rw [withRows_eq, withRows_eq]
    dsimp only
    rcases (hP (T.setCot (T.setGd h hq) hp)).both with ⟨a, b, e, e', h'⟩ | ⟨_, _, e, e'⟩
    · rw [e, e']
      exact (T.value h').eq.symm
    · rw [e, e']; rfl
  have := partials_along T.inj hF (T.gd h) (T.cot h)
  unfold Imodal.gradH
  dsimp only
  rw [(T.size h).1, (T.size h).2]
  exact ⟨along_cut T.lt this.1, along_cut T.lt this.2⟩

theorem evalAt {a b : DefModule d} {x x' : Row × Row} (h : Q a b) (hx : Along₂ N e x x') : PyRel Q (Imodal.evalAt a x) (Imodal.evalAt b x') := by
  unfold Imodal.evalAt
  rcases (T.geo (T.setRows h hx)).both with ⟨a, b, e, e', h'⟩ | ⟨_, _, e, e'⟩
  · rw [e, e']
    dsimp only
    rcases (T.value h').both with ⟨_, _, e, e', _⟩ | ⟨_, _, e, e'⟩
    · rw [e, e']; exact h'
    · rw [e, e']; trivial
  · rw [e, e']; trivial

theorem hamVec {a b : DefModule d} {x x' : Row × Row} (h : Q a b) (hx : Along₂ N e x x') : Along₂ N e (Imodal.hamVec a x) (Imodal.hamVec b x') := by
  have := T.gradH (fun h => T.geo h) (T.setRows h hx)
  exact ⟨this.2, along_neg this.1⟩

/-- The states of the two callbacks. -/
def Objs (_T : Twin N e Q κ) (ms ms' : List (DefModule d)) (w w' : GradObj d) : Prop :=
  Inv ms w ∧ Inv ms' w' ∧ Q w.module w'.module ∧ w'.it = w.it ∧ w'.trueIt = w.trueIt ∧ w'.costs = w.costs ∧ List.Forall₂ κ w.ctrls w'.ctrls
/-- The same with controls. -/
def ObjsC (_T : Twin N e Q κ) (ms ms' : List (DefModule d)) (w w' : GradObj d) : Prop :=
  InvC ms w ∧ InvC ms' w' ∧ Q w.module w'.module ∧ w'.it = w.it ∧ w'.trueIt = w.trueIt ∧ w'.costs = w.costs ∧ List.Forall₂ κ w.ctrls w'.ctrls

theorem after_costs {w w' : GradObj d} {a b : DefModule d} (h : Q a b) (ht : w'.trueIt = w.trueIt) (hc : w'.costs = w.costs) (t1 : ℝ) (it : Nat) (t : ℝ) :
    (w'.after t1 it t b).costs = (w.after t1 it t a).costs := by
  unfold GradObj.after
  dsimp only
  rw [ht, hc, (T.cost h).eq]

theorem after_ctrls {w w' : GradObj d} {a b : DefModule d} (h : Q a b) (hc : List.Forall₂ κ w.ctrls w'.ctrls) (t1 : ℝ) (it : Nat) (t : ℝ) :
    List.Forall₂ κ (w.after t1 it t a).ctrls (w'.after t1 it t b).ctrls :=
  List.rel_append hc (List.Forall₂.cons (T.ctrl h) List.Forall₂.nil)

theorem forward {ms ms' : List (DefModule d)} (h : Q (.compound ms) (.compound ms')) (t1 : ℝ) (it : Nat) (t : ℝ) (x x' : Row × Row) (hx : Along₂ N e x x') :
    ProgTwin (T.Objs ms ms') (Along₂ N e) (forwardMoments t1 it t x) (forwardMoments t1 it t x') := by
  rintro w w' ⟨hI, hI', hq, h1, h2, h3, h4⟩
  rw [forward_run hI, forward_run hI']
  rcases (T.evalAt h hx).both with ⟨a, b, ea, eb, h'⟩ | ⟨_, _, ea, eb⟩
  · rw [ea, eb]
    exact ⟨T.hamVec h hx, inv_after hI ea .., inv_after hI' eb .., h', congrArg (· + 1) h1, rfl, T.after_costs h' h2 h3 .., T.after_ctrls h' h4 ..⟩
  · rw [ea, eb]; trivial

theorem ctrlEval {a b : DefModule d} {x x' : Row} {c c' : Ctrl d} (h : Q a b) (hc : κ c c') (hx : Along N e x x') :
    PyRel (fun r r' : DefModule d × Row => Q r.1 r'.1 ∧ Along N e r.2 r'.2) (Imodal.ctrlEval a c x) (Imodal.ctrlEval b c' x') := by
  unfold Imodal.ctrlEval
  rcases (T.fill (T.setGd h hx) hc).both with ⟨a, b, e, e', h'⟩ | ⟨_, _, e, e'⟩
  · rw [e, e']
    dsimp only
    rcases (T.cost h').both with ⟨_, _, e, e', _⟩ | ⟨_, _, e, e'⟩
    · rw [e, e']
      dsimp only
      have hv := T.vel h'
      unfold DefModule.velocity at hv
      cases h1 : a.field <;> cases h2 : b.field <;> rw [h1, h2] at hv
      · trivial
      · rename_i f
        dsimp only at hv ⊢
        cases h3 : b.manifold.action f <;> rw [h3] at hv
        · trivial
        · exact hv.elim
      · rename_i f _
        dsimp only at hv ⊢
        cases h3 : a.manifold.action f <;> rw [h3] at hv
        · trivial
        · exact hv.elim
      · rename_i f g
        dsimp only at hv ⊢
        rcases hv.both with ⟨_, _, e, e', h⟩ | ⟨_, _, e, e'⟩
        · rw [e, e']; exact ⟨h', h⟩
        · rw [e, e']; trivial
    · rw [e, e']; trivial
  · rw [e, e']; trivial

theorem pick {cs cs' : List (Ctrl d)} (h : List.Forall₂ κ cs cs') (it : Nat) (cur : Int) (calls : Nat) :
    PyRel κ (pickControls cs it cur calls) (pickControls cs' it cur calls) := by
  unfold pickControls
  rw [h.length_eq]
  dsimp only
  generalize (if cs'.length = it then cur.toNat else if it < cs'.length then calls else 0) = i
  clear T
  induction h generalizing i with
  | nil => trivial
  | cons h1 _ ih =>
    cases i with
    | zero => exact h1
    | succ i => simpa using ih i

theorem forwardC {ms ms' : List (DefModule d)} (h : Q (.compound ms) (.compound ms')) {cs cs' : List (Ctrl d)} (hcs : List.Forall₂ κ cs cs') (t1 : ℝ) (it : Nat)
    (t : ℝ) (x x' : Row) (hx : Along N e x x') :
    ProgTwin (T.ObjsC ms ms') (Along N e) (forwardControl cs t1 it t x) (forwardControl cs' t1 it t x') := by
  rintro w w' ⟨hI, hI', hq, h1, h2, h3, h4⟩
  rw [forwardC_run hI, forwardC_run hI', h1]
  rcases (T.pick hcs it (tToIt t1 it t) w.it).both with ⟨c, c', e, e', hc⟩ | ⟨_, _, e, e'⟩
  · rw [e, e']
    dsimp only
    rcases (T.ctrlEval h hc hx).both with ⟨a, b, ea, eb, h'⟩ | ⟨_, _, ea, eb⟩
    · rw [ea, eb]
      exact ⟨h'.2, invC_after hI ea .., invC_after hI' eb .., h'.1, congrArg (· + 1) h1, rfl, T.after_costs h'.1 h2 h3 .., T.after_ctrls h'.1 h4 ..⟩
    · rw [ea, eb]; trivial
  · rw [e, e']; trivial

theorem states {ρ : Row × Row → Row × Row → Prop} {m m' : DefModule d} (h : ∀ x x', ρ x x' → Q (rowsMod m x) (rowsMod m' x')) {xs xs' : List (Row × Row)}
    (hx : List.Forall₂ ρ xs xs') : List.Forall₂ (fun S S' => ∃ a a', Q a a' ∧ S = a.manifold ∧ S' = a'.manifold)
      (xs.map fun x => (rowsMod m x).manifold) (xs'.map fun x => (rowsMod m' x).manifold) := by
  rw [List.forall₂_map_left_iff, List.forall₂_map_right_iff]
  exact hx.imp fun x x' hx => ⟨_, _, h x x' hx, rfl, rfl⟩

/-- Shooting from momenta. -/
theorem moments {ms ms' : List (DefModule d)} (h : Q (.compound ms) (.compound ms')) (s : Solver) (it : Nat) (t1 : ℝ) :
    PyRel (Shot.Twin N e Q κ) (shootMoments s it t1 (.compound ms)) (shootMoments s it t1 (.compound ms')) := by
  by_cases hn : 0 < N
  · have hn1 : 0 < numCoords (.compound ms) := by rw [(T.size h).1]; exact hn
    have hn2 : 0 < numCoords (.compound ms') := by rw [(T.size h).2]; exact hn
    by_cases hp : PlainMembers ms
    · have hp' := (T.plain h).2 hp
      have hrel := progTwin_odeint (along₂_lin N e) (T.forward h t1 it) s t1 it (y := (gdRow (.compound ms), cotRow (.compound ms)))
        (z := (gdRow (.compound ms'), cotRow (.compound ms'))) ⟨T.gd h, T.cot h⟩ (GradObj.init (.compound ms)) (GradObj.init (.compound ms'))
        ⟨inv_init hp, inv_init hp', h, rfl, rfl, rfl, List.Forall₂.nil⟩
      cases h1 : odeint s (forwardMoments t1 it) t1 it (gdRow (.compound ms), cotRow (.compound ms)) (GradObj.init (.compound ms)) with
      | mk r w =>
        cases h2 : odeint s (forwardMoments t1 it) t1 it (gdRow (.compound ms'), cotRow (.compound ms')) (GradObj.init (.compound ms')) with
        | mk r' w' =>
          rw [h1, h2] at hrel
          rw [shoot_of_run hp hn1 s it t1 h1, shoot_of_run hp' hn2 s it t1 h2]
          rcases PyRel.both hrel with ⟨xs, xs', e, e', hxs, _, _, hq, _, _, hc, hk⟩ | ⟨_, _, e, e'⟩
          · dsimp only at e e'
            subst e e'
            refine PyRel.ok ⟨T.setRows hq (forall₂_getLastD hxs ⟨T.gd h, T.cot h⟩), hc, hk, ?_⟩
            exact T.states (fun x x' hx => T.setRows h hx) hxs
          · dsimp only at e e'
            subst e e'
            trivial
    · have hp' : ¬PlainMembers ms' := fun h' => hp ((T.plain h).1 h')
      rw [shoot_not_plain hp hn1, shoot_not_plain hp' hn2]; trivial
  · have h1 : shootMoments s it t1 (.compound ms) = .error .runtime := by
      rw [shootMoments, C07_no_coordinates _ (by rw [(T.size h).1]; omega)]
    have h2 : shootMoments s it t1 (.compound ms') = .error .runtime := by
      rw [shootMoments, C07_no_coordinates _ (by rw [(T.size h).2]; omega)]
    rw [h1, h2]; trivial

/-- Shooting with controls. -/
theorem controls {ms ms' : List (DefModule d)} (h : Q (.compound ms) (.compound ms')) {cs cs' : List (Ctrl d)} (hcs : List.Forall₂ κ cs cs') (s : Solver)
    (it : Nat) (t1 : ℝ) :
    PyRel (Shot.Twin N e Q κ) (shootControls s it t1 cs (.compound ms)) (shootControls s it t1 cs' (.compound ms')) := by
  by_cases hn : 0 < N
  · have hn1 : 0 < numCoords (.compound ms) := by rw [(T.size h).1]; exact hn
    have hn2 : 0 < numCoords (.compound ms') := by rw [(T.size h).2]; exact hn
    by_cases hp : PlainMembers ms
    · have hp' := (T.plain h).2 hp
      have hrel := progTwin_odeint (along_lin N e) (T.forwardC h hcs t1 it) s t1 it (T.gd h) (GradObj.init (.compound ms)) (GradObj.init (.compound ms'))
        ⟨invC_init hp, invC_init hp', h, rfl, rfl, rfl, List.Forall₂.nil⟩
      cases h1 : odeint s (forwardControl cs t1 it) t1 it (gdRow (.compound ms)) (GradObj.init (.compound ms)) with
      | mk r w =>
        cases h2 : odeint s (forwardControl cs' t1 it) t1 it (gdRow (.compound ms')) (GradObj.init (.compound ms')) with
        | mk r' w' =>
          rw [h1, h2] at hrel
          rw [shootC_of_run hp hn1 s it t1 cs h1, shootC_of_run hp' hn2 s it t1 cs' h2]
          rcases PyRel.both hrel with ⟨xs, xs', e, e', hxs, _, _, hq, _, _, hc, hk⟩ | ⟨_, _, e, e'⟩
          · dsimp only at e e'
            subst e e'
            refine PyRel.ok ⟨T.setGd hq (forall₂_getLastD hxs (T.gd h)), hc, hk, ?_⟩
            rw [List.forall₂_map_left_iff, List.forall₂_map_right_iff]
            exact hxs.imp fun x x' hx => ⟨_, _, T.setGd h hx, rfl, rfl⟩
          · dsimp only at e e'
            subst e e'
            trivial
    · have hp' : ¬PlainMembers ms' := fun h' => hp ((T.plain h).1 h')
      rw [shootC_not_plain hp hn1, shootC_not_plain hp' hn2]; trivial
  · have h1 : shootControls s it t1 cs (.compound ms) = .error .runtime := by
      rw [shootControls, C07_no_coordinates _ (by rw [(T.size h).1]; omega)]
    have h2 : shootControls s it t1 cs' (.compound ms') = .error .runtime := by
      rw [shootControls, C07_no_coordinates _ (by rw [(T.size h).2]; omega)]
    rw [h1, h2]; trivial

theorem setControls {cs cs' : Option (List (Ctrl d))} (hcs : Option.Rel (List.Forall₂ κ) cs cs') (i : Nat) {a b : DefModule d} (h : Q a b) :
    PyRel Q (Imodal.setControls cs i a) (Imodal.setControls cs' i b) := by
  cases hcs with
  | none => exact T.geo h
  | some hcs =>
    induction hcs generalizing i with
    | nil => trivial
    | cons h1 _ ih =>
      cases i with
      | zero => exact T.fill h h1
      | succ i => exact ih i

/-- Explicit Euler steps. -/
theorem euler {cs cs' : Option (List (Ctrl d))} (hcs : Option.Rel (List.Forall₂ κ) cs cs') (step : ℝ) :
    ∀ (k i : Nat) {a b : DefModule d}, Q a b → PyRel (Shot.Twin N e Q κ) (eulerLoop step cs i k a) (eulerLoop step cs' i k b)
  | 0, i, a, b, h => by
    rw [eulerLoop, eulerLoop]
    exact PyRel.ok ⟨h, rfl, List.Forall₂.nil, List.Forall₂.cons ⟨_, _, h, rfl, rfl⟩ List.Forall₂.nil⟩
  | k + 1, i, a, b, h => by
    rw [eulerLoop, eulerLoop]
    have hstep : PyRel Q (eulerStep step cs i a) (eulerStep step cs' i b) := by
      unfold eulerStep
      rcases (T.setControls hcs i h).both with ⟨a1, b1, e, e', h1⟩ | ⟨_, _, e, e'⟩
      · rw [e, e']
        dsimp only
        rcases (T.value h1).both with ⟨_, _, e, e', _⟩ | ⟨_, _, e, e'⟩
        · rw [e, e']
          dsimp only
          have hg := T.gradH (fun h => T.setControls hcs i h) h
          rw [withRows_eq, withRows_eq]
          exact T.setCot (T.setGd h1 ((along_lin N _).add (T.gd h) ((along_lin N _).smul _ hg.2))) ((along_lin N _).add (T.cot h) ((along_lin N _).smul _ hg.1))
        · rw [e, e']; trivial
      · rw [e, e']; trivial
    rcases hstep.both with ⟨a', b', e, e', h1⟩ | ⟨_, _, e, e'⟩
    · rw [e, e']
      dsimp only
      rcases (euler hcs step k (i + 1) h1).both with ⟨r, r', e, e', h2⟩ | ⟨_, _, e, e'⟩
      · rw [e, e']
        exact PyRel.ok ⟨h2.module, rfl, List.Forall₂.cons (T.ctrl h1) h2.ctrls, List.Forall₂.cons ⟨_, _, h, rfl, rfl⟩ h2.states⟩
      · rw [e, e']; trivial
    · rw [e, e']; trivial

/-- `shoot` with any solver. -/
theorem shoot {ms ms' : List (DefModule d)} (h : Q (.compound ms) (.compound ms')) {cs cs' : Option (List (Ctrl d))} (hcs : Option.Rel (List.Forall₂ κ) cs cs')
    (s : SolverName) (it : Nat) (t1 : ℝ) :
    PyRel (fun r r' : Shot d × Option (List ℝ) => Shot.Twin N e Q κ r.1 r'.1 ∧ r'.2 = r.2)
      (Imodal.shoot s it t1 cs (.compound ms)) (Imodal.shoot s it t1 cs' (.compound ms')) := by
  unfold Imodal.shoot
  cases s with
  | torchEuler =>
    dsimp only
    unfold shootEuler
    by_cases h0 : it = 0
    · simp only [if_pos h0]; trivial
    · simp only [if_neg h0]
      rcases (T.euler hcs (1 / it) it 0 h).both with ⟨r, r', e, e', h2⟩ | ⟨_, _, e, e'⟩
      · rw [e, e']; exact ⟨h2, rfl⟩
      · rw [e, e']; trivial
  | fixed s =>
    dsimp only
    unfold shootOde
    cases hcs with
    | none =>
      rcases (T.moments h s it t1).both with ⟨r, r', e, e', h2⟩ | ⟨_, _, e, e'⟩
      · rw [e, e']; exact ⟨h2, congrArg some h2.costs⟩
      · rw [e, e']; trivial
    | some hcs =>
      dsimp only
      rcases (T.controls h hcs s it t1).both with ⟨r, r', e, e', h2⟩ | ⟨_, _, e, e'⟩
      · rw [e, e']; exact ⟨h2, congrArg some h2.costs⟩
      · rw [e, e']; trivial
  | adaptive => trivial
  | unknown => trivial

end Twin

end
end Imodal
