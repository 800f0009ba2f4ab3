import Verif.Lemmas.Shoot
import Verif.Spec.Shooting
/-!
# Two solver runs related by a linear map of their states
-/
set_option autoImplicit false
namespace Imodal
noncomputable section

theorem PyRel.mono {α β : Type} {Q Q' : α → β → Prop} (h : ∀ a b, Q a b → Q' a b) {x : Py α} {y : Py β} (hx : PyRel Q x y) : PyRel Q' x y := by
  cases x <;> cases y
  · trivial
  · exact hx
  · exact hx
  · exact h _ _ hx

theorem PyRel.left {α β : Type} {Q : α → β → Prop} {x : Py α} {y : Py β} (h : PyRel Q x y) {a : α} (hx : x = .ok a) : ∃ b, y = .ok b ∧ Q a b := by
  subst hx
  cases y with
  | error e => exact h.elim
  | ok b => exact ⟨b, rfl, h⟩
theorem PyRel.right {α β : Type} {Q : α → β → Prop} {x : Py α} {y : Py β} (h : PyRel Q x y) {b : β} (hy : y = .ok b) : ∃ a, x = .ok a ∧ Q a b := by
  subst hy
  cases x with
  | error e => exact h.elim
  | ok a => exact ⟨a, rfl, h⟩

/-- The same for programs; the states after a return are related. -/
def ProgRel {σ τ β γ : Type} (R : σ → τ → Prop) (Q : β → γ → Prop) (p : Prog σ β) (p' : Prog τ γ) : Prop :=
  ∀ w w', R w w' →
    (∃ b c s s', p w = (.ok b, s) ∧ p' w' = (.ok c, s') ∧ Q b c ∧ R s s') ∨ ∃ e e' s s', p w = (.error e, s) ∧ p' w' = (.error e', s')

theorem ProgRel.bind {σ τ β γ β' γ' : Type} {R : σ → τ → Prop} {Q : β → γ → Prop} {S : β' → γ' → Prop} {p : Prog σ β} {p' : Prog τ γ}
    {k : β → Prog σ β'} {k' : γ → Prog τ γ'} (h : ProgRel R Q p p') (hk : ∀ b c, Q b c → ProgRel R S (k b) (k' c)) :
    ProgRel R S (p >>= k) (p' >>= k') := by
  intro w w' hw
  rw [Prog.bind_run, Prog.bind_run]
  rcases h w w' hw with ⟨b, c, s, s', e1, e2, hq, hr⟩ | ⟨e, e', s, s', e1, e2⟩
  · rw [e1, e2]; exact hk b c hq s s' hr
  · rw [e1, e2]; exact Or.inr ⟨e, e', s, s', rfl, rfl⟩

theorem ProgRel.pure {σ τ β γ : Type} {R : σ → τ → Prop} {Q : β → γ → Prop} {b : β} {c : γ} (h : Q b c) :
    ProgRel R Q (Pure.pure b) (Pure.pure c) := fun w w' hw => Or.inl ⟨b, c, w, w', rfl, rfl, h, hw⟩

variable {V V' : Type} [AddCommGroup V] [Module ℝ V] [AddCommGroup V'] [Module ℝ V']

/-- On the states `A` the first right-hand side has directions in `W`, along which `A` is closed, and
the second one is its image under `π`. -/
structure MapsTo {σ τ : Type} (A : Set V) (W : Submodule ℝ V) (π : V →ₗ[ℝ] V') (R : σ → τ → Prop)
    (f : ℝ → V → Prog σ V) (f' : ℝ → V' → Prog τ V') : Prop where
  add : ∀ y ∈ A, ∀ w ∈ W, y + w ∈ A
  run : ∀ t, ∀ y ∈ A, ProgRel R (fun k k' => k ∈ W ∧ k' = π k) (f t y) (f' t (π y))

variable {σ τ : Type} {A : Set V} {W : Submodule ℝ V} {π : V →ₗ[ℝ] V'} {R : σ → τ → Prop}
  {f : ℝ → V → Prog σ V} {f' : ℝ → V' → Prog τ V'}

theorem MapsTo.step (h : MapsTo A W π R f f') (t t' : ℝ) {y : V} (hy : y ∈ A) (s : Solver) :
    ProgRel R (fun z z' => z ∈ A ∧ z' = π z) (Solver.step f t t' y s) (Solver.step f' t t' (π y) s) := by
  have run' : ∀ t, ∀ y ∈ A, ∀ y' : V', y' = π y → ProgRel R (fun k k' => k ∈ W ∧ k' = π k) (f t y) (f' t y') := by
    intro t y hy y' e; rw [e]; exact h.run t y hy
  cases s with
  | euler =>
    refine (h.run _ y hy).bind fun k k' ⟨hk, e⟩ => ProgRel.pure ⟨h.add y hy _ (W.smul_mem _ hk), ?_⟩
    rw [e, map_add, map_smul]
  | midpoint =>
    refine (h.run _ y hy).bind fun k k' ⟨hk, e⟩ => ?_
    refine (run' _ _ (h.add y hy _ (W.smul_mem _ hk)) _ (by rw [e, map_add, map_smul])).bind fun l l' ⟨hl, e'⟩ => ?_
    exact ProgRel.pure ⟨h.add y hy _ (W.smul_mem _ hl), by rw [e', map_add, map_smul]⟩
  | rk4 =>
    refine (h.run _ y hy).bind fun k₁ k₁' ⟨m₁, e₁⟩ => ?_
    refine (run' _ _ (h.add y hy _ (W.smul_mem _ m₁)) _ (by rw [e₁, map_add, map_smul])).bind fun k₂ k₂' ⟨m₂, e₂⟩ => ?_
    refine (run' _ _ (h.add y hy _ (W.smul_mem _ (W.sub_mem m₂ (W.smul_mem (1 / 3 : ℝ) m₁)))) _
      (by rw [e₁, e₂, map_add, map_smul, map_sub, map_smul])).bind fun k₃ k₃' ⟨m₃, e₃⟩ => ?_
    refine (run' _ _ (h.add y hy _ (W.smul_mem _ (W.add_mem (W.sub_mem m₁ m₂) m₃))) _
      (by rw [e₁, e₂, e₃, map_add, map_smul, map_add, map_sub])).bind fun k₄ k₄' ⟨m₄, e₄⟩ => ?_
    refine ProgRel.pure ⟨h.add y hy _ (W.smul_mem _ (W.add_mem (W.add_mem m₁ (W.smul_mem _ (W.add_mem m₂ m₃))) m₄)), ?_⟩
    rw [e₁, e₂, e₃, e₄]
    simp only [map_add, map_smul]

theorem MapsTo.loop (h : MapsTo A W π R f f') (s : Solver) (t1 : ℝ) (it k : Nat) : ∀ (i : Nat) {y : V}, y ∈ A →
    ProgRel R (fun l l' => (∀ z ∈ l, z ∈ A) ∧ l' = l.map π) (odeLoop s f t1 it i k y) (odeLoop s f' t1 it i k (π y)) := by
  induction k with
  | zero =>
    intro i y hy
    exact ProgRel.pure ⟨fun z hz => by rw [List.mem_singleton.1 hz]; exact hy, rfl⟩
  | succ k ih =>
    intro i y hy
    rw [odeLoop, odeLoop]
    refine (h.step _ _ hy s).bind fun z z' ⟨hz, e⟩ => ?_
    subst e
    refine (ih (i + 1) hz).bind fun l l' ⟨hl, e⟩ => ProgRel.pure ⟨?_, by rw [e, List.map_cons]⟩
    intro x hx
    rcases List.mem_cons.1 hx with rfl | hx
    · exact hy
    · exact hl x hx

theorem MapsTo.odeint (h : MapsTo A W π R f f') (s : Solver) (t1 : ℝ) (it : Nat) {y : V} (hy : y ∈ A) :
    ProgRel R (fun l l' => (∀ z ∈ l, z ∈ A) ∧ l' = l.map π) (Imodal.odeint s f t1 it y) (Imodal.odeint s f' t1 it (π y)) := by
  intro w w' hw
  unfold Imodal.odeint
  split
  · exact Or.inr ⟨_, _, _, _, rfl, rfl⟩
  · exact h.loop s t1 it it 0 hy w w' hw

end
end Imodal
