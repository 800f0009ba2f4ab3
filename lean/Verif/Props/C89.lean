import Verif.Lemmas.ResumeShoot
import Verif.Model.Registration
/-!
# C89: a shooting can be interrupted and resumed
-/
set_option autoImplicit false
namespace Imodal
noncomputable section
variable {d : Nat}

/-- The controls of the whole and of the two parts; none when shooting from momenta. -/
def SplitArgument (s : Solver) (n m : Nat) : Option (List (Ctrl d)) → Option (List (Ctrl d)) → Option (List (Ctrl d)) → Prop
  | none, none, none => True
  | some c, some c₁, some c₂ => SplitControls s n m c c₁ c₂
  | _, _, _ => False

theorem shootOde_resume (s : Solver) {n m : Nat} (hn : 0 < n) (hm : 0 < m) (T : ℝ) {c c₁ c₂ : Option (List (Ctrl d))} (h : SplitArgument s n m c c₁ c₂)
    (ms : List (DefModule d)) :
    (∃ e, shootOde s (n + m) T c (.compound ms) = .error e ∧ shootOde s n (T * n / (n + m)) c₁ (.compound ms) = .error e)
    ∨ ∃ r₁, shootOde s n (T * n / (n + m)) c₁ (.compound ms) = .ok r₁ ∧
      ((∃ e, shootOde s (n + m) T c (.compound ms) = .error e ∧ shootOde s m (T * m / (n + m)) c₂ r₁.module = .error e)
      ∨ ∃ r r₂, shootOde s (n + m) T c (.compound ms) = .ok r ∧ shootOde s m (T * m / (n + m)) c₂ r₁.module = .ok r₂
        ∧ r.trajectory = (r₁.join r₂).trajectory ∧ (s ≠ .rk4 → r = r₁.join r₂) ∧ r₁.states.getLast? = r₂.states.head?) := by
  cases c with
  | none =>
    cases c₁ with
    | some c => exact h.elim
    | none =>
      cases c₂ with
      | some c => exact h.elim
      | none => exact shootMoments_resume s hn hm T ms
  | some c =>
    cases c₁ with
    | none => exact h.elim
    | some c₁ =>
      cases c₂ with
      | none => exact h.elim
      | some c₂ => exact shootControls_resume s hn hm T h ms

/-- Shooting `n + m` steps up to time `T` goes through the states, uses the controls and leaves the modules of a
shooting of `n` steps up to `T * n / (n + m)` followed by a shooting of `m` steps over the remaining time from the
modules as the first one left them. Exceptions are the same. -/
theorem C89_trajectory (s : Solver) {n m : Nat} (hn : 0 < n) (hm : 0 < m) (T : ℝ) {c c₁ c₂ : Option (List (Ctrl d))} (h : SplitArgument s n m c c₁ c₂)
    (ms : List (DefModule d)) :
    (shoot (.fixed s) (n + m) T c (.compound ms)).map (fun r => r.1.trajectory)
      = (shoot (.fixed s) n (T * n / (n + m)) c₁ (.compound ms)).bind fun r₁ =>
        (shoot (.fixed s) m (T * m / (n + m)) c₂ r₁.1.module).map fun r₂ => (r₁.1.join r₂.1).trajectory := by
  unfold shoot
  dsimp only
  obtain ⟨e, h1, h2⟩ | ⟨r₁, h1, ⟨e, h2, h3⟩ | ⟨r, r₂, h2, h3, h4, -, -⟩⟩ := shootOde_resume s hn hm T h ms
  · rw [h1, h2]; rfl
  · rw [h1, h2]; dsimp only [Except.bind]; rw [h3]; rfl
  · rw [h1, h2]
    dsimp only [Except.bind]
    rw [h3]
    exact congrArg Except.ok h4

/-- With `euler` and `midpoint` the costs are also those of the first part followed by those of the second. -/
theorem C89_costs {s : Solver} (hs : s ≠ .rk4) {n m : Nat} (hn : 0 < n) (hm : 0 < m) (T : ℝ) {c c₁ c₂ : Option (List (Ctrl d))}
    (h : SplitArgument s n m c c₁ c₂) (ms : List (DefModule d)) :
    shoot (.fixed s) (n + m) T c (.compound ms)
      = (shoot (.fixed s) n (T * n / (n + m)) c₁ (.compound ms)).bind fun r₁ =>
        (shoot (.fixed s) m (T * m / (n + m)) c₂ r₁.1.module).map fun r₂ => (r₁.1.join r₂.1, some (r₁.1.costs ++ r₂.1.costs)) := by
  unfold shoot
  dsimp only
  obtain ⟨e, h1, h2⟩ | ⟨r₁, h1, ⟨e, h2, h3⟩ | ⟨r, r₂, h2, h3, -, h4, -⟩⟩ := shootOde_resume s hn hm T h ms
  · rw [h1, h2]; rfl
  · rw [h1, h2]; dsimp only [Except.bind]; rw [h3]; rfl
  · rw [h1, h2]
    dsimp only [Except.bind]
    rw [h3, h4 hs]
    rfl

/-- In terms of results: if the long shooting succeeds, so do both parts; its states are those of the first part
followed by those of the second, the state where they meet listed once, and it ends where the second part ends. -/
theorem C89_states (s : Solver) {n m : Nat} (hn : 0 < n) (hm : 0 < m) (T : ℝ) {c c₁ c₂ : Option (List (Ctrl d))} (h : SplitArgument s n m c c₁ c₂)
    {ms : List (DefModule d)} {r : Shot d × Option (List ℝ)} (hr : shoot (.fixed s) (n + m) T c (.compound ms) = .ok r) :
    ∃ r₁ r₂, shoot (.fixed s) n (T * n / (n + m)) c₁ (.compound ms) = .ok r₁ ∧ shoot (.fixed s) m (T * m / (n + m)) c₂ r₁.1.module = .ok r₂
      ∧ r₁.1.states.getLast? = r₂.1.states.head? ∧ r.1.states = r₁.1.states.dropLast ++ r₂.1.states ∧ r.1.ctrls = r₁.1.ctrls ++ r₂.1.ctrls
      ∧ r.1.module = r₂.1.module := by
  unfold shoot at hr ⊢
  dsimp only at hr ⊢
  obtain ⟨e, h1, h2⟩ | ⟨r₁, h1, ⟨e, h2, h3⟩ | ⟨r', r₂, h2, h3, h4, -, h5⟩⟩ := shootOde_resume s hn hm T h ms
  · rw [h1] at hr; cases hr
  · rw [h2] at hr; cases hr
  · rw [h2] at hr
    cases hr
    rw [h1]
    refine ⟨_, (r₂, some r₂.costs), rfl, ?_, h5, congrArg (fun x => x.2.1) h4, congrArg (fun x => x.2.2) h4, congrArg (fun x => x.1) h4⟩
    dsimp only
    rw [h3]

/-! ### Examples -/

/-- Any controls for two steps of `euler` and for three further steps, one per step. -/
example (a b u v w : Ctrl d) : SplitArgument .euler 2 3 (some [a, b, u, v, w]) (some [a, b]) (some [u, v, w]) :=
  .inr ⟨rfl, .inl ⟨by decide, rfl, rfl⟩⟩
/-- One step of `rk4` and another, one control per evaluation. -/
example (a b u v a' b' u' v' : Ctrl d) : SplitArgument .rk4 1 1 (some [a, b, u, v, a', b', u', v']) (some [a, b, u, v]) (some [a', b', u', v']) :=
  .inr ⟨rfl, .inr (.inr ⟨rfl, rfl, rfl⟩)⟩
/-- The same control throughout, and shooting from momenta. -/
example (a : Ctrl d) (n m : Nat) (s : Solver) : SplitArgument s n m (some [a]) (some [a]) (some [a]) ∧ SplitArgument (d := d) s n m none none none :=
  ⟨.inl ⟨a, rfl, rfl, rfl⟩, trivial⟩

end
end Imodal
