import Verif.Lemmas.ShootCtrl
import Verif.Lemmas.RigidShoot
/-!
# Running a solver in two parts
-/
set_option autoImplicit false
namespace Imodal
noncomputable section

/-! ## Programs related in every step -/

/-- From states related by `R` both programs raise the same exception, or both return the same value and leave states
related by `R'`. -/
def Both {σ τ β : Type} (R R' : σ → τ → Prop) (p : Prog σ β) (p' : Prog τ β) : Prop :=
  ∀ w w', R w w' → (∃ e v v', p w = (.error e, v) ∧ p' w' = (.error e, v')) ∨ ∃ b v v', p w = (.ok b, v) ∧ p' w' = (.ok b, v') ∧ R' v v'

theorem Both.bind {σ τ β γ : Type} {R R' R'' : σ → τ → Prop} {p : Prog σ β} {p' : Prog τ β} {k : β → Prog σ γ} {k' : β → Prog τ γ}
    (h : Both R R' p p') (hk : ∀ b, Both R' R'' (k b) (k' b)) : Both R R'' (p >>= k) (p' >>= k') := by
  intro w w' hw
  rw [Prog.bind_run, Prog.bind_run]
  obtain ⟨e, v, v', h1, h2⟩ | ⟨b, v, v', h1, h2, h3⟩ := h w w' hw
  · exact .inl ⟨e, v, v', by rw [h1], by rw [h2]⟩
  · rw [h1, h2]; exact hk b v v' h3

theorem Both.pure {σ τ β : Type} {R : σ → τ → Prop} (b : β) : Both R R (Pure.pure b : Prog σ β) (Pure.pure b) :=
  fun w w' h => .inr ⟨b, w, w', rfl, rfl, h⟩

section
variable {σ τ V : Type} [AddCommGroup V] [Module ℝ V]

theorem both_step {R : Nat → σ → τ → Prop} {f : ℝ → V → Prog σ V} {f' : ℝ → V → Prog τ V} {s : Solver} {t t' u u' : ℝ} (hu : t' - t = u' - u) {k : Nat}
    (h : ∀ j < s.stages, ∀ x, Both (R (k + j)) (R (k + j + 1)) (f (s.stageTime t t' j) x) (f' (s.stageTime u u' j) x)) (y : V) :
    Both (R k) (R (k + s.stages)) (Solver.step f t t' y s) (Solver.step f' u u' y s) := by
  cases s with
  | euler => exact (h 0 (by decide) y).bind fun b => by rw [hu]; exact Both.pure _
  | midpoint =>
    refine (h 0 (by decide) y).bind fun b => ?_
    have h1 := h 1 (by decide) (y + (0.5 * (u' - u)) • b)
    dsimp only [Solver.stageTime] at h1
    rw [hu] at h1 ⊢
    exact h1.bind fun b' => Both.pure _
  | rk4 =>
    refine (h 0 (by decide) y).bind fun k₁ => ?_
    have h1 := h 1 (by decide) (y + ((u' - u) * (1 / 3)) • k₁)
    dsimp only [Solver.stageTime] at h1
    rw [hu] at h1 ⊢
    refine h1.bind fun k₂ => ?_
    have h2 := h 2 (by decide) (y + (u' - u) • (k₂ - (1 / 3 : ℝ) • k₁))
    dsimp only [Solver.stageTime] at h2
    rw [hu] at h2
    refine h2.bind fun k₃ => ?_
    exact (h 3 (by decide) (y + (u' - u) • (k₁ - k₂ + k₃))).bind fun k₄ => Both.pure _

theorem both_loop {R : Nat → σ → τ → Prop} {f : ℝ → V → Prog σ V} {f' : ℝ → V → Prog τ V} {s : Solver} {t1 u1 : ℝ} {it it' i₀ : Nat}
    (hu : t1 / it = u1 / it') {m : Nat}
    (h : ∀ i < m, ∀ j < s.stages, ∀ x, Both (R (s.stages * i + j)) (R (s.stages * i + j + 1))
      (f (s.stageTime (gridTime t1 it (i₀ + i)) (gridTime t1 it (i₀ + i + 1)) j) x) (f' (s.stageTime (gridTime u1 it' i) (gridTime u1 it' (i + 1)) j) x)) :
    ∀ k i, i + k = m → ∀ y : V, Both (R (s.stages * i)) (R (s.stages * m)) (odeLoop s f t1 it (i₀ + i) k y) (odeLoop s f' u1 it' i k y) := by
  intro k
  induction k with
  | zero => intro i hi y; rw [Nat.add_zero] at hi; subst hi; exact Both.pure _
  | succ k ih =>
    intro i hi y
    rw [odeLoop, odeLoop]
    refine (both_step (by rw [gridTime_step, gridTime_step, hu]) (h i (by omega)) y).bind fun y' => ?_
    have := ih (i + 1) (by omega) y'
    rw [Nat.mul_succ] at this
    exact this.bind fun l => Both.pure _

theorem odeLoop_append (s : Solver) (f : ℝ → V → Prog σ V) (t1 : ℝ) (it m : Nat) : ∀ (n i : Nat) (y : V),
    odeLoop s f t1 it i (n + m) y = odeLoop s f t1 it i n y >>= fun l => odeLoop s f t1 it (i + n) m (l.getLastD y) >>= fun l' => Pure.pure (l.dropLast ++ l') := by
  intro n
  induction n with
  | zero =>
    intro i y
    funext w
    rw [Nat.zero_add, odeLoop, Prog.bind_run, Prog.pure_run, Nat.add_zero]
    dsimp only
    rw [Prog.bind_run]
    rw [show [y].getLastD y = y from rfl]
    cases odeLoop s f t1 it i m y w with
    | mk r v => cases r <;> rfl
  | succ n ih =>
    intro i y
    rw [show n + 1 + m = n + m + 1 by omega, odeLoop, odeLoop]
    funext w
    simp only [Prog.bind_run]
    cases Solver.step f (gridTime t1 it i) (gridTime t1 it (i + 1)) y s w with
    | mk r v =>
      cases r with
      | error e => rfl
      | ok y' =>
        dsimp only
        rw [ih, show i + (n + 1) = i + 1 + n by omega]
        simp only [Prog.bind_run]
        cases hl : odeLoop s f t1 it (i + 1) n y' v with
        | mk r v' =>
          cases r with
          | error e => rfl
          | ok l =>
            dsimp only
            rw [Prog.pure_run]
            dsimp only
            have hne : l ≠ [] := by
              intro h0
              cases n with
              | zero => rw [odeLoop, Prog.pure_run] at hl; cases hl; cases h0
              | succ n =>
                rw [odeLoop] at hl
                obtain ⟨_, _, _, hl⟩ := bind_ok hl
                obtain ⟨_, _, _, hl⟩ := bind_ok hl
                rw [h0] at hl
                exact absurd (pure_ok hl).1 (List.cons_ne_nil _ _)
            have e1 : (y :: l).getLastD y = l.getLastD y' := by
              rw [List.getLastD_eq_getLast?, List.getLastD_eq_getLast?, List.getLast?_eq_some_getLast hne,
                List.getLast?_cons, List.getLast?_eq_some_getLast hne]; rfl
            rw [e1]
            cases odeLoop s f t1 it (i + 1 + n) m (l.getLastD y') v' with
            | mk r v'' =>
              cases r with
              | error e => rfl
              | ok l' =>
                show _ = (_, _)
                rw [List.dropLast_cons_of_ne_nil hne]
                rfl

theorem odeLoop_mem {W : Submodule ℝ V} {I : σ → Prop} {f : ℝ → V → Prog σ V}
    (h : ∀ t x w k w', I w → f t x w = (.ok k, w') → k ∈ W ∧ I w') (s : Solver) (t1 : ℝ) (it : Nat) : ∀ (n i : Nat) (y : V) (w w' : σ) (l : List V),
    I w → y ∈ W → odeLoop s f t1 it i n y w = (.ok l, w') → ∀ x ∈ l, x ∈ W := by
  intro n
  induction n with
  | zero =>
    intro i y w w' l _ hy hl x hx
    rw [odeLoop] at hl
    rw [← (pure_ok hl).1, List.mem_singleton] at hx
    exact hx ▸ hy
  | succ n ih =>
    intro i y w w' l hI hy hl x hx
    rw [odeLoop] at hl
    obtain ⟨y', w₁, h1, h2⟩ := bind_ok hl
    obtain ⟨r, w₂, h3, h4⟩ := bind_ok h2
    have hs : y' ∈ W ∧ I w₁ := by
      clear h2 h3 h4 hl
      have hadd : ∀ (c : ℝ) {k : V}, k ∈ W → y + c • k ∈ W := fun c k hk => W.add_mem hy (W.smul_mem _ hk)
      cases s with
      | euler =>
        obtain ⟨k, v, h1, h2⟩ := bind_ok h1
        obtain ⟨hk, hv⟩ := h _ _ _ _ _ hI h1
        obtain ⟨e, e'⟩ := pure_ok h2
        exact ⟨e ▸ hadd _ hk, e' ▸ hv⟩
      | midpoint =>
        obtain ⟨k, v, h1, h2⟩ := bind_ok h1
        obtain ⟨hk, hv⟩ := h _ _ _ _ _ hI h1
        obtain ⟨k', v', h1, h2⟩ := bind_ok h2
        obtain ⟨hk', hv'⟩ := h _ _ _ _ _ hv h1
        obtain ⟨e, e'⟩ := pure_ok h2
        exact ⟨e ▸ hadd _ hk', e' ▸ hv'⟩
      | rk4 =>
        obtain ⟨k₁, v₁, h1, h2⟩ := bind_ok h1
        obtain ⟨hk₁, hv₁⟩ := h _ _ _ _ _ hI h1
        obtain ⟨k₂, v₂, h1, h2⟩ := bind_ok h2
        obtain ⟨hk₂, hv₂⟩ := h _ _ _ _ _ hv₁ h1
        obtain ⟨k₃, v₃, h1, h2⟩ := bind_ok h2
        obtain ⟨hk₃, hv₃⟩ := h _ _ _ _ _ hv₂ h1
        obtain ⟨k₄, v₄, h1, h2⟩ := bind_ok h2
        obtain ⟨hk₄, hv₄⟩ := h _ _ _ _ _ hv₃ h1
        obtain ⟨e, e'⟩ := pure_ok h2
        refine ⟨e ▸ hadd _ ?_, e' ▸ hv₄⟩
        exact W.add_mem (W.add_mem hk₁ (W.smul_mem _ (W.add_mem hk₂ hk₃))) hk₄
    obtain ⟨e, -⟩ := pure_ok h4
    rw [← e] at hx
    obtain rfl | hx := List.mem_cons.1 hx
    · exact hy
    · exact ih _ _ _ _ _ hs.2 hs.1 h3 x hx
end

/-! ## Keeping the books -/

section
variable {d : Nat} {V : Type} [AddCommGroup V] [Module ℝ V]

/-- A callback that evaluates `E` and writes down the results as `forward_moments` and `forward_control` do. -/
structure Booked (I : GradObj d → Prop) (t1 : ℝ) (it : Nat) (f : ℝ → V → Prog (GradObj d) V) (E : ℝ → Nat → V → Py (DefModule d × V)) : Prop where
  run : ∀ t x g, I g → f t x g = match E t g.it x with
    | .error e => (.error e, g)
    | .ok r => (.ok r.2, g.after t1 it t r.1)
  keep : ∀ t x g r, I g → E t g.it x = .ok r → I (g.after t1 it t r.1)

/-- The books of a run that is at step `i₀` and of a run that has started there, `k` evaluations later. -/
def Books (s : Solver) (I I' : GradObj d → Prop) (i₀ off it' : Nat) (pre : List (Ctrl d)) (preC : List ℝ) (k : Nat) (g g' : GradObj d) : Prop :=
  I g ∧ I' g' ∧ g.it = off + k ∧ g'.it = k ∧ g.ctrls = pre ++ g'.ctrls ∧ (k ≠ 0 → g.module = g'.module ∧ g'.trueIt ≤ (it' : Int) - 1)
    ∧ (s ≠ .rk4 → g.costs = preC ++ g'.costs ∧ (k = 0 → i₀ = 0 ∨ g.trueIt ≠ i₀) ∧ (k ≠ 0 → g.trueIt = g'.trueIt + i₀))

theorem both_books {I I' : GradObj d → Prop} {t1 u1 : ℝ} {it it' i₀ off : Nat} {f f' : ℝ → V → Prog (GradObj d) V}
    {E E' : ℝ → Nat → V → Py (DefModule d × V)} (hB : Booked I t1 it f E) (hB' : Booked I' u1 it' f' E') (ht : t1 ≠ 0) (hu : u1 ≠ 0)
    (hit : i₀ + it' ≤ it) (s : Solver) (pre : List (Ctrl d)) (preC : List ℝ) {i j : Nat} (hi : i < it') (hj : j < s.stages) (x : V)
    (hE : E (s.stageTime (gridTime t1 it (i₀ + i)) (gridTime t1 it (i₀ + i + 1)) j) (off + (s.stages * i + j)) x
      = E' (s.stageTime (gridTime u1 it' i) (gridTime u1 it' (i + 1)) j) (s.stages * i + j) x) :
    Both (Books s I I' i₀ off it' pre preC (s.stages * i + j)) (Books s I I' i₀ off it' pre preC (s.stages * i + j + 1))
      (f (s.stageTime (gridTime t1 it (i₀ + i)) (gridTime t1 it (i₀ + i + 1)) j) x) (f' (s.stageTime (gridTime u1 it' i) (gridTime u1 it' (i + 1)) j) x) := by
  rintro g g' ⟨hI, hI', h1, h2, h3, h4, h5⟩
  rw [hB.run _ _ _ hI, hB'.run _ _ _ hI', h1, h2, hE]
  have hk := hB.keep (s.stageTime (gridTime t1 it (i₀ + i)) (gridTime t1 it (i₀ + i + 1)) j) x g
  have hk' := hB'.keep (s.stageTime (gridTime u1 it' i) (gridTime u1 it' (i + 1)) j) x g'
  rw [h1, hE] at hk
  rw [h2] at hk'
  cases hr : E' (s.stageTime (gridTime u1 it' i) (gridTime u1 it' (i + 1)) j) (s.stages * i + j) x with
  | error e => exact .inl ⟨e, g, g', rfl, rfl⟩
  | ok r =>
    refine .inr ⟨_, _, _, rfl, rfl, hk r hI hr, hk' r hI' hr, ?_, ?_, ?_, fun _ => ⟨rfl, min_le_right _ _⟩, fun hs => ?_⟩
    · show g.it + 1 = _
      omega
    · show g'.it + 1 = _
      omega
    · show g.ctrls ++ [r.1.controls] = pre ++ (g'.ctrls ++ [r.1.controls])
      rw [h3, List.append_assoc]
    obtain ⟨c1, c2, c3⟩ := h5 hs
    have hst : ∀ n i, s.stageIt n i j = i := fun n i => by cases s <;> first | rfl | exact absurd rfl hs
    have e1 : tToIt t1 it (s.stageTime (gridTime t1 it (i₀ + i)) (gridTime t1 it (i₀ + i + 1)) j) = (i₀ + i : Nat) := by
      rw [tToIt_stage ht (by omega) s hj, hst]
    have e2 : tToIt u1 it' (s.stageTime (gridTime u1 it' i) (gridTime u1 it' (i + 1)) j) = (i : Nat) := by
      rw [tToIt_stage hu hi s hj, hst]
    refine ⟨?_, fun h => absurd h (Nat.succ_ne_zero _), fun _ => ?_⟩
    · show (if addCost _ _ _ then _ else _) = preC ++ (if addCost _ _ _ then _ else _)
      have e3 : addCost g.trueIt (tToIt t1 it (s.stageTime (gridTime t1 it (i₀ + i)) (gridTime t1 it (i₀ + i + 1)) j))
            (s.stageTime (gridTime t1 it (i₀ + i)) (gridTime t1 it (i₀ + i + 1)) j)
          = addCost g'.trueIt (tToIt u1 it' (s.stageTime (gridTime u1 it' i) (gridTime u1 it' (i + 1)) j))
            (s.stageTime (gridTime u1 it' i) (gridTime u1 it' (i + 1)) j) := by
        have hz := stageTime_zero ht (show i₀ + i < it by omega) s hj
        have hz' := stageTime_zero hu hi s hj
        rw [e1, e2]
        by_cases hk0 : i = 0 ∧ j = 0
        · obtain ⟨rfl, rfl⟩ := hk0
          rw [addCost_true (.inr (hz'.2 ⟨rfl, rfl⟩))]
          refine addCost_true ?_
          obtain h | h := c2 (by simp)
          · exact .inr (hz.2 ⟨by omega, rfl⟩)
          · exact .inl (by simpa using h)
        · have hk1 : s.stages * i + j ≠ 0 := by
            intro h0
            have hpos : 0 < s.stages := by cases s <;> decide
            have := (Nat.add_eq_zero_iff.1 h0)
            rcases Nat.mul_eq_zero.1 this.1 with h | h
            · omega
            · exact hk0 ⟨h, this.2⟩
          have hz1 : ¬s.stageTime (gridTime t1 it (i₀ + i)) (gridTime t1 it (i₀ + i + 1)) j = 0 := fun h => hk0 ⟨by have := (hz.1 h).1; omega, (hz.1 h).2⟩
          have hz2 : ¬s.stageTime (gridTime u1 it' i) (gridTime u1 it' (i + 1)) j = 0 := fun h => hk0 (hz'.1 h)
          unfold addCost
          have := c3 hk1
          simp only [hz1, hz2, or_false, decide_eq_decide]
          rw [this]
          push_cast
          constructor <;> intro h h' <;> apply h <;> omega
      rw [e3, c1]
      split
      · rw [List.append_assoc]
      · rfl
    · show tToIt _ _ _ = tToIt _ _ _ + _
      rw [e1, e2]
      push_cast
      ring

/-- A run of `n + m` steps is a run of `n` steps followed by a run of `m` steps from where the first one ended. -/
theorem resume_run {I I' : GradObj d → Prop} {T T₁ T₂ : ℝ} {n m : Nat} {f f₁ f₂ : ℝ → V → Prog (GradObj d) V}
    {E E₁ E₂ : ℝ → Nat → V → Py (DefModule d × V)} (hB : Booked I T (n + m) f E) (hB₁ : Booked I T₁ n f₁ E₁) (hB₂ : Booked I' T₂ m f₂ E₂)
    (hT : T ≠ 0) (hn : 0 < n) (hm : 0 < m) (h₁ : T / ((n + m : Nat) : ℝ) = T₁ / n) (h₂ : T / ((n + m : Nat) : ℝ) = T₂ / m) (s : Solver)
    (hE₁ : ∀ i < n, ∀ j < s.stages, ∀ x, E (s.stageTime (gridTime T (n + m) i) (gridTime T (n + m) (i + 1)) j) (s.stages * i + j) x
      = E₁ (s.stageTime (gridTime T₁ n i) (gridTime T₁ n (i + 1)) j) (s.stages * i + j) x)
    (hE₂ : ∀ i < m, ∀ j < s.stages, ∀ x, E (s.stageTime (gridTime T (n + m) (n + i)) (gridTime T (n + m) (n + i + 1)) j) (s.stages * n + (s.stages * i + j)) x
      = E₂ (s.stageTime (gridTime T₂ m i) (gridTime T₂ m (i + 1)) j) (s.stages * i + j) x)
    {M : DefModule d} (hI : I (GradObj.init M)) (y : V) :
    (∃ e v v', odeint s f T (n + m) y (GradObj.init M) = (.error e, v) ∧ odeint s f₁ T₁ n y (GradObj.init M) = (.error e, v'))
    ∨ ∃ l g₁, odeint s f₁ T₁ n y (GradObj.init M) = (.ok l, g₁) ∧ I g₁ ∧ ∀ M₂, I' (GradObj.init M₂) →
      (∃ e v v', odeint s f T (n + m) y (GradObj.init M) = (.error e, v) ∧ odeint s f₂ T₂ m (l.getLastD y) (GradObj.init M₂) = (.error e, v'))
      ∨ ∃ l' g g₂, odeint s f T (n + m) y (GradObj.init M) = (.ok (l.dropLast ++ l'), g) ∧ odeint s f₂ T₂ m (l.getLastD y) (GradObj.init M₂) = (.ok l', g₂)
        ∧ g.module = g₂.module ∧ g.ctrls = g₁.ctrls ++ g₂.ctrls ∧ (s ≠ .rk4 → g.costs = g₁.costs ++ g₂.costs) := by
  have hnR : (n : ℝ) ≠ 0 := Nat.cast_ne_zero.2 (by omega)
  have hmR : (m : ℝ) ≠ 0 := Nat.cast_ne_zero.2 (by omega)
  have hnm : ((n + m : Nat) : ℝ) ≠ 0 := Nat.cast_ne_zero.2 (by omega)
  have hT₁ : T₁ ≠ 0 := fun h => by rw [h, zero_div, div_eq_zero_iff] at h₁; exact h₁.elim hT hnm
  have hT₂ : T₂ ≠ 0 := fun h => by rw [h, zero_div, div_eq_zero_iff] at h₂; exact h₂.elim hT hnm
  have hpos : 0 < s.stages := by cases s <;> decide
  unfold odeint
  simp only [hT, hT₁, hT₂, and_false, if_false]
  rw [odeLoop_append]
  simp only [Prog.bind_run]
  have r1 := both_loop (R := Books s I I 0 0 n [] []) (f := f) (f' := f₁) (s := s) (i₀ := 0) (it := n + m) h₁
    (fun i hi j hj x => both_books hB hB₁ hT hT₁ (by omega) s [] [] hi hj x (by rw [Nat.zero_add, Nat.zero_add]; exact hE₁ i hi j hj x)) n 0 (by omega) y
    (GradObj.init M) (GradObj.init M) ⟨hI, hI, rfl, rfl, rfl, fun h => absurd rfl h, fun _ => ⟨rfl, fun _ => .inl rfl, fun h => absurd rfl h⟩⟩
  obtain ⟨e, v, v', a1, a2⟩ | ⟨l, g, g₁, a1, a2, hI1, hI1', b1, b2, b3, b4, b5⟩ := r1
  · exact .inl ⟨e, v, v', by rw [a1], a2⟩
  refine .inr ⟨l, g₁, a2, hI1', fun M₂ hM₂ => ?_⟩
  rw [a1]
  dsimp only
  have hk0 : s.stages * n ≠ 0 := Nat.mul_ne_zero hpos.ne' hn.ne'
  have r2 := both_loop (R := Books s I I' n (s.stages * n) m g.ctrls g.costs) (f := f) (f' := f₂) (s := s) (i₀ := n) (it := n + m) h₂
    (fun i hi j hj x => both_books hB hB₂ hT hT₂ le_rfl s g.ctrls g.costs hi hj x (hE₂ i hi j hj x)) m 0 (by omega) (l.getLastD y)
    g (GradObj.init M₂) ⟨hI1, hM₂, by rw [b1, Nat.mul_zero, Nat.zero_add, Nat.add_zero], rfl, (List.append_nil _).symm, fun h => absurd rfl h,
      fun hs => ⟨(List.append_nil _).symm, fun _ => .inr ?_, fun h => absurd rfl h⟩⟩
  · rw [Nat.add_zero] at r2
    rw [Nat.zero_add]
    obtain ⟨e, v, v', c1, c2⟩ | ⟨l', g', g₂, c1, c2, -, -, d1, d2, d3, d4, d5⟩ := r2
    · exact .inl ⟨e, v, v', by rw [c1], c2⟩
    · refine .inr ⟨l', g', g₂, by rw [c1]; rfl, c2, (d4 (Nat.mul_ne_zero hpos.ne' hm.ne')).1, ?_, fun hs => ?_⟩
      · rw [d3, b3, List.nil_append]
      · rw [(d5 hs).1, (b5 hs).1, List.nil_append]
  · have q1 := (b5 hs).2.2 hk0
    have q2 := (b4 hk0).2
    push_cast at q1
    omega
end

end
end Imodal
