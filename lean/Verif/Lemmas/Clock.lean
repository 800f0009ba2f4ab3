import Verif.Lemmas.Flow
/-!
# When the solver evaluates its right-hand side
-/
set_option autoImplicit false
namespace Imodal
noncomputable section
variable {d : Nat} {V : Type} [AddCommGroup V] [Module ℝ V]

theorem gridTime_div {t1 : ℝ} (ht : t1 ≠ 0) {it : Nat} (hit : it ≠ 0) (i : Nat) (θ : ℝ) :
    (gridTime t1 it i + θ * (gridTime t1 it (i + 1) - gridTime t1 it i)) / (t1 / it) = i + θ := by
  have : (it : ℝ) ≠ 0 := Nat.cast_ne_zero.2 hit
  unfold gridTime
  field_simp
  push_cast
  ring

theorem gridTime_step (t1 : ℝ) (it i : Nat) : gridTime t1 it (i + 1) - gridTime t1 it i = t1 / it := by
  unfold gridTime
  push_cast
  ring

/-- Inside the interval `i` the iteration number is `i`. -/
theorem tToIt_inside {t1 : ℝ} (ht : t1 ≠ 0) {it i : Nat} (hi : i < it) {θ : ℝ} (h0 : 0 ≤ θ) (h1 : θ < 1) :
    tToIt t1 it (gridTime t1 it i + θ * (gridTime t1 it (i + 1) - gridTime t1 it i)) = i := by
  unfold tToIt
  rw [gridTime_div ht (by omega)]
  have : ⌊(i : ℝ) + θ⌋ = (i : Int) := by
    rw [Int.floor_eq_iff]
    push_cast
    constructor <;> linarith
  rw [this]
  omega

theorem tToIt_grid {t1 : ℝ} (ht : t1 ≠ 0) {it i : Nat} (hi : i < it) : tToIt t1 it (gridTime t1 it i) = i := by
  have := tToIt_inside ht hi le_rfl zero_lt_one
  rwa [zero_mul, add_zero] at this

/-- At the end of the interval `i` it is `i + 1`, except for the last interval. -/
theorem tToIt_end {t1 : ℝ} (ht : t1 ≠ 0) {it i : Nat} (hi : i < it) :
    tToIt t1 it (gridTime t1 it (i + 1)) = (min (i + 1) (it - 1) : Nat) := by
  by_cases h : i + 1 < it
  · rw [tToIt_grid ht h]; congr 1; omega
  · unfold tToIt
    have := gridTime_div ht (show it ≠ 0 by omega) i 1
    rw [show gridTime t1 it i + 1 * (gridTime t1 it (i + 1) - gridTime t1 it i) = gridTime t1 it (i + 1) by ring] at this
    rw [this]
    have : ⌊(i : ℝ) + 1⌋ = (i : Int) + 1 := by
      have := Int.floor_intCast (R := ℝ) ((i : Int) + 1)
      push_cast at this
      exact this
    rw [this]
    omega

theorem gridTime_zero (t1 : ℝ) (it : Nat) : gridTime t1 it 0 = 0 := by simp [gridTime]

/-- Apart from the beginning no evaluation happens at time zero. -/
theorem gridTime_ne_zero {t1 : ℝ} (ht : t1 ≠ 0) {it i : Nat} (hit : it ≠ 0) {θ : ℝ} (h : 0 < (i : ℝ) + θ) :
    gridTime t1 it i + θ * (gridTime t1 it (i + 1) - gridTime t1 it i) ≠ 0 := by
  intro h0
  have := gridTime_div ht hit i θ
  rw [h0, zero_div] at this
  linarith

/-- The number of evaluations of a step. -/
def Solver.stages : Solver → Nat
  | .euler => 1
  | .midpoint => 2
  | .rk4 => 4

/-- The times of the evaluations of a step. -/
def Solver.stageTime (t t' : ℝ) : Solver → Nat → ℝ
  | .euler, _ => t
  | .midpoint, 0 => t
  | .midpoint, _ => t + 0.5 * (t' - t)
  | .rk4, 0 => t
  | .rk4, 1 => t + (t' - t) * (1 / 3)
  | .rk4, 2 => t + (t' - t) * (2 / 3)
  | .rk4, _ => t'

/-- The iteration number at evaluation `j` of step `i`. -/
def Solver.stageIt (it i : Nat) : Solver → Nat → Nat
  | .rk4, 3 => min (i + 1) (it - 1)
  | _, _ => i

theorem tToIt_stage {t1 : ℝ} (ht : t1 ≠ 0) {it i : Nat} (hi : i < it) (s : Solver) {j : Nat} (hj : j < s.stages) :
    tToIt t1 it (s.stageTime (gridTime t1 it i) (gridTime t1 it (i + 1)) j) = (s.stageIt it i j : Nat) := by
  have third := tToIt_inside ht hi (θ := 1 / 3) (by norm_num) (by norm_num)
  have twothird := tToIt_inside ht hi (θ := 2 / 3) (by norm_num) (by norm_num)
  rw [mul_comm] at third twothird
  cases s with
  | euler => exact tToIt_grid ht hi
  | midpoint =>
    match j, hj with
    | 0, _ => exact tToIt_grid ht hi
    | 1, _ => exact tToIt_inside ht hi (by norm_num) (by norm_num)
  | rk4 =>
    match j, hj with
    | 0, _ => exact tToIt_grid ht hi
    | 1, _ => exact third
    | 2, _ => exact twothird
    | 3, _ => exact tToIt_end ht hi

/-- The only evaluation at time zero is the first. -/
theorem stageTime_zero {t1 : ℝ} (ht : t1 ≠ 0) {it i : Nat} (hi : i < it) (s : Solver) {j : Nat} (hj : j < s.stages) :
    s.stageTime (gridTime t1 it i) (gridTime t1 it (i + 1)) j = 0 ↔ i = 0 ∧ j = 0 := by
  have hit : it ≠ 0 := by omega
  have h0 : gridTime t1 it i = 0 ↔ i = 0 := by
    constructor
    · intro h
      by_contra hne
      have := gridTime_ne_zero ht hit (i := i) (θ := 0) (by rw [add_zero]; exact_mod_cast Nat.pos_of_ne_zero hne)
      rw [zero_mul, add_zero] at this
      exact this h
    · rintro rfl; exact gridTime_zero ..
  have hne : ∀ θ : ℝ, 0 < θ → gridTime t1 it i + θ * (gridTime t1 it (i + 1) - gridTime t1 it i) ≠ 0 := fun θ hθ =>
    gridTime_ne_zero ht hit (by positivity)
  have third := hne (1 / 3) (by norm_num)
  have twothird := hne (2 / 3) (by norm_num)
  rw [mul_comm] at third twothird
  cases s with
  | euler =>
    obtain rfl : j = 0 := by simp [Solver.stages] at hj; exact hj
    simpa [Solver.stageTime] using h0
  | midpoint =>
    match j, hj with
    | 0, _ => simpa [Solver.stageTime] using h0
    | 1, _ => exact ⟨fun h => absurd h (hne 0.5 (by norm_num)), fun h => absurd h.2 (by norm_num)⟩
  | rk4 =>
    match j, hj with
    | 0, _ => simpa [Solver.stageTime] using h0
    | 1, _ => exact ⟨fun h => absurd h third, fun h => absurd h.2 (by norm_num)⟩
    | 2, _ => exact ⟨fun h => absurd h twothird, fun h => absurd h.2 (by norm_num)⟩
    | 3, _ =>
      refine ⟨fun h => ?_, fun h => absurd h.2 (by norm_num)⟩
      have := hne 1 one_pos
      rw [one_mul, add_sub_cancel] at this
      exact absurd h this

/-! ## Right-hand sides that depend on the time and on the number of the evaluation -/

/-- A right-hand side counting its evaluations. -/
def countRhs (Y : ℝ → Nat → V → Py V) : ℝ → V → Prog Nat V := fun t x n =>
  match Y t n x with
  | .error e => (.error e, n)
  | .ok k => (.ok k, n + 1)

/-- One step, the evaluation `j` using `Y j`. -/
def stepWith (s : Solver) (Y : Nat → V → Py V) (h : ℝ) (y : V) : Py V :=
  match s with
  | .euler => (Y 0 y).map fun k => y + h • k
  | .midpoint => (Y 0 y).bind fun k => (Y 1 (y + (0.5 * h) • k)).map fun k' => y + h • k'
  | .rk4 => (Y 0 y).bind fun k₁ => (Y 1 (y + (h * (1 / 3)) • k₁)).bind fun k₂ =>
      (Y 2 (y + h • (k₂ - (1 / 3 : ℝ) • k₁))).bind fun k₃ => (Y 3 (y + h • (k₁ - k₂ + k₃))).map fun k₄ =>
        y + (h * 0.125) • (k₁ + (3 : ℝ) • (k₂ + k₃) + k₄)

theorem step_count (s : Solver) (Y : ℝ → Nat → V → Py V) (t t' : ℝ) (y : V) (n : Nat) :
    match stepWith s (fun j => Y (s.stageTime t t' j) (n + j)) (t' - t) y with
    | .error e => (Solver.step (countRhs Y) t t' y s n).1 = .error e
    | .ok y' => Solver.step (countRhs Y) t t' y s n = (.ok y', n + s.stages) := by
  cases s with
  | euler =>
    rw [stepWith, Solver.step, Prog.bind_run, countRhs]
    simp only [Solver.stageTime, add_zero, Solver.stages]
    cases Y t n y with
    | error e => rfl
    | ok k => rfl
  | midpoint =>
    rw [stepWith, Solver.step, Prog.bind_run, countRhs]
    simp only [Solver.stageTime, add_zero, Solver.stages]
    cases Y t n y with
    | error e => rfl
    | ok k =>
      dsimp only [Except.bind]
      rw [Prog.bind_run, countRhs]
      cases Y (t + 0.5 * (t' - t)) (n + 1) (y + (0.5 * (t' - t)) • k) with
      | error e => rfl
      | ok k => rfl
  | rk4 =>
    rw [stepWith, Solver.step, Prog.bind_run, countRhs]
    simp only [Solver.stageTime, add_zero, Solver.stages]
    cases Y t n y with
    | error e => rfl
    | ok k₁ =>
      dsimp only [Except.bind]
      rw [Prog.bind_run, countRhs]
      cases Y (t + (t' - t) * (1 / 3)) (n + 1) (y + ((t' - t) * (1 / 3)) • k₁) with
      | error e => rfl
      | ok k₂ =>
        dsimp only [Except.bind]
        rw [Prog.bind_run, countRhs]
        cases Y (t + (t' - t) * (2 / 3)) (n + 1 + 1) (y + (t' - t) • (k₂ - (1 / 3 : ℝ) • k₁)) with
        | error e => rfl
        | ok k₃ =>
          dsimp only [Except.bind]
          rw [Prog.bind_run, countRhs]
          cases Y t' (n + 1 + 1 + 1) (y + (t' - t) • (k₁ - k₂ + k₃)) with
          | error e => rfl
          | ok k₄ => rfl

/-- The values at the remaining grid points, step `i` using `Y i j` for its evaluation `j`. -/
def orbitWith (s : Solver) (Y : Nat → Nat → V → Py V) (h : ℝ) : Nat → Nat → V → Py (List V)
  | _, 0, y => .ok [y]
  | i, k + 1, y =>
    match stepWith s (Y i) h y with
    | .error e => .error e
    | .ok y' =>
      match orbitWith s Y h (i + 1) k y' with
      | .error e => .error e
      | .ok l => .ok (y :: l)

theorem loop_count (s : Solver) (Y : ℝ → Nat → V → Py V) (t1 : ℝ) (it k : Nat) : ∀ i (y : V),
    match orbitWith s (fun i j => Y (s.stageTime (gridTime t1 it i) (gridTime t1 it (i + 1)) j) (s.stages * i + j)) (t1 / it) i k y with
    | .error e => (odeLoop s (countRhs Y) t1 it i k y (s.stages * i)).1 = .error e
    | .ok l => odeLoop s (countRhs Y) t1 it i k y (s.stages * i) = (.ok l, s.stages * (i + k)) := by
  induction k with
  | zero => intro i y; rfl
  | succ k ih =>
    intro i y
    have h1 := step_count s Y (gridTime t1 it i) (gridTime t1 it (i + 1)) y (s.stages * i)
    rw [gridTime_step] at h1
    rw [orbitWith, odeLoop, Prog.bind_run]
    cases h2 : stepWith s (fun j => Y (s.stageTime (gridTime t1 it i) (gridTime t1 it (i + 1)) j) (s.stages * i + j)) (t1 / it) y with
    | error e =>
      rw [h2] at h1
      dsimp only at h1 ⊢
      cases h3 : Solver.step (countRhs Y) (gridTime t1 it i) (gridTime t1 it (i + 1)) y s (s.stages * i) with
      | mk a b => rw [h3] at h1; dsimp only at h1; subst h1; rfl
    | ok y' =>
      rw [h2] at h1
      dsimp only at h1 ⊢
      rw [h1]
      dsimp only
      have h3 := ih (i + 1) y'
      rw [show s.stages * (i + 1) = s.stages * i + s.stages by ring] at h3
      rw [Prog.bind_run]
      cases h4 : orbitWith s (fun i j => Y (s.stageTime (gridTime t1 it i) (gridTime t1 it (i + 1)) j) (s.stages * i + j)) (t1 / it) (i + 1) k y' with
      | error e =>
        rw [h4] at h3
        dsimp only at h3 ⊢
        cases h5 : odeLoop s (countRhs Y) t1 it (i + 1) k y' (s.stages * i + s.stages) with
        | mk a b => rw [h5] at h3; dsimp only at h3; subst h3; rfl
      | ok l =>
        rw [h4] at h3
        dsimp only at h3 ⊢
        rw [h3]
        simp only [Prog.pure_run]
        rw [show i + 1 + k = i + (k + 1) by omega]

theorem orbitWith_steps {s : Solver} {Y : Nat → Nat → V → Py V} {h : ℝ} {k : Nat} :
    ∀ {i : Nat} {y : V} {l : List V}, orbitWith s Y h i k y = .ok l →
      l.length = k + 1 ∧ l[0]? = some y ∧
      ∀ j < k, ∃ a b, l[j]? = some a ∧ l[j + 1]? = some b ∧ stepWith s (Y (i + j)) h a = .ok b := by
  induction k with
  | zero =>
    intro i y l h
    cases h
    exact ⟨rfl, rfl, fun j hj => absurd hj (by omega)⟩
  | succ k ih =>
    intro i y l hl
    rw [orbitWith] at hl
    cases h1 : stepWith s (Y i) h y with
    | error e => rw [h1] at hl; cases hl
    | ok y' =>
      rw [h1] at hl
      dsimp only at hl
      cases h2 : orbitWith s Y h (i + 1) k y' with
      | error e => rw [h2] at hl; cases hl
      | ok r =>
        rw [h2] at hl
        cases hl
        obtain ⟨a, b, c⟩ := ih h2
        refine ⟨by simp [a], rfl, fun j hj => ?_⟩
        cases j with
        | zero => exact ⟨y, y', rfl, by simpa using b, h1⟩
        | succ j =>
          obtain ⟨u, v, e1, e2, e3⟩ := c j (by omega)
          refine ⟨u, v, by simpa using e1, by simpa using e2, ?_⟩
          rw [show i + (j + 1) = i + 1 + j by omega]; exact e3

theorem stepWith_const (s : Solver) (X : V → Py V) (t t' : ℝ) (y : V) : stepWith s (fun _ => X) (t' - t) y = stepOf s X t t' y := by
  cases s with
  | euler => rw [stepOf_euler]; rfl
  | midpoint => rw [stepOf_midpoint]; rfl
  | rk4 => rw [stepOf_rk4]; rfl

/-! ## The costs recorded -/

/-- A callback that keeps the books as `forward_moments` and `forward_control` do, `C t x n` being
the cost it would record at evaluation `n` and `Y t n x` what it returns. -/
structure Clocked (I : GradObj d → Prop) (t1 : ℝ) (it : Nat) (f : ℝ → V → Prog (GradObj d) V) (Y : ℝ → Nat → V → Py V)
    (C : ℝ → V → Nat → ℝ → Prop) : Prop where
  run : ∀ t x g k g', I g → f t x g = (.ok k, g') → I g' ∧ g'.it = g.it + 1 ∧ g'.trueIt = tToIt t1 it t ∧
    Y t g.it x = .ok k ∧ ∃ c, C t x g.it c ∧ g'.costs = if addCost g.trueIt (tToIt t1 it t) t then g.costs ++ [c] else g.costs

theorem bind_ok {σ β γ : Type} {p : Prog σ β} {k : β → Prog σ γ} {w w' : σ} {c : γ} (h : (p >>= k) w = (.ok c, w')) :
    ∃ b w₁, p w = (.ok b, w₁) ∧ k b w₁ = (.ok c, w') := by
  rw [Prog.bind_run] at h
  cases hp : p w with
  | mk r w₁ =>
    rw [hp] at h
    cases r with
    | error e => cases h
    | ok b => exact ⟨b, w₁, rfl, h⟩

theorem pure_ok {σ β : Type} {b c : β} {w w' : σ} (h : (Pure.pure b : Prog σ β) w = (.ok c, w')) : b = c ∧ w = w' := by
  rw [Prog.pure_run] at h
  cases h
  exact ⟨rfl, rfl⟩

theorem addCost_true {prev cur : Int} {t : ℝ} (h : prev ≠ cur ∨ t = 0) : addCost prev cur t = true := by
  simp [addCost, h]
theorem addCost_false {prev cur : Int} {t : ℝ} (h : prev = cur) (h' : t ≠ 0) : addCost prev cur t = false := by
  simp [addCost, h, h']

/-- One step of `euler` or `midpoint` records the cost at its beginning. -/
theorem Clocked.step_first {I : GradObj d → Prop} {t1 : ℝ} {it : Nat} {f : ℝ → V → Prog (GradObj d) V} {Y : ℝ → Nat → V → Py V}
    {C : ℝ → V → Nat → ℝ → Prop} (hf : Clocked I t1 it f Y C) (ht : t1 ≠ 0) {s : Solver} (hs : s ≠ .rk4) {i : Nat} (hi : i < it) {y y' : V} {g g' : GradObj d}
    (hI : I g) (hprev : i = 0 ∨ g.trueIt ≠ i)
    (h : Solver.step f (gridTime t1 it i) (gridTime t1 it (i + 1)) y s g = (.ok y', g')) :
    I g' ∧ g'.it = g.it + s.stages ∧ g'.trueIt = i ∧ ∃ c, C (gridTime t1 it i) y g.it c ∧ g'.costs = g.costs ++ [c] := by
  have h0 : g.trueIt ≠ tToIt t1 it (gridTime t1 it i) ∨ gridTime t1 it i = 0 := by
    rw [tToIt_grid ht hi]
    rcases hprev with rfl | h
    · exact Or.inr (gridTime_zero ..)
    · exact Or.inl h
  cases s with
  | rk4 => exact absurd rfl hs
  | euler =>
    rw [Solver.step] at h
    obtain ⟨k, g₁, e1, e2⟩ := bind_ok h
    obtain ⟨-, rfl⟩ := pure_ok e2
    obtain ⟨a, b, c, -, x, cx, e⟩ := hf.run _ _ _ _ _ hI e1
    rw [addCost_true h0] at e
    exact ⟨a, b, by rw [c, tToIt_grid ht hi], x, cx, e⟩
  | midpoint =>
    rw [Solver.step] at h
    obtain ⟨k, g₁, e1, e2⟩ := bind_ok h
    obtain ⟨k', g₂, e3, e4⟩ := bind_ok e2
    obtain ⟨-, rfl⟩ := pure_ok e4
    obtain ⟨a, b, c, -, x, cx, e⟩ := hf.run _ _ _ _ _ hI e1
    rw [addCost_true h0] at e
    obtain ⟨a', b', c', -, x', cx', e'⟩ := hf.run _ _ _ _ _ a e3
    have hin : tToIt t1 it (gridTime t1 it i + 0.5 * (gridTime t1 it (i + 1) - gridTime t1 it i)) = i :=
      tToIt_inside ht hi (by norm_num) (by norm_num)
    rw [addCost_false (by rw [c, tToIt_grid ht hi, hin])
      (gridTime_ne_zero ht (by omega) (by positivity))] at e'
    exact ⟨a', by rw [b', b]; rfl, by rw [c', hin], x, cx, by rw [e', if_neg (by simp), e, if_pos rfl]⟩

/-- The costs of the steps of `euler` and `midpoint`. -/
theorem Clocked.loop_first {I : GradObj d → Prop} {t1 : ℝ} {it : Nat} {f : ℝ → V → Prog (GradObj d) V} {Y : ℝ → Nat → V → Py V}
    {C : ℝ → V → Nat → ℝ → Prop} (hf : Clocked I t1 it f Y C) (ht : t1 ≠ 0) {s : Solver} (hs : s ≠ .rk4) {k : Nat} :
    ∀ {i : Nat} {y : V} {g g' : GradObj d} {xs : List V}, i + k = it → I g → (i = 0 ∨ g.trueIt ≠ i) →
      odeLoop s f t1 it i k y g = (.ok xs, g') →
      g'.it = g.it + s.stages * k ∧ ∃ cs, g'.costs = g.costs ++ cs ∧ cs.length = k ∧
        ∀ j < k, ∃ x c, xs[j]? = some x ∧ cs[j]? = some c ∧ C (gridTime t1 it (i + j)) x (g.it + s.stages * j) c := by
  induction k with
  | zero =>
    intro i y g g' xs _ _ _ h
    rw [odeLoop] at h
    obtain ⟨-, rfl⟩ := pure_ok h
    exact ⟨by simp, [], by simp, rfl, fun j hj => absurd hj (by omega)⟩
  | succ k ih =>
    intro i y g g' xs hik hI hprev h
    rw [odeLoop] at h
    obtain ⟨y', g₁, e1, e2⟩ := bind_ok h
    obtain ⟨l, g₂, e3, e4⟩ := bind_ok e2
    obtain ⟨rfl, rfl⟩ := pure_ok e4
    obtain ⟨a, b, c, x, cx, e⟩ := hf.step_first ht hs (show i < it by omega) hI hprev e1
    obtain ⟨b', cs, e', hl, hc⟩ := ih (by omega) a (Or.inr (by rw [c]; push_cast; omega)) e3
    refine ⟨by rw [b', b]; ring, x :: cs, by rw [e', e]; simp, by simp [hl], fun j hj => ?_⟩
    cases j with
    | zero => exact ⟨y, x, rfl, rfl, by simpa using cx⟩
    | succ j =>
      obtain ⟨u, v, q1, q2, q3⟩ := hc j (by omega)
      refine ⟨u, v, by simpa using q1, by simpa using q2, ?_⟩
      rw [show i + (j + 1) = i + 1 + j by omega, show g.it + s.stages * (j + 1) = g₁.it + s.stages * j by rw [b]; ring]
      exact q3

/-- The point `y + h (k₁ - k₂ + k₃)` at which `rk4` evaluates at the end of a step. -/
def rk4End (Y : Nat → V → Py V) (h : ℝ) (y : V) : Py V :=
  (Y 0 y).bind fun k₁ => (Y 1 (y + (h * (1 / 3)) • k₁)).bind fun k₂ =>
    (Y 2 (y + h • (k₂ - (1 / 3 : ℝ) • k₁))).map fun k₃ => y + h • (k₁ - k₂ + k₃)

/-- One step of `rk4` records the cost at its beginning if it is the first, and the cost at its end
if it is not the last. -/
theorem Clocked.step_rk4 {I : GradObj d → Prop} {t1 : ℝ} {it : Nat} {f : ℝ → V → Prog (GradObj d) V} {Y : ℝ → Nat → V → Py V}
    {C : ℝ → V → Nat → ℝ → Prop} (hf : Clocked I t1 it f Y C) (ht : t1 ≠ 0) {i : Nat} (hi : i < it) {y y' : V} {g g' : GradObj d}
    (hI : I g) (hprev : i = 0 ∨ g.trueIt = i)
    (h : Solver.step f (gridTime t1 it i) (gridTime t1 it (i + 1)) y .rk4 g = (.ok y', g')) :
    I g' ∧ g'.it = g.it + 4 ∧ g'.trueIt = (min (i + 1) (it - 1) : Nat) ∧ ∃ c x' c', C (gridTime t1 it i) y g.it c ∧
      C (gridTime t1 it (i + 1)) x' (g.it + 3) c' ∧
      rk4End (fun j => Y (Solver.rk4.stageTime (gridTime t1 it i) (gridTime t1 it (i + 1)) j) (g.it + j)) (t1 / it) y = .ok x' ∧
      g'.costs = g.costs ++ ((if i = 0 then [c] else []) ++ if i + 1 < it then [c'] else []) := by
  have hit : it ≠ 0 := by omega
  rw [Solver.step] at h
  obtain ⟨k₁, g₁, e1, e2⟩ := bind_ok h
  obtain ⟨k₂, g₂, e3, e4⟩ := bind_ok e2
  obtain ⟨k₃, g₃, e5, e6⟩ := bind_ok e4
  obtain ⟨k₄, g₄, e7, e8⟩ := bind_ok e6
  obtain ⟨-, rfl⟩ := pure_ok e8
  have third := tToIt_inside ht hi (θ := 1 / 3) (by norm_num) (by norm_num)
  have twothird := tToIt_inside ht hi (θ := 2 / 3) (by norm_num) (by norm_num)
  have third' := gridTime_ne_zero ht hit (i := i) (θ := 1 / 3) (by positivity)
  have twothird' := gridTime_ne_zero ht hit (i := i) (θ := 2 / 3) (by positivity)
  have one' := gridTime_ne_zero ht hit (i := i) (θ := 1) (by positivity)
  rw [mul_comm] at third twothird third' twothird'
  rw [one_mul, add_sub_cancel] at one'
  obtain ⟨a₁, b₁, c₁, v₁, x₁, cx₁, q₁⟩ := hf.run _ _ _ _ _ hI e1
  obtain ⟨a₂, b₂, c₂, v₂, x₂, cx₂, q₂⟩ := hf.run _ _ _ _ _ a₁ e3
  obtain ⟨a₃, b₃, c₃, v₃, x₃, cx₃, q₃⟩ := hf.run _ _ _ _ _ a₂ e5
  obtain ⟨a₄, b₄, c₄, v₄, x₄, cx₄, q₄⟩ := hf.run _ _ _ _ _ a₃ e7
  rw [tToIt_grid ht hi] at c₁ q₁
  rw [third] at c₂ q₂
  rw [twothird] at c₃ q₃
  rw [tToIt_end ht hi] at c₄ q₄
  rw [addCost_false (by rw [c₁]) third'] at q₂
  rw [addCost_false (by rw [c₂]) twothird'] at q₃
  simp only [Bool.false_eq_true, if_false] at q₂ q₃
  refine ⟨a₄, by omega, c₄, x₁, _, x₄, cx₁, by rw [show g.it + 3 = g₃.it by omega]; exact cx₄, ?_, ?_⟩
  · rw [gridTime_step] at v₂ v₃
    rw [b₁] at v₂
    rw [b₂, b₁] at v₃
    simp only [rk4End, Solver.stageTime, add_zero, gridTime_step]
    rw [v₁]
    dsimp only [Except.bind]
    rw [v₂]
    dsimp only [Except.bind]
    rw [v₃]
    rfl
  have hq1 : g₁.costs = g.costs ++ if i = 0 then [x₁] else [] := by
    rw [q₁]
    by_cases h0 : i = 0
    · subst h0
      rw [addCost_true (Or.inr (gridTime_zero ..)), if_pos rfl, if_pos rfl]
    · have hne := gridTime_ne_zero ht hit (i := i) (θ := 0) (by rw [add_zero]; exact_mod_cast Nat.pos_of_ne_zero h0)
      rw [zero_mul, add_zero] at hne
      rw [addCost_false (hprev.resolve_left h0) hne, if_neg (by simp), if_neg h0, List.append_nil]
  rw [q₄, q₃, q₂, hq1]
  by_cases hl : i + 1 < it
  · rw [addCost_true (Or.inl (by rw [c₃]; norm_cast; omega)), if_pos rfl, if_pos hl, List.append_assoc]
  · rw [addCost_false (by rw [c₃]; norm_cast; omega) one', if_neg (by simp), if_neg hl, List.append_nil]

/-- The costs of the remaining steps of `rk4`, the first being over. -/
theorem Clocked.loop_rk4 {I : GradObj d → Prop} {t1 : ℝ} {it : Nat} {f : ℝ → V → Prog (GradObj d) V} {Y : ℝ → Nat → V → Py V}
    {C : ℝ → V → Nat → ℝ → Prop} (hf : Clocked I t1 it f Y C) (ht : t1 ≠ 0) {k : Nat} :
    ∀ {i : Nat} {y : V} {g g' : GradObj d} {xs : List V}, i + k = it → 0 < i → I g → (k = 0 ∨ g.trueIt = i) →
      odeLoop .rk4 f t1 it i k y g = (.ok xs, g') →
      g'.it = g.it + 4 * k ∧ ∃ cs, g'.costs = g.costs ++ cs ∧ cs.length = k - 1 ∧
        ∀ j < k - 1, ∃ y x c, xs[j]? = some y ∧ cs[j]? = some c ∧ C (gridTime t1 it (i + j + 1)) x (g.it + 4 * j + 3) c ∧
          rk4End (fun l => Y (Solver.rk4.stageTime (gridTime t1 it (i + j)) (gridTime t1 it (i + j + 1)) l) (g.it + 4 * j + l)) (t1 / it) y = .ok x := by
  induction k with
  | zero =>
    intro i y g g' xs _ _ _ _ h
    rw [odeLoop] at h
    obtain ⟨-, rfl⟩ := pure_ok h
    exact ⟨by simp, [], by simp, rfl, fun j hj => absurd hj (by omega)⟩
  | succ k ih =>
    intro i y g g' xs hik hpos hI hprev h
    rw [odeLoop] at h
    obtain ⟨y', g₁, e1, e2⟩ := bind_ok h
    obtain ⟨l, g₂, e3, e4⟩ := bind_ok e2
    obtain ⟨rfl, rfl⟩ := pure_ok e4
    obtain ⟨a, b, c, x, x', c', cx, cx', pr, e⟩ := hf.step_rk4 ht (show i < it by omega) hI (Or.inr (hprev.resolve_left (by omega))) e1
    rw [if_neg (by omega), List.nil_append] at e
    have hp' : k = 0 ∨ g₁.trueIt = ((i + 1 : Nat) : Int) := by
      rcases Nat.eq_zero_or_pos k with h | h
      · exact Or.inl h
      · exact Or.inr (by rw [c]; congr 1; omega)
    obtain ⟨b', cs, e', hl, hc⟩ := ih (by omega) (by omega) a hp' e3
    by_cases hk : k = 0
    · subst hk
      rw [if_neg (by omega), List.append_nil] at e
      refine ⟨by rw [b', b], cs, by rw [e', e], by omega, fun j hj => absurd hj (by omega)⟩
    · rw [if_pos (by omega)] at e
      refine ⟨by rw [b', b]; ring, c' :: cs, by rw [e', e]; simp, by simp [hl]; omega, fun j hj => ?_⟩
      cases j with
      | zero => exact ⟨y, x', c', rfl, rfl, by simpa using cx', by simpa using pr⟩
      | succ j =>
        obtain ⟨w, u, v, q0, q1, q2, q3⟩ := hc j (by omega)
        refine ⟨w, u, v, by simpa using q0, by simpa using q1, ?_, ?_⟩
        · rw [show i + (j + 1) + 1 = i + 1 + j + 1 by omega, show g.it + 4 * (j + 1) + 3 = g₁.it + 4 * j + 3 by rw [b]; ring]
          exact q2
        · rw [show i + (j + 1) = i + 1 + j by omega, show g.it + 4 * (j + 1) = g₁.it + 4 * j by rw [b]; ring]
          exact q3

/-- `it` costs are recorded, cost `j` at time `j`. -/
theorem Clocked.odeint {I : GradObj d → Prop} {t1 : ℝ} {it : Nat} {f : ℝ → V → Prog (GradObj d) V} {Y : ℝ → Nat → V → Py V}
    {C : ℝ → V → Nat → ℝ → Prop} (hf : Clocked I t1 it f Y C) {s : Solver} {y : V} {g g' : GradObj d} {xs : List V} (hI : I g)
    (h : odeint s f t1 it y g = (.ok xs, g')) :
    g'.it = g.it + s.stages * it ∧ ∃ cs, g'.costs = g.costs ++ cs ∧ cs.length = it ∧
      ∀ j < it, ∃ x n c, cs[j]? = some c ∧ C (gridTime t1 it j) x n c ∧
        (s ≠ .rk4 ∨ j = 0 → xs[j]? = some x ∧ n = g.it + s.stages * j) ∧ (s = .rk4 → ∀ i, j = i + 1 → n = g.it + 4 * i + 3 ∧
          ∃ y, xs[i]? = some y ∧
          rk4End (fun l => Y (Solver.rk4.stageTime (gridTime t1 it i) (gridTime t1 it (i + 1)) l) (g.it + 4 * i + l)) (t1 / it) y = .ok x) := by
  unfold Imodal.odeint at h
  split at h
  · cases h
  · next hne =>
    by_cases hit : it = 0
    · subst hit
      rw [odeLoop] at h
      obtain ⟨-, rfl⟩ := pure_ok h
      exact ⟨by simp, [], by simp, rfl, fun j hj => absurd hj (by omega)⟩
    have ht : t1 ≠ 0 := fun h0 => hne ⟨hit, h0⟩
    by_cases hs : s = .rk4
    · subst hs
      obtain ⟨k, hk⟩ : ∃ k, it = k + 1 := ⟨it - 1, by omega⟩
      rw [show odeLoop .rk4 f t1 it 0 it y g = odeLoop .rk4 f t1 it 0 (k + 1) y g by rw [← hk], odeLoop] at h
      obtain ⟨y', g₁, e1, e2⟩ := bind_ok h
      obtain ⟨l, g₂, e3, e4⟩ := bind_ok e2
      obtain ⟨rfl, rfl⟩ := pure_ok e4
      obtain ⟨a, b, c, x, x', c', cx, cx', pr, e⟩ := hf.step_rk4 ht (show 0 < it by omega) hI (Or.inl rfl) e1
      rw [if_pos rfl] at e
      have hp' : k = 0 ∨ g₁.trueIt = ((0 + 1 : Nat) : Int) := by
        rcases Nat.eq_zero_or_pos k with h | h
        · exact Or.inl h
        · exact Or.inr (by rw [c]; congr 1; omega)
      obtain ⟨b', cs, e', hl, hc⟩ := hf.loop_rk4 ht (show 0 + 1 + k = it by omega) (by omega) a hp' e3
      refine ⟨by rw [b', b, hk]; simp only [Solver.stages]; ring, [x] ++ (if 0 + 1 < it then [c'] else []) ++ cs, by rw [e', e, List.append_assoc], ?_, fun j hj => ?_⟩
      · split <;> simp [hl] <;> omega
      · cases j with
        | zero => exact ⟨y, _, x, by simp, cx, fun _ => ⟨rfl, by simp⟩, fun _ i h => absurd h (by omega)⟩
        | succ j =>
          rw [if_pos (by omega)]
          cases j with
          | zero =>
            refine ⟨x', _, c', by simp, cx', fun h => by simp at h, fun _ i hi => ?_⟩
            obtain rfl : i = 0 := by omega
            exact ⟨by ring, y, rfl, by simpa using pr⟩
          | succ j =>
            obtain ⟨w, u, v, q0, q1, q2, q3⟩ := hc j (by omega)
            refine ⟨u, g₁.it + 4 * j + 3, v, by simpa using q1, ?_, fun h => by simp at h, fun _ i hi => ?_⟩
            · rw [show 0 + 1 + j + 1 = j + 1 + 1 by omega] at q2; exact q2
            · obtain rfl : i = j + 1 := by omega
              refine ⟨by rw [b]; ring, w, by simpa using q0, ?_⟩
              rw [show g.it + 4 * (j + 1) = g₁.it + 4 * j by rw [b]; ring]
              rw [show 0 + 1 + j = j + 1 by omega] at q3; exact q3
    · obtain ⟨b, cs, e, hl, hc⟩ := hf.loop_first ht hs (Nat.zero_add it) hI (Or.inl rfl) h
      refine ⟨b, cs, e, hl, fun j hj => ?_⟩
      obtain ⟨x, c, q1, q2, q3⟩ := hc j hj
      rw [Nat.zero_add] at q3
      exact ⟨x, _, c, q2, q3, fun _ => ⟨q1, rfl⟩, fun h => absurd h hs⟩

end
end Imodal
