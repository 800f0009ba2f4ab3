import Verif.Model.Optim
import Mathlib.Algebra.Module.Basic
import Mathlib.Data.Rat.Defs
import Mathlib.Algebra.Order.Ring.Rat
import Mathlib.Tactic.Ring
import Mathlib.Tactic.NormNum
/-!
# C40 Gradient-descent line search never increases the cost

`trialSteps n` are the step lengths documented for the `n`-th retry (each group's
decrease factor to the power `n`), `trial n` the corresponding parameters
`x - step * gradient`. The loop may run forever; "whenever a step returns" is
`gdStep … fuel s = some s'` for some bound `fuel` on the number of retries.

If the cost before the step is infinite, the step may return with an infinite cost
(`C40_infinite_disagreement`); if it is `nan` the step never returns.
-/
set_option autoImplicit false
namespace Imodal
variable {𝕜 E : Type}

/-! ## Filling parameters -/

theorem overwrite_append (a b : List E) : ∀ g : List E, g.length = a.length →
    overwrite g (a ++ b) = a := by
  induction a with
  | nil => intro g h; rw [List.length_nil, List.length_eq_zero_iff] at h; subst h; rfl
  | cons x a ih =>
    intro g h
    cases g with
    | nil => simp at h
    | cons y g => simp only [List.cons_append, overwrite, ih g (by simpa using h)]

/-- Two nested lists have the same group sizes. -/
def SameShape {α β : Type} (a : List (List α)) (b : List (List β)) : Prop :=
  a.map List.length = b.map List.length

theorem gdFill_flatten (p q : List (List E)) (h : SameShape p q) : gdFill p q.flatten = q := by
  induction q generalizing p with
  | nil =>
    cases p with
    | nil => rfl
    | cons g gs => simp [SameShape] at h
  | cons g q ih =>
    cases p with
    | nil => simp [SameShape] at h
    | cons g' gs =>
      simp only [SameShape, List.map_cons, List.cons.injEq] at h
      simp only [gdFill, List.flatten_cons, overwrite_append _ _ _ h.1, h.1, List.drop_left,
        ih _ h.2]

theorem gdMove_shape [Sub E] [SMul 𝕜 E] (x d : List (List E)) (steps : List 𝕜)
    (hd : SameShape d x) (hs : steps.length = x.length) : SameShape x (gdMove x d steps) := by
  induction x generalizing d steps with
  | nil => simp [gdMove, SameShape]
  | cons g x ih =>
    cases d with
    | nil => simp [SameShape] at hd
    | cons e d =>
      cases steps with
      | nil => simp at hs
      | cons t steps =>
        simp only [SameShape, List.map_cons, List.cons.injEq] at hd
        have := ih d steps hd.2 (by simpa using hs)
        simp only [SameShape, gdMove] at this ⊢
        simp only [List.zip_cons_cons, List.zipWith_cons_cons, List.map_cons, List.length_zipWith,
          hd.1, Nat.min_self, this]

theorem SameShape.symm {α β : Type} {a : List (List α)} {b : List (List β)} (h : SameShape a b) :
    SameShape b a := Eq.symm h
theorem SameShape.trans {α β γ : Type} {a : List (List α)} {b : List (List β)} {c : List (List γ)}
    (h : SameShape a b) (h' : SameShape b c) : SameShape a c := Eq.trans h h'

/-! ## The property -/

section
variable [Field 𝕜] [LinearOrder 𝕜] [Sub E] [SMul 𝕜 E]

/-- Step lengths after `n` decreases. -/
def trialSteps (cf : GDConf 𝕜) (steps : List 𝕜) (n : Nat) : List 𝕜 :=
  List.zipWith (fun (o : GroupOpts 𝕜) (s : 𝕜) => (o.gamma1.getD cf.gamma1) ^ n * s) cf.opts steps

/-- Step lengths after one increase. -/
def increasedSteps (cf : GDConf 𝕜) (steps : List 𝕜) : List 𝕜 :=
  List.zipWith (fun (o : GroupOpts 𝕜) (s : 𝕜) => (o.gamma2.getD cf.gamma2) * s) cf.opts steps

theorem trialSteps_succ (cf : GDConf 𝕜) (steps : List 𝕜) (n : Nat) :
    gdUpdateSteps GroupOpts.gamma1 cf.gamma1 cf.opts (trialSteps cf steps n) =
      trialSteps cf steps (n + 1) := by
  unfold gdUpdateSteps trialSteps
  generalize cf.opts = opts
  induction opts generalizing steps with
  | nil => rfl
  | cons o opts ih =>
    cases steps with
    | nil => rfl
    | cons s steps =>
      simp only [List.zipWith_cons_cons, ih, pow_succ]
      congr 1
      ring

theorem trialSteps_zero (cf : GDConf 𝕜) (steps : List 𝕜) (h : steps.length = cf.opts.length) :
    trialSteps cf steps 0 = steps := by
  unfold trialSteps
  revert h
  generalize cf.opts = opts
  intro h
  induction opts generalizing steps with
  | nil => rw [List.length_nil, List.length_eq_zero_iff] at h; subst h; rfl
  | cons o opts ih =>
    cases steps with
    | nil => simp at h
    | cons s steps =>
      rw [List.zipWith_cons_cons, ih steps (by simpa using h), pow_zero, one_mul]

/-- The `n`-th point tried: the old parameters minus step times gradient, group by group. -/
def trial (pb : GDProblem 𝕜 E) (cf : GDConf 𝕜) (s : GDState 𝕜 E) (n : Nat) : List (List E) :=
  gdMove s.params (pb.grad s.params) (trialSteps cf s.steps n)

/-- The optimiser's data fit together: as many options and steps as groups, gradients
shaped like the parameters. `reset` and `evaluate` establish this. -/
structure GDFits (pb : GDProblem 𝕜 E) (cf : GDConf 𝕜) (s : GDState 𝕜 E) : Prop where
  opts : cf.opts.length = s.params.length
  steps : s.steps.length = s.params.length
  grad : SameShape (pb.grad s.params) s.params

/-- A trial ends the search. -/
def Accepts (c' c : XF 𝕜) : Prop := (c'.lt c ∧ c'.isFinite) ∨ c'.eq c

theorem gdLoop_spec (pb : GDProblem 𝕜 E) (cf : GDConf 𝕜) (s : GDState 𝕜 E)
    (hf : GDFits pb cf s) (fuel k : Nat) (p : List (List E)) (hp : SameShape p s.params)
    (s' : GDState 𝕜 E)
    (h : gdLoop pb cf s.params (pb.grad s.params) (pb.cost s.params) fuel (k + 1)
      ⟨p, trialSteps cf s.steps k⟩ = some s') :
    ∃ n, k ≤ n ∧ n < k + fuel ∧
      (∀ m, k ≤ m → m < n → ¬ Accepts (pb.cost (trial pb cf s m)) (pb.cost s.params)) ∧
      Accepts (pb.cost (trial pb cf s n)) (pb.cost s.params) ∧
      s'.params = trial pb cf s n ∧
      s'.steps = if n = 0 ∧ (pb.cost (trial pb cf s n)).lt (pb.cost s.params) ∧
          (pb.cost (trial pb cf s n)).isFinite then
        gdUpdateSteps GroupOpts.gamma2 cf.gamma2 cf.opts (trialSteps cf s.steps 0)
        else trialSteps cf s.steps n := by
  induction fuel generalizing k p with
  | zero => simp [gdLoop] at h
  | succ fuel ih =>
    have hlen : (trialSteps cf s.steps k).length = s.params.length := by
      simp [trialSteps, hf.opts, hf.steps]
    have hfill : gdFill p (gdMove s.params (pb.grad s.params) (trialSteps cf s.steps k)).flatten
        = trial pb cf s k :=
      gdFill_flatten _ _ (hp.trans (gdMove_shape _ _ _ hf.grad hlen))
    simp only [gdLoop, hfill] at h
    by_cases hlt : (pb.cost (trial pb cf s k)).lt (pb.cost s.params) ∧
        (pb.cost (trial pb cf s k)).isFinite
    · rw [if_pos hlt] at h
      refine ⟨k, le_rfl, by omega, fun m h1 h2 => by omega, Or.inl hlt, ?_, ?_⟩
      · split at h <;> (cases h; rfl)
      · by_cases hk : k = 0
        · rw [if_pos (by omega)] at h
          cases h
          rw [if_pos ⟨hk, hlt⟩, hk]
        · rw [if_neg (by omega)] at h
          cases h
          rw [if_neg (fun hh => hk hh.1)]
    · rw [if_neg hlt] at h
      by_cases heq : (pb.cost (trial pb cf s k)).eq (pb.cost s.params)
      · rw [if_pos heq] at h
        cases h
        exact ⟨k, le_rfl, by omega, fun m h1 h2 => by omega, Or.inr heq, rfl,
          by rw [if_neg (fun hh => hlt hh.2)]⟩
      · rw [if_neg heq, trialSteps_succ] at h
        have hsh : SameShape (trial pb cf s k) s.params :=
          (gdMove_shape _ _ _ hf.grad hlen).symm
        obtain ⟨n, h1, h2, h3, h4⟩ := ih (k + 1) _ hsh h
        refine ⟨n, by omega, by omega, fun m hm1 hm2 => ?_, h4⟩
        by_cases hmk : m = k
        · subst hmk; rintro (h' | h')
          · exact hlt h'
          · exact heq h'
        · exact h3 m (by omega) hm2

/-- Whenever a step returns, the new parameters are the first trial point
`x - step * gradient` (step lengths decreased by the group factors once per failed trial)
that is finite and lower, or has the same cost; the step lengths kept for the next call
are those of that trial, or increased ones if the first trial succeeded with a lower
cost. -/
theorem C40_move (pb : GDProblem 𝕜 E) (cf : GDConf 𝕜) (fuel : Nat) (s s' : GDState 𝕜 E)
    (hf : GDFits pb cf s) (h : gdStep pb cf fuel s = some s') :
    ∃ n, n < fuel ∧
      (∀ m, m < n → ¬ Accepts (pb.cost (trial pb cf s m)) (pb.cost s.params)) ∧
      Accepts (pb.cost (trial pb cf s n)) (pb.cost s.params) ∧
      s'.params = trial pb cf s n ∧
      s'.steps = if n = 0 ∧ (pb.cost (trial pb cf s n)).lt (pb.cost s.params) ∧
          (pb.cost (trial pb cf s n)).isFinite then increasedSteps cf s.steps
        else trialSteps cf s.steps n := by
  have h0 : gdFill s.params s.params.flatten = s.params := gdFill_flatten _ _ rfl
  have ht := trialSteps_zero cf s.steps (by rw [hf.opts, hf.steps])
  unfold gdStep at h
  simp only [h0] at h
  have h' : gdLoop pb cf s.params (pb.grad s.params) (pb.cost s.params) fuel (0 + 1)
      ⟨s.params, trialSteps cf s.steps 0⟩ = some s' := by rw [ht]; exact h
  obtain ⟨n, _, h2, h3, h4, h5, h6⟩ := gdLoop_spec pb cf s hf fuel 0 s.params rfl s' h'
  rw [ht] at h6
  exact ⟨n, by omega, fun m hm => h3 m (Nat.zero_le _) hm, h4, h5, h6⟩

/-- Conversely, the step returns as soon as the bound allows for a trial that ends the
search. -/
theorem C40_returns (pb : GDProblem 𝕜 E) (cf : GDConf 𝕜) (s : GDState 𝕜 E)
    (hf : GDFits pb cf s) (n : Nat)
    (hn : Accepts (pb.cost (trial pb cf s n)) (pb.cost s.params)) (fuel : Nat) (hfu : n < fuel) :
    ∃ s', gdStep pb cf fuel s = some s' := by
  have h0 : gdFill s.params s.params.flatten = s.params := gdFill_flatten _ _ rfl
  have ht := trialSteps_zero cf s.steps (by rw [hf.opts, hf.steps])
  suffices H : ∀ fuel k p, SameShape p s.params → k ≤ n → n < k + fuel →
      ∃ s', gdLoop pb cf s.params (pb.grad s.params) (pb.cost s.params) fuel (k + 1)
        ⟨p, trialSteps cf s.steps k⟩ = some s' by
    obtain ⟨s', h⟩ := H fuel 0 s.params rfl (Nat.zero_le _) (by omega)
    refine ⟨s', ?_⟩
    unfold gdStep
    simp only [h0]
    rw [ht] at h
    exact h
  intro fuel
  induction fuel with
  | zero => intro k p _ h1 h2; omega
  | succ fuel ih =>
    intro k p hp h1 h2
    have hlen : (trialSteps cf s.steps k).length = s.params.length := by
      simp [trialSteps, hf.opts, hf.steps]
    have hfill : gdFill p (gdMove s.params (pb.grad s.params) (trialSteps cf s.steps k)).flatten
        = trial pb cf s k :=
      gdFill_flatten _ _ (hp.trans (gdMove_shape _ _ _ hf.grad hlen))
    simp only [gdLoop, hfill]
    by_cases hlt : (pb.cost (trial pb cf s k)).lt (pb.cost s.params) ∧
        (pb.cost (trial pb cf s k)).isFinite
    · rw [if_pos hlt]; split <;> exact ⟨_, rfl⟩
    · rw [if_neg hlt]
      by_cases heq : (pb.cost (trial pb cf s k)).eq (pb.cost s.params)
      · rw [if_pos heq]; exact ⟨_, rfl⟩
      · rw [if_neg heq, trialSteps_succ]
        have hkn : k ≠ n := by
          rintro rfl
          rcases hn with h | h
          · exact hlt h
          · exact heq h
        exact ih (k + 1) _ (gdMove_shape _ _ _ hf.grad hlen).symm (by omega) (by omega)

/-- Whenever a step returns, the cost at the new parameters is not larger than before;
started at a finite cost it ends at a finite cost. -/
theorem C40_no_increase_partial (pb : GDProblem 𝕜 E) (cf : GDConf 𝕜) (fuel : Nat) (s s' : GDState 𝕜 E)
    (hf : GDFits pb cf s) (h : gdStep pb cf fuel s = some s') :
    (pb.cost s'.params).le (pb.cost s.params) ∧
    ∀ c, pb.cost s.params = .fin c → ∃ c', pb.cost s'.params = .fin c' ∧ c' ≤ c := by
  obtain ⟨n, _, _, ha, hp, _⟩ := C40_move pb cf fuel s s' hf h
  rw [hp]
  generalize pb.cost (trial pb cf s n) = c' at ha
  constructor
  · rcases ha with h | h
    · exact Or.inl h.1
    · exact Or.inr h
  · intro c hc
    rw [hc] at ha
    cases c' with
    | fin a =>
      refine ⟨a, rfl, ?_⟩
      rcases ha with h | h
      · exact le_of_lt h.1
      · exact le_of_eq h
    | pinf => rcases ha with h | h <;> simp [XF.lt, XF.eq] at h
    | ninf => rcases ha with h | h <;> simp [XF.eq, XF.isFinite] at h
    | nan => rcases ha with h | h <;> simp [XF.lt, XF.eq] at h

/-- If the cost before the step is `nan`, the line search never returns. -/
theorem C40_nan_never_returns (pb : GDProblem 𝕜 E) (cf : GDConf 𝕜) (fuel : Nat) (s : GDState 𝕜 E)
    (hf : GDFits pb cf s) (hnan : pb.cost s.params = .nan) : gdStep pb cf fuel s = none := by
  cases h : gdStep pb cf fuel s with
  | none => rfl
  | some s' =>
    obtain ⟨n, _, _, ha, _⟩ := C40_move pb cf fuel s s' hf h
    rw [hnan] at ha
    cases pb.cost (trial pb cf s n) <;> rcases ha with h | h <;> simp [XF.lt, XF.eq] at h

/-- **Disagreement.** With an infinite cost everywhere the step returns with an infinite
cost. -/
theorem C40_infinite_disagreement (cf : GDConf 𝕜) (s : GDState 𝕜 E) (grad : List (List E) → List (List E)) :
    ∃ s', gdStep ⟨fun _ => .pinf, grad⟩ cf 1 s = some s' ∧ ¬ ((.pinf : XF 𝕜).isFinite) := by
  have h : ∃ s', gdStep ⟨fun _ => .pinf, grad⟩ cf 1 s = some s' := by
    simp only [gdStep, gdLoop, XF.lt, XF.eq, false_and, if_false, if_true]
    exact ⟨_, rfl⟩
  obtain ⟨s', h⟩ := h
  exact ⟨s', h, by simp [XF.isFinite]⟩

end

/-! ## A concrete case: `f x = x^2` on ℚ from `x = 3`, step 2, decrease factor 1/4.
The first trial `3 - 2*6 = -9` fails, the second `3 - (1/2)*6 = 0` is accepted. -/

example : gdStep (𝕜 := ℚ) (E := ℚ)
    ⟨fun p => .fin ((p.flatten.map (fun x => x * x)).sum), fun p => p.map (List.map (fun x => 2 * x))⟩
    ⟨1/5, 13/10, [⟨none, some (1/4), none⟩]⟩ 5 ⟨[[3]], [2]⟩ = some ⟨[[0]], [1/2]⟩ := by
  simp [gdStep, gdFill, overwrite, gdLoop, gdMove, gdUpdateSteps, XF.lt, XF.eq, XF.isFinite]
  norm_num

example : GDFits (𝕜 := ℚ) (E := ℚ)
    ⟨fun p => .fin ((p.flatten.map (fun x => x * x)).sum), fun p => p.map (List.map (fun x => 2 * x))⟩
    ⟨1/5, 13/10, [⟨none, some (1/4), none⟩]⟩ ⟨[[3]], [2]⟩ :=
  ⟨rfl, rfl, rfl⟩

end Imodal
