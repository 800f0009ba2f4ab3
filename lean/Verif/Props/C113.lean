import Verif.Props.C95
/-!
# C113: gradient descent rests exactly where the gradient vanishes
-/
set_option autoImplicit false
namespace Imodal
noncomputable section
variable {d : Nat} {G T : Type} {E : Type} [NormedAddCommGroup E] [InnerProductSpace ℝ E]

/-- No parameters of the same shapes near `x` cost less. -/
def Spec.LocalMin (f : List (List E) → ℝ) (x : List (List E)) : Prop :=
  ∃ ρ > 0, ∀ y, SameShape y x → Spec.norm1 (Spec.diff y x) < ρ → f x ≤ f y

/-- All entries are zero. -/
def Spec.Vanishes (g : List (List E)) : Prop := ∀ v ∈ g.flatten, v = 0

theorem wsum_replicate (w : List E → ℝ) (τ : ℝ) : (g : List (List E)) → wsum w g (List.replicate g.length τ) = τ * (g.map w).sum
  | [] => by simp [wsum]
  | e :: g => by
    have := wsum_replicate w τ g
    unfold wsum at this ⊢
    rw [List.length_cons, List.replicate_succ, List.zipWith_cons_cons, List.sum_cons, this, List.map_cons, List.sum_cons]
    ring

/-- At a minimum, also a local one, the gradient vanishes. -/
theorem C113_minimum {f : List (List E) → ℝ} {x g : List (List E)} (hg : SameShape g x) (hgr : Spec.IsGradient f x g) (hmin : Spec.LocalMin f x) : Spec.Vanishes g := by
  intro v hv
  by_contra hne
  have hlen : g.length = x.length := by simpa using congrArg List.length hg
  have hpos : 0 < Spec.norm1 g := by
    obtain ⟨e, he, hve⟩ := List.mem_flatten.1 hv
    have h1 : ‖v‖ ≤ (e.map norm).sum := List.single_le_sum (by simp) _ (List.mem_map_of_mem hve)
    have h2 : (e.map norm).sum ≤ Spec.norm1 g := by
      refine List.single_le_sum (fun r hr => ?_) _ (List.mem_map_of_mem (f := fun g : List E => (g.map norm).sum) he)
      obtain ⟨u, -, rfl⟩ := List.mem_map.1 hr
      exact List.sum_nonneg (by simp)
    exact (norm_pos_iff.2 hne).trans_le (h1.trans h2)
  obtain ⟨m, hm, hlow⟩ := exists_min_norm g.flatten
  obtain ⟨δ, hδ, hexp⟩ := hgr (m / 2) (by positivity)
  obtain ⟨ρ, hρ, hle⟩ := hmin
  set τ := min δ ρ / (2 * Spec.norm1 g) with hτ
  have hτ0 : 0 < τ := by positivity
  have hW : τ * Spec.norm1 g < min δ ρ := by
    rw [hτ]
    have : 0 < min δ ρ := lt_min hδ hρ
    field_simp
    linarith
  set t := List.replicate g.length τ with ht
  have htl : t.length = x.length := by rw [ht, List.length_replicate, hlen]
  have ht0 : ∀ a ∈ t, 0 ≤ a := fun a ha => by rw [List.eq_of_mem_replicate ha]; exact hτ0.le
  have hnorm : Spec.norm1 (Spec.diff (gdMove x g t) x) = τ * Spec.norm1 g := by
    rw [diff_move x g t hg htl, norm1_move _ _ ht0, ht, wsum_replicate]; rfl
  have hpair : Spec.pairing g (Spec.diff (gdMove x g t) x) ≤ -(m * (τ * Spec.norm1 g)) := by
    rw [← hnorm, diff_move x g t hg htl, pairing_move, norm1_move _ _ ht0]
    exact neg_le_neg (wsum_le m _ _ ht0 hlow)
  have hsh : SameShape (gdMove x g t) x := (gdMove_shape x g t hg htl).symm
  have h1 := (abs_le.1 (hexp _ hsh (by rw [hnorm]; exact hW.trans_le (min_le_left _ _)))).2
  have h2 := hle _ hsh (by rw [hnorm]; exact hW.trans_le (min_le_right _ _))
  rw [hnorm] at h1
  have : 0 < m * (τ * Spec.norm1 g) := by positivity
  linarith

theorem gdMove_zero : (x g : List (List E)) → (t : List ℝ) → SameShape g x → t.length = x.length → Spec.Vanishes g → gdMove x g t = x
  | [], g, t, hg, ht, _ => by
    obtain rfl : g = [] := by simpa [SameShape] using hg
    simp [gdMove]
  | u :: x, [], t, hg, _, _ => by simp [SameShape] at hg
  | u :: x, e :: g, [], _, ht, _ => by simp at ht
  | u :: x, e :: g, a :: t, hg, ht, hz => by
    simp only [SameShape, List.map_cons, List.cons.injEq] at hg
    have ih := gdMove_zero x g t hg.2 (by simpa using ht) fun v hv => hz v (by simp at hv ⊢; exact .inr hv)
    unfold gdMove at ih ⊢
    rw [List.zip_cons_cons, List.zipWith_cons_cons, ih]
    congr 1
    have hz' : ∀ v ∈ e, v = 0 := fun v hv => hz v (by simp; exact .inl hv)
    refine List.ext_getElem (by simp [hg.1]) fun i h1 h2 => ?_
    rw [List.getElem_zipWith, hz' _ (List.getElem_mem _), smul_zero, sub_zero]

theorem gdMove_fixed : (x g : List (List E)) → (t : List ℝ) → SameShape g x → t.length = x.length → (∀ a ∈ t, 0 < a) → gdMove x g t = x → Spec.Vanishes g
  | [], g, t, hg, ht, _, _ => by
    obtain rfl : g = [] := by simpa [SameShape] using hg
    simp [Spec.Vanishes]
  | u :: x, [], t, hg, _, _, _ => by simp [SameShape] at hg
  | u :: x, e :: g, [], _, ht, _, _ => by simp at ht
  | u :: x, e :: g, a :: t, hg, ht, ha, h => by
    simp only [SameShape, List.map_cons, List.cons.injEq] at hg
    unfold gdMove at h
    rw [List.zip_cons_cons, List.zipWith_cons_cons, List.cons.injEq] at h
    have ih := gdMove_fixed x g t hg.2 (by simpa using ht) (fun b hb => ha b (List.mem_cons_of_mem _ hb)) h.2
    intro v hv
    rw [List.flatten_cons, List.mem_append] at hv
    rcases hv with hv | hv
    · obtain ⟨i, hi, rfl⟩ := List.getElem_of_mem hv
      have := congrArg (fun l => l[i]?) h.1
      simp only at this
      rw [List.getElem?_eq_getElem (by simp only [List.length_zipWith]; omega), List.getElem?_eq_getElem (by omega), Option.some.injEq, List.getElem_zipWith] at this
      have h0 : a • e[i] = 0 := by simpa using this
      exact (smul_eq_zero.1 h0).resolve_left (ha a List.mem_cons_self).ne'
    · exact ih v hv

/-- A step that ends leaves the parameters as they are exactly if the gradient vanishes, provided step
lengths and decrease factors are positive. -/
theorem C113_fixed {pb : GDProblem ℝ E} {cf : GDConf ℝ} {s s' : GDState ℝ E} (hf : GDFits pb cf s) (hsteps : ∀ a ∈ s.steps, 0 < a)
    (hγ : ∀ o ∈ cf.opts, 0 < o.gamma1.getD cf.gamma1) {fuel : Nat} (h : gdStep pb cf fuel s = some s') :
    s'.params = s.params ↔ Spec.Vanishes (pb.grad s.params) := by
  obtain ⟨n, -, -, -, hp, -⟩ := C40_move pb cf fuel s s' hf h
  have hlen : (trialSteps cf s.steps n).length = s.params.length := by simp [trialSteps, hf.opts, hf.steps]
  rw [hp, trial]
  refine ⟨gdMove_fixed _ _ _ hf.grad hlen fun a ha => ?_, gdMove_zero _ _ _ hf.grad hlen⟩
  unfold trialSteps at ha
  obtain ⟨i, hi, rfl⟩ := List.getElem_of_mem ha
  rw [List.getElem_zipWith]
  exact mul_pos (pow_pos (hγ _ (List.getElem_mem _)) n) (hsteps _ (List.getElem_mem _))

/-- Where the gradient vanishes and the cost is finite, a step ends with its first trial and changes
nothing at all. -/
theorem C113_rests {pb : GDProblem ℝ E} {cf : GDConf ℝ} {s : GDState ℝ E} (hf : GDFits pb cf s) {v : ℝ} (hc : pb.cost s.params = .fin v)
    (hz : Spec.Vanishes (pb.grad s.params)) (fuel : Nat) : gdStep pb cf (fuel + 1) s = some s := by
  have h0 : gdFill s.params s.params.flatten = s.params := gdFill_flatten _ _ rfl
  unfold gdStep
  rw [gdLoop]
  simp only [h0, gdMove_zero _ _ _ hf.grad hf.steps hz, hc]
  rw [if_neg (by simp [XF.lt]), if_pos (by simp [XF.eq])]

/-- **C113.** A registration that can be fitted: at parameters that cannot be improved nearby the
gradient vanishes, a step of gradient descent ends with its first trial and leaves parameters and step
lengths as they are, and the optimiser reports convergence there with the total of these parameters. -/
theorem C113_registration_partial {M : RegModel d G T} {targets : List T} (hM : Fittable M targets) (fit : Option (List Nat)) (s : Solver) (it : Nat) (cf : GDConf ℝ)
    {y : List (List ℝ)} {steps : List ℝ} (ho : cf.opts.length = y.length) (hl : steps.length = y.length)
    (hmin : Spec.LocalMin (M.totalAt fit targets (.fixed s) it) y) :
    Spec.Vanishes ((M.descent fit targets (.fixed s) it).grad y) ∧ (∀ fuel, gdStep (M.descent fit targets (.fixed s) it) cf (fuel + 1) ⟨y, steps⟩ = some ⟨y, steps⟩) ∧
    ∃ v, (M.atEntries fit y).value targets (.fixed s) it = .ok v ∧ ∀ (tol : Option ℝ) (miniter maxIter : Nat), 0 ≤ tol.getD (1 / 10 ^ 10) → 1 < maxIter → miniter < maxIter →
      (torchOptimize (fun _ => .fin v) tol miniter maxIter).2 = .ok ⟨true, .fin v, .converged⟩ := by
  obtain ⟨h1, h2⟩ := hM.smooth fit s it y
  have hsh : SameShape (partials (M.totalAt fit targets (.fixed s) it) y) y := gdFill_shape _ _
  have hz : Spec.Vanishes ((M.descent fit targets (.fixed s) it).grad y) := C113_minimum hsh h2 hmin
  refine ⟨hz, fun fuel => ?_, _, h1, fun tol miniter maxIter ht h1' hm => ?_⟩
  · refine C113_rests (v := M.totalAt fit targets (.fixed s) it y) ⟨ho, hl, hsh⟩ ?_ hz fuel
    unfold RegModel.descent
    dsimp only
    rw [h1]
  · obtain ⟨j, hj, -, hbefore, hcase⟩ := C41_optimize (fun _ => (.fin (M.totalAt fit targets (.fixed s) it y) : XF ℝ)) tol miniter maxIter (by omega)
    have hstop : ∀ k, 1 ≤ k → miniter ≤ k → StopAt (fun _ => (.fin (M.totalAt fit targets (.fixed s) it y) : XF ℝ)) (tol.getD (1 / 10 ^ 10)) miniter k := by
      intro k hk hk'
      exact ⟨hk, hk', .inl ⟨_, _, rfl, rfl, by simpa [Converged] using ht⟩⟩
    rcases hcase with ⟨h, -⟩ | ⟨-, -, h⟩ | ⟨-, hns, hjm, -⟩
    · cases h
    · exact h
    · exact absurd (hstop j (by omega) (by omega)) hns

/-! ## Convergence may be reported elsewhere -/

/-- The cost `x ↦ x²` of one number. -/
def squareProblem : GDProblem ℝ ℝ := ⟨fun p => .fin ((p.flatten.map fun r => r ^ 2).sum), fun p => p.map fun e => e.map fun r => 2 * r⟩
/-- The default factors and one group of parameters without options of its own. -/
def squareConf : GDConf ℝ := ⟨1 / 5, 13 / 10, [⟨none, none, none⟩]⟩

theorem square_step {r a : ℝ} (hr : 0 < r) (ha : 0 < a) (ha1 : a < 1 / 2) (fuel : Nat) :
    gdStep squareProblem squareConf (fuel + 1) ⟨[[r]], [a]⟩ = some ⟨[[(1 - 2 * a) * r]], [13 / 10 * a]⟩ := by
  have h1 : r - a * (2 * r) = (1 - 2 * a) * r := by ring
  have h2 : ((1 - 2 * a) * r) ^ 2 < r ^ 2 := by
    have : 0 < a * (1 - a) * r ^ 2 := by
      have : 0 < 1 - a := by linarith
      positivity
    nlinarith
  unfold gdStep
  rw [gdLoop]
  simp [squareProblem, squareConf, gdFill, overwrite, gdMove, gdUpdateSteps, h1, XF.lt, XF.isFinite, h2]

/-- Reported convergence does not mean a vanishing gradient. Whatever the positive tolerance, there is
a positive step length with which gradient descent on `x ↦ x²` started at 1 reports convergence after
its second step at a point where the gradient is at least 1. -/
theorem C113_far_disagreement {tol : ℝ} (htol : 0 < tol) : ∃ a > 0, ∃ s₁ s₂ : GDState ℝ ℝ, ∃ v₁ v₂ : ℝ,
    (∀ fuel, gdStep squareProblem squareConf (fuel + 1) ⟨[[1]], [a]⟩ = some s₁) ∧ (∀ fuel, gdStep squareProblem squareConf (fuel + 1) s₁ = some s₂) ∧
    squareProblem.cost s₁.params = .fin v₁ ∧ squareProblem.cost s₂.params = .fin v₂ ∧
    (∀ maxIter, 2 ≤ maxIter → (torchOptimize (fun i => if i = 0 then .fin v₁ else .fin v₂) (some tol) 0 maxIter).2 = .ok ⟨true, .fin v₂, .converged⟩) ∧
    ∃ g, squareProblem.grad s₂.params = [[g]] ∧ 1 ≤ g := by
  have hm : 0 < min tol (1 / 2) := lt_min htol (by norm_num)
  obtain ⟨a, rfl⟩ : ∃ a, a = min tol (1 / 2) / 10 := ⟨_, rfl⟩
  generalize hA : min tol (1 / 2) / 10 = a
  have ha : 0 < a := by rw [← hA]; positivity
  have ha1 : a ≤ 1 / 20 := by rw [← hA]; linarith [min_le_right tol (1 / 2)]
  have hat : 10 * a ≤ tol := by rw [← hA]; linarith [min_le_left tol (1 / 2)]
  refine ⟨a, ha, _, _, ((1 - 2 * a) * 1) ^ 2, ((1 - 2 * (13 / 10 * a)) * ((1 - 2 * a) * 1)) ^ 2, fun fuel => square_step one_pos ha (by linarith) fuel,
    fun fuel => square_step (by linarith) (by linarith) (by linarith) fuel, by simp [squareProblem], by simp [squareProblem], fun maxIter hmax => ?_, _, rfl, ?_⟩
  · set b := ((1 - 2 * a) * 1) ^ 2
    set c := ((1 - 2 * (13 / 10 * a)) * ((1 - 2 * a) * 1)) ^ 2
    have hbc : Converged b c tol := by
      unfold Converged
      have h1 : (1 : ℝ) ≤ max (max c b) 1 := le_max_right _ _
      rw [div_le_iff₀ (by linarith)]
      have : b - c ≤ 10 * a := by
        have hc : c = (1 - 2 * (13 / 10 * a)) ^ 2 * b := by simp only [c, b]; ring
        have hb : b ≤ 1 := by simp only [b]; nlinarith
        have hb0 : 0 ≤ b := sq_nonneg _
        rw [hc]
        nlinarith [mul_nonneg hb0 ha.le, mul_nonneg hb0 (sq_nonneg a)]
      nlinarith
    obtain ⟨j, hj, -, hbefore, hcase⟩ := C41_optimize (fun i => if i = 0 then (.fin b : XF ℝ) else .fin c) (some tol) 0 maxIter (by omega)
    have h1 : StopAt (fun i => if i = 0 then (.fin b : XF ℝ) else .fin c) ((some tol).getD (1 / 10 ^ 10)) 0 1 := ⟨le_rfl, Nat.zero_le _, .inl ⟨b, c, rfl, rfl, hbc⟩⟩
    have hj1 : j ≤ 1 := by
      by_contra hj1
      exact (hbefore 1 (by omega)).2 h1
    rcases hcase with ⟨h, -⟩ | ⟨-, hs, h⟩ | ⟨-, hns, hjm, -⟩
    · by_cases hj0 : j = 0 <;> simp [hj0] at h
    · rw [h]
      have := hs.1
      simp [show j = 1 by omega]
    · obtain rfl : j = 1 := by omega
      exact absurd h1 hns
  · nlinarith

/-- On `x ↦ x²` a step from 1 with step length `1/4` moves, as the gradient is 2; a step from 0 does not.
C114 has a registration. -/
example : (∃ s', gdStep squareProblem squareConf 1 ⟨[[1]], [1 / 4]⟩ = some s' ∧ s'.params ≠ [[1]]) ∧ gdStep squareProblem squareConf 1 ⟨[[0]], [1 / 4]⟩ = some ⟨[[0]], [1 / 4]⟩ := by
  refine ⟨⟨_, square_step one_pos (by norm_num) (by norm_num) 0, by norm_num⟩, C113_rests (pb := squareProblem) (s := ⟨[[0]], [1 / 4]⟩) (v := 0) ⟨rfl, rfl, ?_⟩ ?_ ?_ 0⟩
  · simp [squareProblem, SameShape]
  · simp [squareProblem]
  · simp [squareProblem, Spec.Vanishes]

end
end Imodal
