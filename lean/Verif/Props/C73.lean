import Verif.Props.C40
import Mathlib.Analysis.InnerProductSpace.Basic
import Mathlib.Analysis.SpecificLimits.Basic
/-!
# C73 A gradient-descent step on a smooth cost always ends

The line search of C40 has no bound on the number of retries. If the cost is finite near the
parameters and the gradient is the true one, it nevertheless ends, for all positive step lengths
and all decrease factors below one, also when every group has its own.
-/
set_option autoImplicit false
namespace Imodal
noncomputable section
variable {E : Type} [NormedAddCommGroup E] [InnerProductSpace ℝ E]

/-! ## What a gradient is -/

/-- The difference of two lists of groups of tensors. -/
def Spec.diff (y x : List (List E)) : List (List E) := List.zipWith (List.zipWith (· - ·)) y x
/-- The sum of the norms of all tensors. -/
def Spec.norm1 (h : List (List E)) : ℝ := (h.map fun g => (g.map norm).sum).sum
/-- The sum of the scalar products of corresponding tensors. -/
def Spec.pairing (g h : List (List E)) : ℝ := (List.zipWith (fun a b => (List.zipWith (fun u v => inner ℝ u v) a b).sum) g h).sum
/-- `g` is the gradient of `f` at `x`: the first-order expansion of `f` at `x` holds. -/
def Spec.IsGradient (f : List (List E) → ℝ) (x g : List (List E)) : Prop :=
  ∀ ε > 0, ∃ δ > 0, ∀ y, SameShape y x → Spec.norm1 (Spec.diff y x) < δ →
    |f y - f x - Spec.pairing g (Spec.diff y x)| ≤ ε * Spec.norm1 (Spec.diff y x)

/-! ## One trial -/

theorem group_diff (a : ℝ) : (u e : List E) → e.length = u.length →
    List.zipWith (· - ·) (List.zipWith (fun p dp => p - a • dp) u e) u = e.map fun v => -(a • v)
  | [], [], _ => rfl
  | p :: u, v :: e, h => by
    simp only [List.zipWith_cons_cons, List.map_cons, group_diff a u e (by simpa using h)]
    congr 1; abel
  | [], _ :: _, h => by simp at h
  | _ :: _, [], h => by simp at h

theorem diff_move (x g : List (List E)) (t : List ℝ) (hg : SameShape g x) (ht : t.length = x.length) :
    Spec.diff (gdMove x g t) x = List.zipWith (fun e a => e.map fun v => -(a • v)) g t := by
  induction x generalizing g t with
  | nil =>
    have : g = [] := by simpa [SameShape] using hg
    subst this; simp [Spec.diff, gdMove]
  | cons u x ih =>
    cases g with
    | nil => simp [SameShape] at hg
    | cons e g =>
      cases t with
      | nil => simp at ht
      | cons a t =>
        simp only [SameShape, List.map_cons, List.cons.injEq] at hg
        have := ih g t hg.2 (by simpa using ht)
        simp only [Spec.diff, gdMove] at this ⊢
        simp only [List.zip_cons_cons, List.zipWith_cons_cons, this, group_diff a u e hg.1]

/-- The weighted sum of a number attached to each group. -/
def wsum (w : List E → ℝ) (g : List (List E)) (t : List ℝ) : ℝ := (List.zipWith (fun e a => a * w e) g t).sum

theorem norm1_move (g : List (List E)) (t : List ℝ) (hpos : ∀ a ∈ t, 0 ≤ a) :
    Spec.norm1 (List.zipWith (fun e a => e.map fun v => -(a • v)) g t) = wsum (fun e => (e.map norm).sum) g t := by
  induction g generalizing t with
  | nil => simp [Spec.norm1, wsum]
  | cons e g ih =>
    cases t with
    | nil => simp [Spec.norm1, wsum]
    | cons a t =>
      have h := ih t fun b hb => hpos b (List.mem_cons_of_mem _ hb)
      have ha := hpos a List.mem_cons_self
      simp only [Spec.norm1, wsum] at h ⊢
      simp only [List.zipWith_cons_cons, List.map_cons, List.sum_cons, h, add_left_inj, List.map_map]
      rw [← List.sum_map_mul_left]
      exact congrArg List.sum (List.map_congr_left fun v _ => by
        simp [Function.comp, norm_neg, norm_smul, abs_of_nonneg ha])

theorem group_pairing (a : ℝ) : (e : List E) →
    (List.zipWith (fun u v => inner ℝ u v) e (e.map fun v => -(a • v))).sum = -(a * (e.map fun v => ‖v‖ ^ 2).sum)
  | [] => by simp
  | v :: e => by
    simp only [List.map_cons, List.zipWith_cons_cons, List.sum_cons, group_pairing a e, inner_neg_right, real_inner_smul_right,
      real_inner_self_eq_norm_sq]
    ring

theorem pairing_move (g : List (List E)) (t : List ℝ) :
    Spec.pairing g (List.zipWith (fun e a => e.map fun v => -(a • v)) g t) = -wsum (fun e => (e.map fun v => ‖v‖ ^ 2).sum) g t := by
  induction g generalizing t with
  | nil => simp [Spec.pairing, wsum]
  | cons e g ih =>
    cases t with
    | nil => simp [Spec.pairing, wsum]
    | cons a t =>
      have h := ih t
      simp only [Spec.pairing, wsum] at h ⊢
      simp only [List.zipWith_cons_cons, List.sum_cons, h, group_pairing]
      ring

/-- A bound from below for the norms that are not zero. -/
theorem exists_min_norm : (l : List E) → ∃ m > 0, ∀ v ∈ l, m * ‖v‖ ≤ ‖v‖ ^ 2
  | [] => ⟨1, one_pos, by simp⟩
  | v :: l => by
    obtain ⟨m, hm, h⟩ := exists_min_norm l
    by_cases hv : ‖v‖ = 0
    · exact ⟨m, hm, fun u hu => by
        rcases List.mem_cons.1 hu with rfl | hu
        · simp [hv]
        · exact h u hu⟩
    · have hv' : 0 < ‖v‖ := lt_of_le_of_ne (norm_nonneg v) (Ne.symm hv)
      refine ⟨min m ‖v‖, lt_min hm hv', fun u hu => ?_⟩
      rcases List.mem_cons.1 hu with rfl | hu
      · rw [sq]; exact mul_le_mul_of_nonneg_right (min_le_right _ _) hv'.le
      · exact (mul_le_mul_of_nonneg_right (min_le_left _ _) (norm_nonneg u)).trans (h u hu)

theorem wsum_le (m : ℝ) (g : List (List E)) (t : List ℝ) (hpos : ∀ a ∈ t, 0 ≤ a) (h : ∀ v ∈ g.flatten, m * ‖v‖ ≤ ‖v‖ ^ 2) :
    m * wsum (fun e => (e.map norm).sum) g t ≤ wsum (fun e => (e.map fun v => ‖v‖ ^ 2).sum) g t := by
  induction g generalizing t with
  | nil => simp [wsum]
  | cons e g ih =>
    cases t with
    | nil => simp [wsum]
    | cons a t =>
      have h1 := ih t (fun b hb => hpos b (List.mem_cons_of_mem _ hb)) fun v hv => h v (by simp at hv ⊢; exact Or.inr hv)
      have ha := hpos a List.mem_cons_self
      have h2 : m * (e.map norm).sum ≤ (e.map fun v => ‖v‖ ^ 2).sum := by
        rw [← List.sum_map_mul_left]
        exact List.sum_le_sum fun v hv => h v (by simp; exact Or.inl hv)
      simp only [wsum] at h1 ⊢
      simp only [List.zipWith_cons_cons, List.sum_cons]
      nlinarith [mul_le_mul_of_nonneg_left h2 ha]

theorem wsum_nonneg (g : List (List E)) (t : List ℝ) (hpos : ∀ a ∈ t, 0 ≤ a) : 0 ≤ wsum (fun e => (e.map norm).sum) g t := by
  induction g generalizing t with
  | nil => simp [wsum]
  | cons e g ih =>
    cases t with
    | nil => simp [wsum]
    | cons a t =>
      have h1 := ih t fun b hb => hpos b (List.mem_cons_of_mem _ hb)
      have ha := hpos a List.mem_cons_self
      have h2 : 0 ≤ (e.map norm).sum := List.sum_nonneg (by simp only [List.mem_map]; rintro _ ⟨v, _, rfl⟩; exact norm_nonneg v)
      simp only [wsum] at h1 ⊢
      simp only [List.zipWith_cons_cons, List.sum_cons]
      exact add_nonneg (mul_nonneg ha h2) h1

open Filter Topology in
/-- The steps shrink to zero. -/
theorem wsum_tendsto (w : List E → ℝ) (g : List (List E)) (opts : List (GroupOpts ℝ)) (γ : GroupOpts ℝ → ℝ) (s : List ℝ)
    (hγ : ∀ o ∈ opts, 0 ≤ γ o ∧ γ o < 1) :
    Tendsto (fun n : ℕ => wsum w g (List.zipWith (fun o a => γ o ^ n * a) opts s)) atTop (𝓝 0) := by
  induction g generalizing opts s with
  | nil => simp [wsum]
  | cons e g ih =>
    cases opts with
    | nil => simp [wsum]
    | cons o opts =>
      cases s with
      | nil => simp [wsum]
      | cons a s =>
        have h1 := ih opts s fun o' ho' => hγ o' (List.mem_cons_of_mem _ ho')
        have h2 := hγ o List.mem_cons_self
        have h3 : Tendsto (fun n : ℕ => γ o ^ n * a * w e) atTop (𝓝 (0 * a * w e)) :=
          ((tendsto_pow_atTop_nhds_zero_of_lt_one h2.1 h2.2).mul_const a).mul_const (w e)
        have h4 := h3.add h1
        simp only [zero_mul, zero_add] at h4
        refine h4.congr fun n => ?_
        simp only [wsum, List.zipWith_cons_cons, List.sum_cons]

theorem mem_zipWith_nonneg (f : GroupOpts ℝ → ℝ → ℝ) (opts : List (GroupOpts ℝ)) (s : List ℝ)
    (h : ∀ o ∈ opts, ∀ a ∈ s, 0 ≤ f o a) : ∀ b ∈ List.zipWith f opts s, 0 ≤ b := by
  intro b hb
  obtain ⟨i, hi, rfl⟩ := List.getElem_of_mem hb
  rw [List.getElem_zipWith]
  exact h _ (List.getElem_mem _) _ (List.getElem_mem _)

/-! ## The property -/

/-- A gradient-descent step ends. The cost is a finite number for all parameters of the same
shapes (`f`), its gradient is the true one, the step lengths are not negative and every
decrease factor is below one. The parameters it ends with do not cost more than those it
started with. -/
theorem C73_step_ends (f : List (List E) → ℝ) (pb : GDProblem ℝ E) (cf : GDConf ℝ) (s : GDState ℝ E) (hf : GDFits pb cf s)
    (hcost : ∀ y, SameShape y s.params → pb.cost y = .fin (f y)) (hgrad : Spec.IsGradient f s.params (pb.grad s.params))
    (hsteps : ∀ a ∈ s.steps, 0 ≤ a) (hγ : ∀ o ∈ cf.opts, 0 ≤ o.gamma1.getD cf.gamma1 ∧ o.gamma1.getD cf.gamma1 < 1) :
    ∃ bound s', (∀ fuel ≥ bound, gdStep pb cf fuel s = some s') ∧ f s'.params ≤ f s.params ∧ SameShape s'.params s.params := by
  obtain ⟨m, hm, hmin⟩ := exists_min_norm (pb.grad s.params).flatten
  obtain ⟨δ, hδ, hexp⟩ := hgrad (m / 2) (by positivity)
  have hpos : ∀ n, ∀ a ∈ trialSteps cf s.steps n, 0 ≤ a := fun n =>
    mem_zipWith_nonneg _ _ _ fun o ho a ha => mul_nonneg (pow_nonneg (hγ o ho).1 n) (hsteps a ha)
  have hlen : ∀ n, (trialSteps cf s.steps n).length = s.params.length := fun n => by simp [trialSteps, hf.opts, hf.steps]
  have hshape : ∀ n, SameShape (trial pb cf s n) s.params := fun n => (gdMove_shape _ _ _ hf.grad (hlen n)).symm
  obtain ⟨n, hn⟩ : ∃ n, wsum (fun e => (e.map norm).sum) (pb.grad s.params) (trialSteps cf s.steps n) < δ :=
    ((wsum_tendsto (fun e : List E => (e.map norm).sum) (pb.grad s.params) cf.opts (fun o => o.gamma1.getD cf.gamma1) s.steps hγ).eventually
      (gt_mem_nhds hδ)).exists
  set W := wsum (fun e => (e.map norm).sum) (pb.grad s.params) (trialSteps cf s.steps n) with hW
  have hd : Spec.diff (trial pb cf s n) s.params = _ := diff_move _ _ _ hf.grad (hlen n)
  have hnorm : Spec.norm1 (Spec.diff (trial pb cf s n) s.params) = W := by rw [hd, norm1_move _ _ (hpos n)]
  have hW0 : 0 ≤ W := wsum_nonneg _ _ (hpos n)
  have hpair : Spec.pairing (pb.grad s.params) (Spec.diff (trial pb cf s n) s.params) ≤ -(m * W) := by
    rw [hd, pairing_move]
    exact neg_le_neg (wsum_le m _ _ (hpos n) hmin)
  have hle := hexp _ (hshape n) (by rw [hnorm]; exact hn)
  rw [hnorm] at hle
  have hacc : Accepts (pb.cost (trial pb cf s n)) (pb.cost s.params) := by
    rw [hcost _ (hshape n), hcost _ rfl]
    have h1 := (abs_le.1 hle).2
    rcases hW0.eq_or_lt with h0 | h0
    · right
      have hz : Spec.pairing (pb.grad s.params) (Spec.diff (trial pb cf s n) s.params) = 0 := by
        rw [hd, pairing_move, neg_eq_zero]
        refine le_antisymm ?_ ?_
        · by_contra hlt
          push Not at hlt
          have hp : Spec.pairing (pb.grad s.params) (Spec.diff (trial pb cf s n) s.params)
              = -wsum (fun e => (e.map fun v => ‖v‖ ^ 2).sum) (pb.grad s.params) (trialSteps cf s.steps n) := by rw [hd, pairing_move]
          rw [← h0, mul_zero, hp] at hle
          have h2 := abs_nonpos_iff.1 hle
          -- all norms are zero, so the squares are too
          have h3 : wsum (fun e => (e.map fun v => ‖v‖ ^ 2).sum) (pb.grad s.params) (trialSteps cf s.steps n) = 0 := by
            have hzero := h0.symm
            rw [hW] at hzero
            clear_value W
            revert hzero
            have hp' := hpos n
            revert hp'
            generalize trialSteps cf s.steps n = t
            generalize pb.grad s.params = g
            intro hp' hzero
            induction g generalizing t with
            | nil => simp [wsum]
            | cons e g ih =>
              cases t with
              | nil => simp [wsum]
              | cons a t =>
                have ha := hp' a List.mem_cons_self
                have hpt : ∀ b ∈ t, 0 ≤ b := fun b hb => hp' b (List.mem_cons_of_mem _ hb)
                have hr := wsum_nonneg g t hpt
                have he : 0 ≤ (e.map norm).sum := List.sum_nonneg (by simp only [List.mem_map]; rintro _ ⟨v, _, rfl⟩; exact norm_nonneg v)
                have hsum : a * (e.map norm).sum + wsum (fun e => (e.map norm).sum) g t = 0 := by
                  simpa [wsum] using hzero
                have ha0 : a * (e.map norm).sum = 0 := by nlinarith [mul_nonneg ha he]
                have ht0 : wsum (fun e => (e.map norm).sum) g t = 0 := by rw [ha0, zero_add] at hsum; exact hsum
                have hi := ih t hpt ht0
                have hsq : a * (e.map fun v => ‖v‖ ^ 2).sum = 0 := by
                  rcases mul_eq_zero.1 ha0 with h | h
                  · rw [h, zero_mul]
                  · have : ∀ v ∈ e, ‖v‖ = 0 := by
                      clear ih hi ht0 hsum ha0 hr hzero he
                      induction e with
                      | nil => simp
                      | cons u e ih =>
                        have hu := norm_nonneg u
                        have he : 0 ≤ (e.map norm).sum := List.sum_nonneg (by simp only [List.mem_map]; rintro _ ⟨v, _, rfl⟩; exact norm_nonneg v)
                        simp only [List.map_cons, List.sum_cons] at h
                        intro v hv
                        rcases List.mem_cons.1 hv with rfl | hv
                        · linarith
                        · exact ih (by linarith) v hv
                    have h2 : (e.map fun v => ‖v‖ ^ 2) = e.map fun _ => (0 : ℝ) := List.map_congr_left fun v hv => by rw [this v hv]; simp
                    rw [h2]; simp
                simp only [wsum] at hi ⊢
                simp only [List.zipWith_cons_cons, List.sum_cons, hsq, hi, add_zero]
          exact absurd h3 (ne_of_gt hlt)
        · have := wsum_le m _ _ (hpos n) hmin
          rw [← hW, ← h0, mul_zero] at this
          exact this
      rw [← h0, mul_zero, hz, sub_zero] at hle
      exact sub_eq_zero.1 (abs_nonpos_iff.1 hle)
    · left
      refine ⟨?_, rfl⟩
      show f (trial pb cf s n) < f s.params
      nlinarith
  obtain ⟨s', hs'⟩ := C40_returns pb cf s hf n hacc (n + 1) (Nat.lt_succ_self n)
  have hall : ∀ fuel ≥ n + 1, gdStep pb cf fuel s = some s' := by
    intro fuel hfuel
    obtain ⟨s'', hs''⟩ := C40_returns pb cf s hf n hacc fuel (by omega)
    obtain ⟨k, _, hk1, hk2, hk3, hk4⟩ := C40_move pb cf _ s s' hf hs'
    obtain ⟨k', _, hk1', hk2', hk3', hk4'⟩ := C40_move pb cf _ s s'' hf hs''
    have : k = k' := by
      rcases lt_trichotomy k k' with h | h | h
      · exact absurd hk2 (hk1' k h)
      · exact h
      · exact absurd hk2' (hk1 k' h)
    subst this
    rw [hs'']
    have : s'' = s' := by
      cases s''; cases s'
      simp only at hk3 hk4 hk3' hk4'
      rw [hk3, hk4, hk3', hk4']
    rw [this]
  obtain ⟨k, _, _, _, hk3, _⟩ := C40_move pb cf _ s s' hf hs'
  obtain ⟨c', hc1, hc2⟩ := (C40_no_increase_partial pb cf _ s s' hf hs').2 _ (hcost _ rfl)
  have hsh : SameShape s'.params s.params := by rw [hk3]; exact hshape k
  rw [hcost _ hsh] at hc1
  cases hc1
  exact ⟨n + 1, s', hall, hc2, hsh⟩

/-- The gradient is needed: with a direction in which the cost grows the search goes on for ever,
for all positive step lengths and decrease factors. -/
theorem C73_gradient_needed (γ₁ γ₂ a : ℝ) (hγ : 0 < γ₁) (ha : 0 < a) (fuel : Nat) :
    gdStep (E := ℝ) ⟨fun p => .fin p.flatten.sum, fun p => p.map (List.map fun _ => -1)⟩ ⟨γ₁, γ₂, [⟨none, none, none⟩]⟩ fuel
      ⟨[[0]], [a]⟩ = none := by
  set pb : GDProblem ℝ ℝ := ⟨fun p => .fin p.flatten.sum, fun p => p.map (List.map fun _ => -1)⟩ with hpb
  set cf : GDConf ℝ := ⟨γ₁, γ₂, [⟨none, none, none⟩]⟩ with hcf
  cases h : gdStep pb cf fuel ⟨[[0]], [a]⟩ with
  | none => rfl
  | some s' =>
    obtain ⟨n, _, _, hacc, _⟩ := C40_move pb cf fuel ⟨[[0]], [a]⟩ s' ⟨rfl, rfl, by simp [SameShape, hpb]⟩ h
    have hp : 0 < γ₁ ^ n * a := by positivity
    simp [hpb, hcf, trial, trialSteps, gdMove, Accepts, XF.lt, XF.eq, XF.isFinite] at hacc
    rcases hacc with h | h
    · linarith
    · rcases h with h | h
      · exact absurd h.1 hγ.ne'
      · exact absurd h ha.ne'

/-- The hypotheses of `C73_step_ends` hold for the square at three, with a first step that is much
too long. -/
example : ∃ bound s', ∀ fuel ≥ bound, gdStep (E := ℝ)
    ⟨fun p => .fin (p.flatten.map fun x => x * x).sum, fun p => p.map (List.map fun x => 2 * x)⟩
    ⟨1 / 2, 2, [⟨none, none, none⟩]⟩ fuel ⟨[[3]], [1000]⟩ = some s' := by
  obtain ⟨b, s', h, _⟩ := C73_step_ends (E := ℝ) (fun p => (p.flatten.map fun x => x * x).sum)
    ⟨fun p => .fin (p.flatten.map fun x => x * x).sum, fun p => p.map (List.map fun x => 2 * x)⟩
    ⟨1 / 2, 2, [⟨none, none, none⟩]⟩ ⟨[[3]], [1000]⟩ ⟨rfl, rfl, rfl⟩ (fun _ _ => rfl)
    (by
      intro ε hε
      refine ⟨ε, hε, fun y hy => ?_⟩
      obtain ⟨z, rfl⟩ : ∃ z, y = [[z]] := by
        match y, hy with
        | [[z]], _ => exact ⟨z, rfl⟩
      simp only [Spec.diff, Spec.norm1, Spec.pairing, List.zipWith_cons_cons, List.zipWith_nil_left, List.map_cons, List.map_nil,
        List.sum_cons, List.sum_nil, add_zero, List.flatten_cons, List.flatten_nil, List.append_nil, Real.norm_eq_abs]
      intro h
      have e : z * z - 3 * 3 - inner ℝ (2 * 3 : ℝ) (z - 3) = (z - 3) * (z - 3) := by
        simp [inner]; ring
      rw [e, abs_mul]
      exact mul_le_mul_of_nonneg_right h.le (abs_nonneg _))
    (by simp) (by intro o ho; simp at ho; subst ho; norm_num)
  exact ⟨b, s', h⟩

end
end Imodal
