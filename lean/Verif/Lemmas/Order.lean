import Verif.Lemmas.Expand
import Verif.Lemmas.Converge
/-!
# The order of the solvers: exact solutions and single steps
-/
set_option autoImplicit false
namespace Imodal
noncomputable section
open Filter Topology Set Asymptotics

variable {E F G : Type} [NormedAddCommGroup E] [NormedSpace ℝ E] [NormedAddCommGroup F] [NormedSpace ℝ F]
  [NormedAddCommGroup G] [NormedSpace ℝ G] {K : Set E}

/-! ## Bounds near a compact set -/

/-- What holds near each point of a compact set holds at a common distance. -/
theorem near_compact {P : E → Prop} (hK : IsCompact K) (h : ∀ a ∈ K, ∀ᶠ y in 𝓝 a, P y) : ∃ δ > 0, ∀ a ∈ K, ∀ y, ‖y - a‖ ≤ δ → P y := by
  refine hK.induction_on (p := fun S => ∃ δ > 0, ∀ a ∈ S, ∀ y, ‖y - a‖ ≤ δ → P y) ?_ ?_ ?_ ?_
  · exact ⟨1, one_pos, fun _ h => h.elim⟩
  · rintro S S' h ⟨δ, hδ, hp⟩
    exact ⟨δ, hδ, fun a ha => hp a (h ha)⟩
  · rintro S S' ⟨δ, hδ, hp⟩ ⟨δ', hδ', hp'⟩
    exact ⟨min δ δ', lt_min hδ hδ', fun a ha y hy => ha.elim (fun ha => hp a ha y (hy.trans (min_le_left _ _)))
      fun ha => hp' a ha y (hy.trans (min_le_right _ _))⟩
  · intro a ha
    obtain ⟨r, hr, hball⟩ := Metric.eventually_nhds_iff.1 (h a ha)
    refine ⟨Metric.ball a (r / 2), mem_nhdsWithin_of_mem_nhds (Metric.ball_mem_nhds _ (by linarith)), r / 4, by linarith, fun c hc y hy => hball ?_⟩
    rw [Metric.mem_ball, dist_eq_norm] at hc
    rw [dist_eq_norm]
    calc ‖y - a‖ = ‖(y - c) + (c - a)‖ := by rw [sub_add_sub_cancel]
      _ ≤ ‖y - c‖ + ‖c - a‖ := norm_add_le _ _
      _ < r := by linarith

theorem bounded_compact {g : E → G} (hK : IsCompact K) (h : ∀ a ∈ K, ContinuousAt g a) : ∃ C, 0 ≤ C ∧ ∀ a ∈ K, ‖g a‖ ≤ C := by
  obtain ⟨C, hC⟩ := hK.exists_bound_of_continuousOn fun a ha => (h a ha).continuousWithinAt
  exact ⟨max C 0, le_max_right _ _, fun a ha => (hC a ha).trans (le_max_left _ _)⟩

/-- Continuously differentiable functions are Lipschitz at the points of a compact set. -/
theorem lip_compact {g : E → G} (hK : IsCompact K) (h : ∀ a ∈ K, ContDiffAt ℝ 1 g a) :
    ∃ L, 0 ≤ L ∧ ∃ δ > 0, ∀ a ∈ K, ∀ y, ‖y - a‖ ≤ δ → ‖g y - g a‖ ≤ L * ‖y - a‖ := by
  refine hK.induction_on (p := fun S => ∃ L, 0 ≤ L ∧ ∃ δ > 0, ∀ a ∈ S, ∀ y, ‖y - a‖ ≤ δ → ‖g y - g a‖ ≤ L * ‖y - a‖) ?_ ?_ ?_ ?_
  · exact ⟨0, le_rfl, 1, one_pos, fun _ h => h.elim⟩
  · rintro S S' h ⟨L, hL, δ, hδ, hp⟩
    exact ⟨L, hL, δ, hδ, fun a ha => hp a (h ha)⟩
  · rintro S S' ⟨L, hL, δ, hδ, hp⟩ ⟨L', hL', δ', hδ', hp'⟩
    refine ⟨max L L', hL.trans (le_max_left _ _), min δ δ', lt_min hδ hδ', fun a ha y hy => ha.elim (fun ha => ?_) fun ha => ?_⟩
    · exact (hp a ha y (hy.trans (min_le_left _ _))).trans (mul_le_mul_of_nonneg_right (le_max_left _ _) (norm_nonneg _))
    · exact (hp' a ha y (hy.trans (min_le_right _ _))).trans (mul_le_mul_of_nonneg_right (le_max_right _ _) (norm_nonneg _))
  · intro a ha
    obtain ⟨L, U, hU, hL⟩ := (h a ha).exists_lipschitzOnWith
    obtain ⟨r, hr, hball⟩ := Metric.mem_nhds_iff.1 hU
    refine ⟨Metric.ball a (r / 2), mem_nhdsWithin_of_mem_nhds (Metric.ball_mem_nhds _ (by linarith)), L, L.2, r / 4, by linarith, fun c hc y hy => ?_⟩
    rw [Metric.mem_ball, dist_eq_norm] at hc
    have hy' : y ∈ U := hball (by
      rw [Metric.mem_ball, dist_eq_norm]
      calc ‖y - a‖ = ‖(y - c) + (c - a)‖ := by rw [sub_add_sub_cancel]
        _ ≤ ‖y - c‖ + ‖c - a‖ := norm_add_le _ _
        _ < r := by linarith)
    have hc' : c ∈ U := hball (by rw [Metric.mem_ball, dist_eq_norm]; linarith)
    have := hL.dist_le_mul _ hy' _ hc'
    rwa [dist_eq_norm, dist_eq_norm] at this

/-- The same for the derivative in a direction. -/
theorem lip_fderiv {g : E → G} (hK : IsCompact K) (h : ∀ a ∈ K, ContDiffAt ℝ 2 g a) :
    ∃ L, 0 ≤ L ∧ ∃ δ > 0, ∀ a ∈ K, ∀ y, ‖y - a‖ ≤ δ → ∀ u, ‖fderiv ℝ g y u - fderiv ℝ g a u‖ ≤ L * ‖y - a‖ * ‖u‖ := by
  obtain ⟨L, hL, δ, hδ, hp⟩ := lip_compact (g := fderiv ℝ g) hK fun a ha => (h a ha).fderiv_right (by norm_num)
  refine ⟨L, hL, δ, hδ, fun a ha y hy u => ?_⟩
  rw [← ContinuousLinearMap.sub_apply]
  exact (ContinuousLinearMap.le_opNorm _ _).trans (mul_le_mul_of_nonneg_right (hp a ha y hy) (norm_nonneg _))

theorem bounded_fderiv {g : E → G} (hK : IsCompact K) (h : ∀ a ∈ K, ContDiffAt ℝ 1 g a) : ∃ C, 0 ≤ C ∧ ∀ a ∈ K, ∀ u, ‖fderiv ℝ g a u‖ ≤ C * ‖u‖ := by
  obtain ⟨C, hC, hb⟩ := bounded_compact (g := fderiv ℝ g) hK fun a ha => by
    have : ContDiffAt ℝ 0 (fderiv ℝ g) a := (h a ha).fderiv_right (by norm_num)
    exact this.continuousAt
  exact ⟨C, hC, fun a ha u => (ContinuousLinearMap.le_opNorm _ _).trans (mul_le_mul_of_nonneg_right (hb a ha) (norm_nonneg _))⟩

theorem ord_fderiv {g : E → G} (hK : IsCompact K) (h : ∀ a ∈ K, ContDiffAt ℝ 1 g a) (n : Nat) (u : E × ℝ → E) (hu : Ord K n u) :
    Ord K n fun p => fderiv ℝ g p.1 (u p) := by
  obtain ⟨C, hC, hb⟩ := bounded_fderiv hK h
  obtain ⟨A, hA, r, hr, hu⟩ := ord_iff.1 hu
  refine ord_iff.2 ⟨C * A, by positivity, r, hr, fun a ha x h0 h1 => (hb a ha _).trans ?_⟩
  rw [mul_assoc]
  exact mul_le_mul_of_nonneg_left (hu a ha x h0 h1) hC

theorem ord_compact {g : E → G} (hK : IsCompact K) (h : ∀ a ∈ K, ContinuousAt g a) : Ord K 0 fun p => g p.1 := by
  obtain ⟨C, -, hb⟩ := bounded_compact hK h
  exact ord_point hb

/-- A point of a ray is at most as far as its end. -/
theorem ray_le {a v : E} {s δ : ℝ} (hs : s ∈ Icc (0 : ℝ) 1) (hv : ‖v‖ ≤ δ) : ‖a + s • v - a‖ ≤ δ ∧ ‖a + s • v - a‖ ≤ ‖v‖ := by
  have : ‖a + s • v - a‖ ≤ ‖v‖ := by
    rw [add_sub_cancel_left, norm_smul, Real.norm_of_nonneg hs.1]
    exact mul_le_of_le_one_left (norm_nonneg _) hs.2
  exact ⟨this.trans hv, this⟩

theorem expand1 {f : E → F} (hK : IsCompact K) (h : ∀ a ∈ K, ContDiffAt ℝ 2 f a) : Expand1 K f (fderiv ℝ f) where
  b0 := ord_compact hK fun a ha => (h a ha).continuousAt
  b1 := ord_compact hK fun a ha => ((h a ha).fderiv_right (m := 1) (by norm_num)).continuousAt
  taylor := by
    obtain ⟨L, hL, δ, hδ, hp⟩ := lip_fderiv hK h
    obtain ⟨δ', hδ', hd⟩ := near_compact (P := fun y => DifferentiableAt ℝ f y) hK fun a ha =>
      ((h a ha).eventually (by decide)).mono fun y hy => hy.differentiableAt two_ne_zero
    refine ⟨L, hL, min δ δ', lt_min hδ hδ', fun a ha v hv => taylor_ray1 (fun s hs => ?_) fun s hs => ?_⟩
    · exact (hd a ha _ (ray_le hs (hv.trans (min_le_right _ _))).1).hasFDerivAt
    · refine (hp a ha _ (ray_le hs (hv.trans (min_le_left _ _))).1 v).trans ?_
      rw [pow_two, ← mul_assoc]
      gcongr
      exact (ray_le hs le_rfl).2

/-- A bilinear map applied twice. -/
theorem apply_twice (B : E →L[ℝ] E →L[ℝ] F) (v w : E) : ‖B v w‖ ≤ ‖B‖ * ‖v‖ * ‖w‖ := ContinuousLinearMap.le_opNorm₂ _ _ _

theorem contDiffAt_fderiv {n k : Nat} {g : E → G} {a : E} (h : ContDiffAt ℝ n g a) (hk : k + 1 ≤ n) : ContDiffAt ℝ k (fderiv ℝ g) a :=
  h.fderiv_right (by exact_mod_cast hk)

theorem near_diff {n : Nat} {g : E → G} (hK : IsCompact K) (h : ∀ a ∈ K, ContDiffAt ℝ (n + 1 : Nat) g a) :
    ∃ δ > 0, ∀ a ∈ K, ∀ y, ‖y - a‖ ≤ δ → DifferentiableAt ℝ g y :=
  near_compact hK fun a ha => ((h a ha).eventually (by simp)).mono fun y hy => hy.differentiableAt (by simp)

theorem expand3 {f : E → F} (hK : IsCompact K) (h : ∀ a ∈ K, ContDiffAt ℝ (4 : Nat) f a) :
    Expand3 K f (fderiv ℝ f) (fderiv ℝ (fderiv ℝ f)) (fderiv ℝ (fderiv ℝ (fderiv ℝ f))) := by
  have c1 : ∀ a ∈ K, ContDiffAt ℝ (3 : Nat) (fderiv ℝ f) a := fun a ha => contDiffAt_fderiv (h a ha) (by norm_num)
  have c2 : ∀ a ∈ K, ContDiffAt ℝ (2 : Nat) (fderiv ℝ (fderiv ℝ f)) a := fun a ha => contDiffAt_fderiv (c1 a ha) (by norm_num)
  refine ⟨ord_compact hK fun a ha => (h a ha).continuousAt, ord_compact hK fun a ha => (c1 a ha).continuousAt,
    ord_compact hK fun a ha => (c2 a ha).continuousAt, ord_fderiv hK fun a ha => (c2 a ha).of_le (by norm_num), ?_⟩
  obtain ⟨L, hL, δ, hδ, hp⟩ := lip_fderiv hK fun a ha => (c2 a ha)
  obtain ⟨δ0, hδ0, hd0⟩ := near_diff (n := 3) hK h
  obtain ⟨δ1, hδ1, hd1⟩ := near_diff (n := 2) hK c1
  obtain ⟨δ2, hδ2, hd2⟩ := near_diff (n := 1) hK c2
  refine ⟨L, hL, min δ (min δ0 (min δ1 δ2)), by positivity, fun a ha v hv => taylor_ray3 (fun s hs => ?_) (fun s hs => ?_) (fun s hs => ?_) fun s hs => ?_⟩
  · exact (hd0 a ha _ (ray_le hs (hv.trans (by simp))).1).hasFDerivAt
  · exact (hd1 a ha _ (ray_le hs (hv.trans (by simp))).1).hasFDerivAt
  · exact (hd2 a ha _ (ray_le hs (hv.trans (by simp))).1).hasFDerivAt
  · have q := hp a ha _ (ray_le hs (hv.trans (min_le_left _ _))).1 v
    have e := apply_twice (fderiv ℝ (fderiv ℝ (fderiv ℝ f)) (a + s • v) v - fderiv ℝ (fderiv ℝ (fderiv ℝ f)) a v) v v
    rw [ContinuousLinearMap.sub_apply, ContinuousLinearMap.sub_apply] at e
    refine e.trans ?_
    calc _ ≤ L * ‖v‖ * ‖v‖ * ‖v‖ * ‖v‖ := by
          gcongr
          refine q.trans ?_
          gcongr
          exact (ray_le hs le_rfl).2
      _ = L * ‖v‖ ^ 4 := by ring

/-! ## The exact solution -/

/-- The derivatives of a solution of `x' = f(x)`, as functions of `x`. -/
def lie (f : E → E) : Nat → E → E
  | 0 => id
  | k + 1 => fun y => fderiv ℝ (lie f k) y (f y)

theorem lie_one (f : E → E) : lie f 1 = f := by
  funext y
  change fderiv ℝ id y (f y) = f y
  rw [fderiv_id]
  rfl

theorem lie_contDiffAt {f : E → E} {a : E} {n : Nat} (h : ContDiffAt ℝ n f a) : ∀ k j : Nat, k + j ≤ n + 1 → j ≤ n → ContDiffAt ℝ j (lie f k) a
  | 0, _, _, _ => contDiffAt_id
  | 1, j, hj, _ => by rw [lie_one]; exact h.of_le (by exact_mod_cast (by omega : j ≤ n))
  | k + 2, j, hj, hn => by
    have h1 := lie_contDiffAt h (k + 1) (j + 1) (by omega) (by omega)
    exact (contDiffAt_fderiv h1 le_rfl).clm_apply (h.of_le (by exact_mod_cast hn))

/-- Taylor's formula along a solution. -/
theorem curve_taylor {f : E → E} {x : ℝ → E} {T : ℝ} (hx : Solves f x T) {n : Nat} (hn : 1 ≤ n) (hf : ∀ t ∈ Icc 0 T, ContDiffAt ℝ n f (x t)) :
    ∃ C, 0 ≤ C ∧ ∃ r > 0, ∀ t t', 0 ≤ t → t ≤ t' → t' ≤ T → t' - t < r →
      ‖x t' - ∑ i ∈ Finset.range (n + 1), ((t' - t) ^ i / i.factorial) • lie f i (x t)‖ ≤ C * (t' - t) ^ (n + 1) := by
  have hc : ContinuousOn x (Icc 0 T) := fun t ht => (hx t ht).continuousWithinAt
  have hK : IsCompact (x '' Icc 0 T) := isCompact_Icc.image_of_continuousOn hc
  have hfK : ∀ a ∈ x '' Icc 0 T, ContDiffAt ℝ n f a := by rintro _ ⟨t, ht, rfl⟩; exact hf t ht
  obtain ⟨M, hM, hb⟩ := bounded_compact hK fun a ha => (hfK a ha).continuousAt
  obtain ⟨L, hL, δ, hδ, hlip⟩ := lip_compact (g := lie f n) hK fun a ha => lie_contDiffAt (hfK a ha) n 1 (by omega) hn
  refine ⟨L * M, by positivity, δ / (M + 1), by positivity, fun t t' h0 htt h1 hr => ?_⟩
  set η := t' - t with hη
  have hη0 : 0 ≤ η := by linarith
  have mem : ∀ u ∈ Icc 0 η, t + u ∈ Icc 0 T := fun u hu => ⟨by linarith [hu.1], by linarith [hu.2]⟩
  have hd : ∀ u ∈ Icc 0 η, HasDerivWithinAt (fun u => x (t + u)) (f (x (t + u))) (Icc 0 η) u := fun u hu => by
    have h2 : HasDerivWithinAt (fun u => t + u) 1 (Icc 0 η) u := ((hasDerivAt_id u).const_add t).hasDerivWithinAt
    have := (hx (t + u) (mem u hu)).scomp u h2 mem
    rwa [one_smul] at this
  have hk : ∀ k < n + 1, ∀ u ∈ Icc 0 η, HasDerivWithinAt (fun u => lie f k (x (t + u))) (lie f (k + 1) (x (t + u))) (Icc 0 η) u := fun k hk u hu => by
    have h2 : ContDiffAt ℝ (1 : Nat) (lie f k) (x (t + u)) := lie_contDiffAt (hf _ (mem u hu)) k 1 (by omega) hn
    exact (h2.differentiableAt (by simp)).hasFDerivAt.comp_hasDerivWithinAt u (hd u hu)
  have near : ∀ u ∈ Icc 0 η, ‖x (t + u) - x t‖ ≤ M * η := fun u hu =>
    mv_bound (g := fun u => x (t + u) - x t) (g' := fun u => f (x (t + u))) (fun v hv => (hd v hv).sub_const _)
      (fun v hv => hb _ ⟨_, mem v hv, rfl⟩) (by simp) hu
  have ht : x t ∈ x '' Icc 0 T := ⟨t, ⟨h0, by linarith⟩, rfl⟩
  have hδ' : M * η ≤ δ := by
    rw [lt_div_iff₀ (by positivity)] at hr
    nlinarith
  have key : ∀ j ≤ n, ∀ u ∈ Icc 0 η, ‖lie f (n - j) (x (t + u)) - ∑ i ∈ Finset.range (j + 1), (u ^ i / i.factorial) • lie f (n - j + i) (x t)‖
      ≤ L * M * η ^ (j + 1) := by
    intro j
    induction j with
    | zero =>
      intro _ u hu
      simp only [Nat.sub_zero, zero_add, Finset.sum_range_one, pow_zero, Nat.factorial_zero, Nat.cast_one, div_one, one_smul, add_zero, pow_one]
      refine (hlip _ ht _ ((near u hu).trans hδ')).trans ?_
      rw [mul_assoc]
      exact mul_le_mul_of_nonneg_left (near u hu) hL
    | succ j ih =>
      intro hj u hu
      have := taylor_up (b := η) (C := L * M * η ^ (j + 1)) (j + 1) (fun i => lie f (n - (j + 1) + i) (x t))
        (g := fun u => lie f (n - (j + 1)) (x (t + u))) (g' := fun u => lie f (n - j) (x (t + u)))
        (fun v hv => by
          have := hk (n - (j + 1)) (by omega) v hv
          rwa [show n - (j + 1) + 1 = n - j by omega] at this) (by simp)
        (fun v hv => by
          have := ih (by omega) v hv
          rwa [show (fun i => (v ^ i / (i.factorial : ℝ)) • lie f (n - j + i) (x t))
            = fun i => (v ^ i / (i.factorial : ℝ)) • lie f (n - (j + 1) + (i + 1)) (x t) from
              funext fun i => by rw [show n - (j + 1) + (i + 1) = n - j + i by omega]] at this) u hu
      rw [pow_succ, ← mul_assoc]
      exact this
  have := key n le_rfl η ⟨hη0, le_rfl⟩
  simp only [Nat.sub_self, zero_add] at this
  rw [show t + η = t' by rw [hη]; ring] at this
  exact this

theorem lie_two {f : E → E} : lie f 2 = fun y => fderiv ℝ f y (f y) := by
  funext y
  rw [show lie f 2 y = fderiv ℝ (lie f 1) y (f y) from rfl, lie_one]

theorem lie_three {f : E → E} {a : E} (h : ContDiffAt ℝ (2 : Nat) f a) :
    lie f 3 a = fderiv ℝ (fderiv ℝ f) a (f a) (f a) + fderiv ℝ f a (fderiv ℝ f a (f a)) := by
  have h0 : HasFDerivAt f (fderiv ℝ f a) a := (h.differentiableAt (by simp)).hasFDerivAt
  have h1 : HasFDerivAt (fderiv ℝ f) (fderiv ℝ (fderiv ℝ f) a) a := ((contDiffAt_fderiv (k := 1) h le_rfl).differentiableAt (by simp)).hasFDerivAt
  rw [show lie f 3 a = fderiv ℝ (lie f 2) a (f a) from rfl, lie_two, (h1.clm_apply h0).fderiv]
  simp only [ContinuousLinearMap.add_apply, ContinuousLinearMap.coe_comp', Function.comp_apply, ContinuousLinearMap.flip_apply]
  abel

theorem lie_four {f : E → E} {a : E} (h : ContDiffAt ℝ (3 : Nat) f a) :
    lie f 4 a = fderiv ℝ (fderiv ℝ (fderiv ℝ f)) a (f a) (f a) (f a) + (3 : ℝ) • fderiv ℝ (fderiv ℝ f) a (f a) (fderiv ℝ f a (f a))
      + fderiv ℝ f a (fderiv ℝ (fderiv ℝ f) a (f a) (f a)) + fderiv ℝ f a (fderiv ℝ f a (fderiv ℝ f a (f a))) := by
  set w := f a with hw
  have e0 : a + (0 : ℝ) • w = a := by rw [zero_smul, add_zero]
  have c1 : ContDiffAt ℝ (2 : Nat) (fderiv ℝ f) a := contDiffAt_fderiv h le_rfl
  have c2 : ContDiffAt ℝ (1 : Nat) (fderiv ℝ (fderiv ℝ f)) a := contDiffAt_fderiv c1 le_rfl
  have h0 := ray_deriv (v := w) (s := 0) (by rw [e0]; exact (h.differentiableAt (by simp)).hasFDerivAt)
  have h1 := ray_deriv (v := w) (s := 0) (by rw [e0]; exact (c1.differentiableAt (by simp)).hasFDerivAt)
  have h2 := ray_deriv (v := w) (s := 0) (by rw [e0]; exact (c2.differentiableAt (by simp)).hasFDerivAt)
  have hl : DifferentiableAt ℝ (lie f 3) a := (lie_contDiffAt h 3 1 (by norm_num) (by norm_num)).differentiableAt (by simp)
  have h3 := ray_deriv (v := w) (s := 0) (by rw [e0]; exact hl.hasFDerivAt)
  have h4 := ((h2.clm_apply h0).clm_apply h0).add (h1.clm_apply (h1.clm_apply h0))
  have hev : (fun s : ℝ => lie f 3 (a + s • w)) =ᶠ[𝓝 0] fun s => fderiv ℝ (fderiv ℝ f) (a + s • w) (f (a + s • w)) (f (a + s • w))
      + fderiv ℝ f (a + s • w) (fderiv ℝ f (a + s • w) (f (a + s • w))) := by
    have hc : Tendsto (fun s : ℝ => a + s • w) (𝓝 0) (𝓝 a) := by
      have : Continuous fun s : ℝ => a + s • w := by fun_prop
      have := this.tendsto 0
      rwa [e0] at this
    filter_upwards [hc.eventually (h.eventually (by simp))] with s hs
    exact lie_three (hs.of_le (by norm_num))
  have h5 := (h4.congr_of_eventuallyEq hev).unique h3
  have hsym : fderiv ℝ (fderiv ℝ f) a (fderiv ℝ f a w) w = fderiv ℝ (fderiv ℝ f) a w (fderiv ℝ f a w) :=
    (h.isSymmSndFDerivAt (by rw [minSmoothness_of_isRCLikeNormedField]; exact_mod_cast (by norm_num : 2 ≤ 3))).eq _ _
  rw [show lie f 4 a = fderiv ℝ (lie f 3) a w from rfl, ← h5]
  simp only [e0, ContinuousLinearMap.add_apply, ← hw, hsym, map_add]
  module

/-! ## Single steps -/

theorem Ord.congr_on {n : Nat} {u v : E × ℝ → F} (hu : Ord K n u) (h : ∀ a ∈ K, ∀ η, u (a, η) = v (a, η)) : Ord K n v := by
  rw [ord_iff] at hu ⊢
  obtain ⟨C, hC, r, hr, hu⟩ := hu
  exact ⟨C, hC, r, hr, fun a ha x h0 h1 => by rw [← h]; exacts [hu a ha x h0 h1, ha]⟩

/-- The slope of a step of the midpoint method. -/
def midSlope (f : E → E) (p : E × ℝ) : E := f (p.1 + (0.5 * p.2) • f p.1)

theorem Expand1.mid {f : E → E} {f1 : E → E →L[ℝ] E} (h : Expand1 K f f1) :
    Ord K 2 fun p => midSlope f p - (f p.1 + (p.2 / 2) • f1 p.1 (f p.1)) := by
  have := h.stage (v := fun p => (0.5 * p.2) • f p.1) (w0 := fun a => (1 / 2 : ℝ) • f a) (h.b0.const _)
    ((h.b0.mono le_rfl |>.step 2 |>.const 0).congr fun p => by rw [zero_smul]; symm; rw [smul_smul, sub_eq_zero]; congr 1; ring)
  refine this.congr fun p => ?_
  rw [midSlope, map_smul, smul_smul]
  congr 3
  ring

/-- The slopes of a step of `'rk4'`. -/
def rkSlope2 (f : E → E) (p : E × ℝ) : E := f (p.1 + (p.2 * (1 / 3)) • f p.1)
def rkSlope3 (f : E → E) (p : E × ℝ) : E := f (p.1 + p.2 • (rkSlope2 f p - (1 / 3 : ℝ) • f p.1))
def rkSlope4 (f : E → E) (p : E × ℝ) : E := f (p.1 + p.2 • (f p.1 - rkSlope2 f p + rkSlope3 f p))
def rkSlope (f : E → E) (p : E × ℝ) : E := (0.125 : ℝ) • (f p.1 + (3 : ℝ) • (rkSlope2 f p + rkSlope3 f p) + rkSlope4 f p)

section
variable {f : E → E} {f1 : E → E →L[ℝ] E} {f2 : E → E →L[ℝ] E →L[ℝ] E} {f3 : E → E →L[ℝ] E →L[ℝ] E →L[ℝ] E}

theorem ord_zero {n : Nat} : Ord K n fun _ => (0 : F) := isBigO_zero _ _

theorem Expand3.slope2 (h : Expand3 K f f1 f2 f3) : Ord K 4 fun p => rkSlope2 f p - (f p.1 + p.2 • (1 / 3 : ℝ) • f1 p.1 (f p.1)
    + p.2 ^ 2 • (1 / 18 : ℝ) • f2 p.1 (f p.1) (f p.1) + p.2 ^ 3 • (1 / 162 : ℝ) • f3 p.1 (f p.1) (f p.1) (f p.1)) := by
  have := h.stage (v := fun p => (p.2 * (1 / 3)) • f p.1) (w0 := fun a => (1 / 3 : ℝ) • f a) (w1 := fun _ => 0) (w2 := fun _ => 0) (h.b0.const _)
    ord_zero ord_zero (ord_zero.congr fun p => by simp only [smul_zero, add_zero]; module)
  refine this.congr fun p => ?_
  rw [rkSlope2]
  simp only [map_smul, map_zero, ContinuousLinearMap.smul_apply, ContinuousLinearMap.zero_apply]
  module

theorem Expand3.slope3 (h : Expand3 K f f1 f2 f3) : Ord K 4 fun p => rkSlope3 f p - (f p.1 + p.2 • (2 / 3 : ℝ) • f1 p.1 (f p.1)
    + p.2 ^ 2 • ((1 / 3 : ℝ) • f1 p.1 (f1 p.1 (f p.1)) + (2 / 9 : ℝ) • f2 p.1 (f p.1) (f p.1))
    + p.2 ^ 3 • ((1 / 18 : ℝ) • f1 p.1 (f2 p.1 (f p.1) (f p.1)) + (1 / 9 : ℝ) • (f2 p.1 (f p.1) (f1 p.1 (f p.1)) + f2 p.1 (f1 p.1 (f p.1)) (f p.1))
      + (4 / 81 : ℝ) • f3 p.1 (f p.1) (f p.1) (f p.1))) := by
  have b1 := h.b1.apply h.b0
  have b2 := (h.b2.apply h.b0).apply h.b0
  have b3 := ((h.b3 _ _ h.b0).apply h.b0).apply h.b0
  have := h.stage (v := fun p => p.2 • (rkSlope2 f p - (1 / 3 : ℝ) • f p.1)) (w0 := fun a => (2 / 3 : ℝ) • f a) (w1 := fun a => (1 / 3 : ℝ) • f1 a (f a))
    (w2 := fun a => (1 / 18 : ℝ) • f2 a (f a) (f a)) (h.b0.const _) (b1.const _) (b2.const _)
    (((h.slope2.step 1).mono (by norm_num)).add ((b3.const (1 / 162)).step 4) |>.congr fun p => by module)
  refine this.congr fun p => ?_
  rw [rkSlope3]
  simp only [map_smul, ContinuousLinearMap.smul_apply]
  module

theorem Expand3.slope4 (h : Expand3 K f f1 f2 f3) : Ord K 4 fun p => rkSlope4 f p - (f p.1 + p.2 • f1 p.1 (f p.1)
    + p.2 ^ 2 • ((1 / 3 : ℝ) • f1 p.1 (f1 p.1 (f p.1)) + (1 / 2 : ℝ) • f2 p.1 (f p.1) (f p.1))
    + p.2 ^ 3 • ((1 / 3 : ℝ) • f1 p.1 (f1 p.1 (f1 p.1 (f p.1))) + (1 / 6 : ℝ) • f1 p.1 (f2 p.1 (f p.1) (f p.1))
      + (1 / 6 : ℝ) • (f2 p.1 (f p.1) (f1 p.1 (f p.1)) + f2 p.1 (f1 p.1 (f p.1)) (f p.1))
      + (1 / 6 : ℝ) • f3 p.1 (f p.1) (f p.1) (f p.1))) := by
  have b1 := h.b1.apply h.b0
  have b11 := h.b1.apply b1
  have b2 := (h.b2.apply h.b0).apply h.b0
  have b3 := ((h.b3 _ _ h.b0).apply h.b0).apply h.b0
  have b12 := h.b1.apply b2
  have b21 := (h.b2.apply h.b0).apply b1
  have b21' := (h.b2.apply b1).apply h.b0
  have := h.stage (v := fun p => p.2 • (f p.1 - rkSlope2 f p + rkSlope3 f p)) (w0 := f) (w1 := fun a => (1 / 3 : ℝ) • f1 a (f a))
    (w2 := fun a => (1 / 3 : ℝ) • f1 a (f1 a (f a)) + (1 / 6 : ℝ) • f2 a (f a) (f a)) h.b0 (b1.const _) ((b11.const _).add (b2.const _))
    ((((h.slope3.step 1).sub (h.slope2.step 1)).mono (by norm_num)).add
      (((b12.const (1 / 18)).add (((b21.add b21').const (1 / 9)).add (b3.const (4 / 81 - 1 / 162)))).step 4) |>.congr fun p => by module)
  refine this.congr fun p => ?_
  rw [rkSlope4]
  simp only [map_smul, map_add, ContinuousLinearMap.smul_apply]
  module

theorem Expand3.rk (h : Expand3 K f f1 f2 f3) : Ord K 4 fun p => rkSlope f p - (f p.1 + p.2 • (1 / 2 : ℝ) • f1 p.1 (f p.1)
    + p.2 ^ 2 • (1 / 6 : ℝ) • (f2 p.1 (f p.1) (f p.1) + f1 p.1 (f1 p.1 (f p.1)))
    + p.2 ^ 3 • (1 / 24 : ℝ) • (f3 p.1 (f p.1) (f p.1) (f p.1) + (3 / 2 : ℝ) • (f2 p.1 (f p.1) (f1 p.1 (f p.1)) + f2 p.1 (f1 p.1 (f p.1)) (f p.1))
      + f1 p.1 (f2 p.1 (f p.1) (f p.1)) + f1 p.1 (f1 p.1 (f1 p.1 (f p.1))))) := by
  refine ((((h.slope2.add h.slope3).const 3).add h.slope4).const 0.125).congr fun p => ?_
  rw [rkSlope]
  module
end

end
end Imodal
