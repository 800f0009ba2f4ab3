import Verif.Lemmas.Flow
import Mathlib.Analysis.Calculus.ContDiff.RCLike
import Mathlib.Analysis.Calculus.MeanValue
import Mathlib.Analysis.SpecialFunctions.Exp
/-!
# Fixed step solvers converge
-/
set_option autoImplicit false
namespace Imodal
noncomputable section
open Filter Topology Set

variable {E : Type} [NormedAddCommGroup E] [NormedSpace ℝ E]

/-- Around the points of `S` the right-hand side is defined, bounded and Lipschitz, at a common distance. -/
structure Tube (X : E → Py E) (f : E → E) (S : Set E) (δ L M : ℝ) : Prop where
  pos : 0 < δ
  lip0 : 0 ≤ L
  bound0 : 0 ≤ M
  ok : ∀ a ∈ S, ∀ y, ‖y - a‖ ≤ δ → X y = .ok (f y)
  bound : ∀ a ∈ S, ∀ y, ‖y - a‖ ≤ δ → ‖f y‖ ≤ M
  lip : ∀ a ∈ S, ∀ y z, ‖y - a‖ ≤ δ → ‖z - a‖ ≤ δ → ‖f y - f z‖ ≤ L * ‖y - z‖

theorem Tube.mono {X : E → Py E} {f : E → E} {S S' : Set E} {δ δ' L L' M M' : ℝ} (h : Tube X f S δ L M) (hS : S' ⊆ S) (h0 : 0 < δ') (h1 : δ' ≤ δ)
    (h2 : L ≤ L') (h3 : M ≤ M') : Tube X f S' δ' L' M' where
  pos := h0
  lip0 := h.lip0.trans h2
  bound0 := h.bound0.trans h3
  ok a ha y hy := h.ok a (hS ha) y (hy.trans h1)
  bound a ha y hy := (h.bound a (hS ha) y (hy.trans h1)).trans h3
  lip a ha y z hy hz := (h.lip a (hS ha) y z (hy.trans h1) (hz.trans h1)).trans (mul_le_mul_of_nonneg_right h2 (norm_nonneg _))

theorem Tube.union {X : E → Py E} {f : E → E} {S S' : Set E} {δ L M : ℝ} (h : Tube X f S δ L M) (h' : Tube X f S' δ L M) :
    Tube X f (S ∪ S') δ L M where
  pos := h.pos
  lip0 := h.lip0
  bound0 := h.bound0
  ok a ha := ha.elim (h.ok a) (h'.ok a)
  bound a ha := ha.elim (h.bound a) (h'.bound a)
  lip a ha := ha.elim (h.lip a) (h'.lip a)

/-- Around a compact set there is such a distance. -/
theorem exists_tube {X : E → Py E} {f : E → E} {K : Set E} (hK : IsCompact K) (hf : ∀ a ∈ K, ContDiffAt ℝ 1 f a)
    (hX : ∀ a ∈ K, ∀ᶠ y in 𝓝 a, X y = .ok (f y)) : ∃ δ L M, Tube X f K δ L M := by
  refine hK.induction_on (p := fun S => ∃ δ L M, Tube X f S δ L M) ?_ ?_ ?_ ?_
  · exact ⟨1, 0, 0, one_pos, le_rfl, le_rfl, fun _ h => h.elim, fun _ h => h.elim, fun _ h => h.elim⟩
  · rintro S S' h ⟨δ, L, M, ht⟩
    exact ⟨δ, L, M, ht.mono h ht.pos le_rfl le_rfl le_rfl⟩
  · rintro S S' ⟨δ, L, M, ht⟩ ⟨δ', L', M', ht'⟩
    exact ⟨min δ δ', max L L', max M M',
      (ht.mono subset_rfl (lt_min ht.pos ht'.pos) (min_le_left _ _) (le_max_left _ _) (le_max_left _ _)).union
        (ht'.mono subset_rfl (lt_min ht.pos ht'.pos) (min_le_right _ _) (le_max_right _ _) (le_max_right _ _))⟩
  · intro a ha
    obtain ⟨L, U, hU, hL⟩ := (hf a ha).exists_lipschitzOnWith
    have hb : ∀ᶠ y in 𝓝 a, ‖f y‖ < ‖f a‖ + 1 :=
      (hf a ha).continuousAt.norm.eventually (gt_mem_nhds (lt_add_one _))
    obtain ⟨r, hr, hball⟩ := Metric.mem_nhds_iff.1 (inter_mem hU ((hX a ha).and hb))
    refine ⟨Metric.ball a (r / 2), mem_nhdsWithin_of_mem_nhds (Metric.ball_mem_nhds _ (by linarith)), r / 4, L, ‖f a‖ + 1, by linarith, L.2,
      by positivity, ?_, ?_, ?_⟩
    all_goals
      intro c hc y
      have hin : ∀ z, ‖z - c‖ ≤ r / 4 → z ∈ U ∩ {y | X y = Except.ok (f y) ∧ ‖f y‖ < ‖f a‖ + 1} := fun z hz => hball (by
        rw [Metric.mem_ball, dist_eq_norm] at hc ⊢
        calc ‖z - a‖ = ‖(z - c) + (c - a)‖ := by rw [sub_add_sub_cancel]
          _ ≤ ‖z - c‖ + ‖c - a‖ := norm_add_le _ _
          _ < r := by linarith)
    · exact fun hy => (hin y hy).2.1
    · exact fun hy => (hin y hy).2.2.le
    · exact fun z hy hz => by
        have := hL.dist_le_mul _ (hin y hy).1 _ (hin z hz).1
        rwa [dist_eq_norm, dist_eq_norm] at this

section
variable {X : E → Py E} {f : E → E} {S : Set E} {δ L M : ℝ}

theorem Tube.near (h : Tube X f S δ L M) {a : E} (ha : a ∈ S) {y v : E} (hy : ‖y - a‖ ≤ δ / 2) (hv : ‖v‖ ≤ δ / 2) :
    ‖y + v - a‖ ≤ δ := by
  calc ‖y + v - a‖ = ‖(y - a) + v‖ := by congr 1; abel
    _ ≤ ‖y - a‖ + ‖v‖ := norm_add_le _ _
    _ ≤ δ := by linarith

/-- One step differs from an Euler step in second order. -/
theorem Tube.step (h : Tube X f S δ L M) {a : E} (ha : a ∈ S) {y : E} (hy : ‖y - a‖ ≤ δ / 2) {t t' : ℝ} (ht : 0 ≤ t' - t)
    (hs : 3 * (t' - t) * M ≤ δ / 2) (s : Solver) :
    ∃ y', stepOf s X t t' y = .ok y' ∧ ‖y' - (y + (t' - t) • f y)‖ ≤ L * M * (t' - t) ^ 2 := by
  set η := t' - t with hη
  have hδ := h.pos
  have hL := h.lip0
  have hM := h.bound0
  have hηM : 0 ≤ η * M := mul_nonneg ht hM
  have hy' : ‖y - a‖ ≤ δ := by linarith
  have b1 := h.bound a ha y hy'
  have o1 := h.ok a ha y hy'
  have h0 : 0 ≤ L * M * η ^ 2 := by positivity
  -- a step of length at most `3 η M` stays in the tube
  have go : ∀ {v : E} {c : ℝ}, c ≤ 3 → ‖v‖ ≤ c * (η * M) → ‖y + v - a‖ ≤ δ := fun {v c} hc hv =>
    h.near ha hy (hv.trans (by nlinarith))
  have li : ∀ {v : E} {c : ℝ}, c ≤ 3 → ‖v‖ ≤ c * (η * M) → ‖f (y + v) - f y‖ ≤ L * (c * (η * M)) := fun {v c} hc hv => by
    have := h.lip a ha (y + v) y (go hc hv) hy'
    rw [add_sub_cancel_left] at this
    exact this.trans (mul_le_mul_of_nonneg_left hv hL)
  cases s with
  | euler =>
    refine ⟨y + η • f y, by rw [stepOf_euler, o1]; rfl, ?_⟩
    rw [sub_self, norm_zero]; exact h0
  | midpoint =>
    have v1 : ‖(0.5 * η) • f y‖ ≤ (1 / 2) * (η * M) := by
      rw [norm_smul, Real.norm_of_nonneg (by positivity)]
      nlinarith
    have o2 := h.ok a ha _ (go (by norm_num) v1)
    refine ⟨y + η • f (y + (0.5 * η) • f y), by rw [stepOf_midpoint, o1, ← hη]; dsimp only [Except.bind]; rw [o2]; rfl, ?_⟩
    rw [add_sub_add_left_eq_sub, ← smul_sub, norm_smul, Real.norm_of_nonneg ht]
    have := li (by norm_num) v1
    nlinarith [mul_le_mul_of_nonneg_left this ht]
  | rk4 =>
    set k₁ := f y with hk₁
    have v1 : ‖(η * (1 / 3)) • k₁‖ ≤ (1 / 3) * (η * M) := by
      rw [norm_smul, Real.norm_of_nonneg (by positivity)]
      nlinarith
    have o2 := h.ok a ha _ (go (by norm_num) v1)
    have b2 := h.bound a ha _ (go (by norm_num) v1)
    have l2 := li (by norm_num) v1
    set k₂ := f (y + (η * (1 / 3)) • k₁) with hk₂
    have v2 : ‖η • (k₂ - (1 / 3 : ℝ) • k₁)‖ ≤ (4 / 3) * (η * M) := by
      rw [norm_smul, Real.norm_of_nonneg ht]
      have : ‖k₂ - (1 / 3 : ℝ) • k₁‖ ≤ 4 / 3 * M := by
        refine (norm_sub_le _ _).trans ?_
        rw [norm_smul, Real.norm_of_nonneg (by norm_num)]
        linarith
      nlinarith
    have o3 := h.ok a ha _ (go (by norm_num) v2)
    have b3 := h.bound a ha _ (go (by norm_num) v2)
    have l3 := li (by norm_num) v2
    set k₃ := f (y + η • (k₂ - (1 / 3 : ℝ) • k₁)) with hk₃
    have v3 : ‖η • (k₁ - k₂ + k₃)‖ ≤ 3 * (η * M) := by
      rw [norm_smul, Real.norm_of_nonneg ht]
      have : ‖k₁ - k₂ + k₃‖ ≤ 3 * M := by
        refine (norm_add_le _ _).trans ?_
        have := norm_sub_le k₁ k₂
        linarith
      nlinarith
    have o4 := h.ok a ha _ (go le_rfl v3)
    have l4 := li le_rfl v3
    set k₄ := f (y + η • (k₁ - k₂ + k₃)) with hk₄
    refine ⟨y + (η * 0.125) • (k₁ + (3 : ℝ) • (k₂ + k₃) + k₄), by
      rw [stepOf_rk4, o1, ← hη]; dsimp only [Except.bind]; rw [o2]; dsimp only; rw [o3]; dsimp only; rw [o4]; rfl, ?_⟩
    have e : y + (η * 0.125) • (k₁ + (3 : ℝ) • (k₂ + k₃) + k₄) - (y + η • k₁)
        = (η * 0.125) • ((3 : ℝ) • (k₂ - k₁) + (3 : ℝ) • (k₃ - k₁) + (k₄ - k₁)) := by
      module
    rw [e, norm_smul, Real.norm_of_nonneg (by positivity)]
    have hn : ‖(3 : ℝ) • (k₂ - k₁) + (3 : ℝ) • (k₃ - k₁) + (k₄ - k₁)‖ ≤ 8 * (L * (η * M)) := by
      refine (norm_add_le _ _).trans ?_
      have h1 := norm_add_le ((3 : ℝ) • (k₂ - k₁)) ((3 : ℝ) • (k₃ - k₁))
      rw [norm_smul, norm_smul, Real.norm_of_nonneg (by norm_num : (0 : ℝ) ≤ 3)] at h1
      linarith
    nlinarith [mul_le_mul_of_nonneg_left hn ht]

end

/-! ## The exact solution -/

/-- A solution of `x' = f(x)` up to time `T`. -/
def Solves (f : E → E) (x : ℝ → E) (T : ℝ) : Prop := ∀ t ∈ Icc 0 T, HasDerivWithinAt x (f (x t)) (Icc 0 T) t

section
variable {X : E → Py E} {f : E → E} {δ L M T : ℝ} {x : ℝ → E}

/-- An Euler step from a point of the solution misses the solution in second order. -/
theorem Tube.curve (h : Tube X f (x '' Icc 0 T) δ L M) (hx : Solves f x T) {t t' : ℝ} (h0 : 0 ≤ t) (htt : t ≤ t') (h1 : t' ≤ T)
    (hs : (t' - t) * M ≤ δ) : ‖x t' - (x t + (t' - t) • f (x t))‖ ≤ L * M * (t' - t) ^ 2 := by
  have hsub : Icc t t' ⊆ Icc 0 T := Icc_subset_Icc h0 h1
  have hd : ∀ u ∈ Icc t t', HasDerivWithinAt x (f (x u)) (Icc t t') u := fun u hu => (hx u (hsub hu)).mono hsub
  have hb : ∀ u ∈ Icc t t', ‖f (x u)‖ ≤ M := fun u hu =>
    h.bound _ ⟨u, hsub hu, rfl⟩ _ (by rw [sub_self, norm_zero]; exact h.pos.le)
  have ht : t ∈ Icc t t' := ⟨le_rfl, htt⟩
  have ht' : t' ∈ Icc t t' := ⟨htt, le_rfl⟩
  have near : ∀ u ∈ Icc t t', ‖x u - x t‖ ≤ M * (t' - t) := fun u hu => by
    have := (convex_Icc t t').norm_image_sub_le_of_norm_hasDerivWithin_le hd hb ht hu
    refine this.trans (mul_le_mul_of_nonneg_left ?_ h.bound0)
    rw [Real.norm_of_nonneg (by linarith [hu.1])]
    linarith [hu.2]
  have hd2 : ∀ u ∈ Icc t t', HasDerivWithinAt (fun u => x u - u • f (x t)) (f (x u) - f (x t)) (Icc t t') u := fun u hu => by
    have := (hd u hu).sub ((hasDerivWithinAt_id u (Icc t t')).smul_const (f (x t)))
    simp only [id_eq, one_smul] at this
    exact this
  have hb2 : ∀ u ∈ Icc t t', ‖f (x u) - f (x t)‖ ≤ L * (M * (t' - t)) := fun u hu => by
    have := h.lip (x t) ⟨t, hsub ht, rfl⟩ (x u) (x t) ((near u hu).trans (by linarith)) (by rw [sub_self, norm_zero]; exact h.pos.le)
    exact this.trans (mul_le_mul_of_nonneg_left (near u hu) h.lip0)
  have := (convex_Icc t t').norm_image_sub_le_of_norm_hasDerivWithin_le hd2 hb2 ht ht'
  rw [Real.norm_of_nonneg (by linarith)] at this
  have e : x t' - t' • f (x t) - (x t - t • f (x t)) = x t' - (x t + (t' - t) • f (x t)) := by module
  rw [e] at this
  refine this.trans (le_of_eq (by ring))

theorem grid_step (T : ℝ) (it i : Nat) : gridTime T it (i + 1) - gridTime T it i = T / it := by
  unfold gridTime
  push_cast
  ring

theorem grid_le {T : ℝ} (hT : 0 ≤ T) {it i : Nat} (h : i ≤ it) : 0 ≤ gridTime T it i ∧ gridTime T it i ≤ T := by
  unfold gridTime
  constructor
  · positivity
  · rcases Nat.eq_zero_or_pos it with h0 | h0
    · subst h0; simpa using hT
    · rw [div_le_iff₀ (by exact_mod_cast h0)]
      exact mul_le_mul_of_nonneg_left (by exact_mod_cast h) hT

/-- The distance to the solution after `i` steps. -/
theorem Tube.orbitFrom (h : Tube X f (x '' Icc 0 T) δ L M) (hx : Solves f x T) (hT : 0 ≤ T) (s : Solver) {it : Nat}
    (h1 : 3 * (T / it) * M ≤ δ / 2) (h2 : 2 * L * M * (T / it) ^ 2 * it * (1 + T / it * L) ^ it ≤ δ / 2) (k : Nat) :
    ∀ (i : Nat) (y : E), i + k = it → ‖y - x (gridTime T it i)‖ ≤ 2 * L * M * (T / it) ^ 2 * i * (1 + T / it * L) ^ i →
      ∃ l, Imodal.orbitFrom s X T it i k y = .ok l ∧ ∀ j ≤ k, ∃ y', l[j]? = some y' ∧
        ‖y' - x (gridTime T it (i + j))‖ ≤ 2 * L * M * (T / it) ^ 2 * (i + j : Nat) * (1 + T / it * L) ^ (i + j) := by
  set η := T / (it : ℝ) with hη
  have hη0 : 0 ≤ η := by positivity
  have hL := h.lip0
  have hM := h.bound0
  have hδ := h.pos
  set c := 2 * L * M * η ^ 2 with hc
  have hc0 : 0 ≤ c := by positivity
  have hρ : 1 ≤ 1 + η * L := by nlinarith
  induction k with
  | zero =>
    intro i y _ hy
    refine ⟨[y], rfl, fun j hj => ⟨y, ?_, ?_⟩⟩
    · obtain rfl : j = 0 := by omega
      rfl
    · obtain rfl : j = 0 := by omega
      exact hy
  | succ k ih =>
    intro i y hi hy
    obtain ⟨g0, -⟩ := grid_le hT (show i ≤ it by omega)
    obtain ⟨-, g1⟩ := grid_le hT (show i + 1 ≤ it by omega)
    have hst := grid_step T it i
    rw [← hη] at hst
    have hin : x (gridTime T it i) ∈ x '' Icc 0 T := ⟨_, ⟨g0, by linarith⟩, rfl⟩
    have hi' : (i : ℝ) ≤ it := by exact_mod_cast (show i ≤ it by omega)
    have hyδ : ‖y - x (gridTime T it i)‖ ≤ δ / 2 := by
      refine hy.trans (le_trans ?_ h2)
      exact mul_le_mul (mul_le_mul_of_nonneg_left hi' hc0) (pow_le_pow_right₀ hρ (by omega)) (by positivity) (by positivity)
    obtain ⟨y', hs, he⟩ := h.step hin hyδ (t := gridTime T it i) (t' := gridTime T it (i + 1)) (by rw [hst]; exact hη0) (by rw [hst]; exact h1) s
    have hcv := h.curve hx g0 (by linarith) g1 (by rw [hst]; nlinarith)
    rw [hst] at he hcv
    have hli := h.lip _ hin y (x (gridTime T it i)) (by linarith) (by rw [sub_self, norm_zero]; exact hδ.le)
    have hy' : ‖y' - x (gridTime T it (i + 1))‖ ≤ c * (i + 1 : Nat) * (1 + η * L) ^ (i + 1) := by
      have e : y' - x (gridTime T it (i + 1)) = (y' - (y + η • f y)) + ((y - x (gridTime T it i)) + η • (f y - f (x (gridTime T it i))))
          - (x (gridTime T it (i + 1)) - (x (gridTime T it i) + η • f (x (gridTime T it i)))) := by module
      have n1 : ‖y' - x (gridTime T it (i + 1))‖ ≤ L * M * η ^ 2 + (‖y - x (gridTime T it i)‖ + η * (L * ‖y - x (gridTime T it i)‖)) + L * M * η ^ 2 := by
        rw [e]
        refine (norm_sub_le _ _).trans (add_le_add ((norm_add_le _ _).trans (add_le_add he ((norm_add_le _ _).trans (add_le_add le_rfl ?_)))) hcv)
        rw [norm_smul, Real.norm_of_nonneg hη0]
        exact mul_le_mul_of_nonneg_left hli hη0
      have n2 : ‖y' - x (gridTime T it (i + 1))‖ ≤ c + (1 + η * L) * (c * i * (1 + η * L) ^ i) := by
        have := mul_le_mul_of_nonneg_left hy (by linarith : (0 : ℝ) ≤ 1 + η * L)
        refine n1.trans ?_
        rw [hc] at this ⊢
        linarith
      refine n2.trans ?_
      have p1 : 1 ≤ (1 + η * L) ^ (i + 1) := one_le_pow₀ hρ
      push_cast
      have : c ≤ c * (1 + η * L) ^ (i + 1) := le_mul_of_one_le_right hc0 p1
      rw [pow_succ] at this ⊢
      nlinarith
    obtain ⟨l, hl, hall⟩ := ih (i + 1) y' (by omega) hy'
    refine ⟨y :: l, ?_, fun j hj => ?_⟩
    · rw [Imodal.orbitFrom, hs]
      dsimp only
      rw [hl]
    · cases j with
      | zero => exact ⟨y, rfl, hy⟩
      | succ j =>
        obtain ⟨z, hz, hzn⟩ := hall j (by omega)
        refine ⟨z, by simpa using hz, ?_⟩
        rwa [show i + (j + 1) = i + 1 + j by omega]

/-- **Convergence.** Along a solution around which the right-hand side is defined and continuously differentiable
every fixed step solver succeeds if the steps are small enough, and misses the solution by at most a
constant over the number of steps. -/
theorem orbit_converges (hT : 0 < T) (hx : Solves f x T) (hf : ∀ t ∈ Icc 0 T, ContDiffAt ℝ 1 f (x t))
    (hX : ∀ t ∈ Icc 0 T, ∀ᶠ y in 𝓝 (x t), X y = .ok (f y)) (s : Solver) :
    ∃ C n₀, ∀ it ≥ n₀, it ≠ 0 → ∃ l, orbit s X T it (x 0) = .ok l ∧ ∀ k ≤ it, ∃ y, l[k]? = some y ∧ ‖y - x (gridTime T it k)‖ ≤ C / it := by
  have hc : ContinuousOn x (Icc 0 T) := fun t ht => (hx t ht).continuousWithinAt
  obtain ⟨δ, L, M, h⟩ := exists_tube (X := X) (f := f) (isCompact_Icc.image_of_continuousOn hc) (by rintro _ ⟨t, ht, rfl⟩; exact hf t ht)
    (by rintro _ ⟨t, ht, rfl⟩; exact hX t ht)
  have hL := h.lip0
  have hM := h.bound0
  have hδ := h.pos
  set C := 2 * L * M * T ^ 2 * Real.exp (T * L) with hC
  have hC0 : 0 ≤ C := by positivity
  obtain ⟨n₀, hn⟩ := exists_nat_ge (max (6 * M * T / δ) (2 * C / δ))
  refine ⟨C, n₀, fun it hit h0 => ?_⟩
  have hit0 : (0 : ℝ) < it := by exact_mod_cast Nat.pos_of_ne_zero h0
  have hitn : (n₀ : ℝ) ≤ it := by exact_mod_cast hit
  have a1 : 6 * M * T / δ ≤ it := (le_max_left _ _).trans (hn.trans hitn)
  have a2 : 2 * C / δ ≤ it := (le_max_right _ _).trans (hn.trans hitn)
  have h1 : 3 * (T / it) * M ≤ δ / 2 := by
    rw [div_le_iff₀ hδ] at a1
    rw [show 3 * (T / (it : ℝ)) * M = (3 * T * M) / it by ring, div_le_iff₀ hit0]
    linarith
  have hexp : (1 + T / it * L) ^ it ≤ Real.exp (T * L) := by
    have := pow_le_pow_left₀ (by positivity) (Real.add_one_le_exp (T / it * L)) it
    rw [← Real.exp_nat_mul, show (it : ℝ) * (T / it * L) = T * L by field_simp] at this
    rwa [add_comm] at this
  have hb : ∀ k ≤ it, 2 * L * M * (T / it) ^ 2 * (k : Nat) * (1 + T / it * L) ^ k ≤ C / it := fun k hk => by
    have hk' : (k : ℝ) ≤ it := by exact_mod_cast hk
    have p : (1 + T / it * L) ^ k ≤ Real.exp (T * L) := (pow_le_pow_right₀ (by have : 0 ≤ T / it * L := by positivity
                                                                               linarith) hk).trans hexp
    calc 2 * L * M * (T / it) ^ 2 * (k : ℝ) * (1 + T / it * L) ^ k ≤ 2 * L * M * (T / it) ^ 2 * it * Real.exp (T * L) :=
          mul_le_mul (mul_le_mul_of_nonneg_left hk' (by positivity)) p (by positivity) (by positivity)
      _ = C / it := by rw [hC]; field_simp
  have h2 : 2 * L * M * (T / it) ^ 2 * it * (1 + T / it * L) ^ it ≤ δ / 2 := by
    refine (hb it le_rfl).trans ?_
    rw [div_le_iff₀ hδ] at a2
    rw [div_le_iff₀ hit0]
    linarith
  obtain ⟨l, hl, hall⟩ := h.orbitFrom hx hT.le s h1 h2 it 0 (x 0) (by omega) (by simp [gridTime])
  refine ⟨l, by rw [orbit_eq, if_neg fun h => hT.ne' h.2]; exact hl, fun k hk => ?_⟩
  obtain ⟨y, hy, hyn⟩ := hall k hk
  rw [Nat.zero_add] at hyn
  exact ⟨y, hy, hyn.trans (hb k hk)⟩
end

end
end Imodal
