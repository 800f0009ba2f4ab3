import Verif.Lemmas.Order
import Verif.Spec.Order
/-!
# The order of the solvers: many steps
-/
set_option autoImplicit false
namespace Imodal
noncomputable section
open Filter Topology Set Asymptotics

variable {E : Type} [NormedAddCommGroup E] [NormedSpace ℝ E]

/-- The slope of one step. -/
def slopeOf (f : E → E) : Solver → E × ℝ → E
  | .euler => fun p => f p.1
  | .midpoint => midSlope f
  | .rk4 => rkSlope f

theorem expand_lie {f : E → E} {K : Set E} (hK : IsCompact K) (s : Solver) (h : ∀ a ∈ K, ContDiffAt ℝ s.order f a) :
    Ord K s.order fun p => slopeOf f s p - ∑ i ∈ Finset.range s.order, (p.2 ^ i / (i + 1).factorial) • lie f (i + 1) p.1 := by
  cases s with
  | euler =>
    refine ord_zero.congr fun p => ?_
    simp [slopeOf, Solver.order, lie_one]
  | midpoint =>
    refine (expand1 hK h).mid.congr fun p => ?_
    simp only [slopeOf, Solver.order, Finset.sum_range_succ, Finset.sum_range_zero, zero_add, lie_one]
    norm_num [Nat.factorial]
    rw [lie_two]
  | rk4 =>
    have h4 := (expand3 hK h).rk
    refine h4.congr_on fun a ha η => ?_
    have h' : ContDiffAt ℝ (4 : Nat) f a := h a ha
    have hsym : fderiv ℝ (fderiv ℝ f) a (fderiv ℝ f a (f a)) (f a) = fderiv ℝ (fderiv ℝ f) a (f a) (fderiv ℝ f a (f a)) :=
      (h'.isSymmSndFDerivAt (by rw [minSmoothness_of_isRCLikeNormedField]; exact_mod_cast (by norm_num : 2 ≤ 4))).eq _ _
    have l3 := lie_three (h'.of_le (by norm_num : ((2 : Nat) : WithTop ℕ∞) ≤ (4 : Nat)))
    have l4 := lie_four (h'.of_le (by norm_num : ((3 : Nat) : WithTop ℕ∞) ≤ (4 : Nat)))
    simp only [slopeOf, Solver.order, Finset.sum_range_succ, Finset.sum_range_zero, zero_add, Nat.reduceAdd, lie_one, lie_two, l3, l4, hsym]
    norm_num [Nat.factorial]
    module

/-- One step from a point of the solution misses the solution in the order of the method plus one. -/
theorem local_error {f : E → E} {x : ℝ → E} {T : ℝ} (hx : Solves f x T) (s : Solver) (hf : ∀ t ∈ Icc 0 T, ContDiffAt ℝ s.order f (x t)) :
    ∃ C, 0 ≤ C ∧ ∃ r > 0, ∀ t t', 0 ≤ t → t < t' → t' ≤ T → t' - t < r →
      ‖x t + (t' - t) • slopeOf f s (x t, t' - t) - x t'‖ ≤ C * (t' - t) ^ (s.order + 1) := by
  have hc : ContinuousOn x (Icc 0 T) := fun t ht => (hx t ht).continuousWithinAt
  have hK : IsCompact (x '' Icc 0 T) := isCompact_Icc.image_of_continuousOn hc
  obtain ⟨C, hC, r, hr, h1⟩ := ord_iff.1 (expand_lie hK s (by rintro _ ⟨t, ht, rfl⟩; exact hf t ht))
  obtain ⟨C', hC', r', hr', h2⟩ := curve_taylor hx (n := s.order) (by cases s <;> decide) hf
  refine ⟨C + C', by positivity, min r r', lt_min hr hr', fun t t' h0 htt hT hη => ?_⟩
  set η := t' - t with hηd
  have hη0 : 0 < η := by linarith
  have e1 := h1 (x t) ⟨t, ⟨h0, by linarith⟩, rfl⟩ η hη0 (hη.trans_le (min_le_left _ _))
  have e2 := h2 t t' h0 htt.le hT (hη.trans_le (min_le_right _ _))
  rw [← hηd] at e2
  rw [Finset.sum_range_succ'] at e2
  simp only [pow_zero, Nat.factorial_zero, Nat.cast_one, div_one, one_smul, show ∀ y, lie f 0 y = y from fun _ => rfl] at e2
  have e3 : x t + η • slopeOf f s (x t, η) - x t'
      = η • (slopeOf f s (x t, η) - ∑ i ∈ Finset.range s.order, (η ^ i / (i + 1).factorial) • lie f (i + 1) (x t))
        - (x t' - (∑ i ∈ Finset.range s.order, (η ^ (i + 1) / (i + 1).factorial) • lie f (i + 1) (x t) + x t)) := by
    have : ∑ i ∈ Finset.range s.order, (η ^ (i + 1) / ((i + 1).factorial : ℝ)) • lie f (i + 1) (x t)
        = η • ∑ i ∈ Finset.range s.order, (η ^ i / ((i + 1).factorial : ℝ)) • lie f (i + 1) (x t) := by
      rw [Finset.smul_sum]
      refine Finset.sum_congr rfl fun i _ => ?_
      rw [smul_smul, pow_succ]
      congr 1
      ring
    rw [this, smul_sub]
    abel
  rw [e3]
  refine (norm_sub_le _ _).trans ?_
  rw [norm_smul, Real.norm_of_nonneg hη0.le, add_mul]
  refine add_le_add ?_ e2
  refine (mul_le_mul_of_nonneg_left e1 hη0.le).trans (le_of_eq ?_)
  ring

/-! ## Stability -/

/-- How much more than the right-hand side the slope of a step changes with the point. -/
def slopeLip (L : ℝ) : ℝ := L + L * (1 + L) + L * (1 + (L + L * (1 + L))) + L * (1 + (L + L * (1 + L) + L * (1 + (L + L * (1 + L)))))

section
variable {X : E → Py E} {f : E → E} {S : Set E} {δ L M : ℝ}

theorem Tube.stable (h : Tube X f S δ L M) {a : E} (ha : a ∈ S) {y : E} (hy : ‖y - a‖ ≤ δ / 2) {t t' : ℝ} (ht : 0 ≤ t' - t) (h1 : t' - t ≤ 1)
    (hs : 3 * (t' - t) * M ≤ δ / 2) (s : Solver) :
    stepOf s X t t' y = .ok (y + (t' - t) • slopeOf f s (y, t' - t)) ∧
      ‖slopeOf f s (y, t' - t) - slopeOf f s (a, t' - t)‖ ≤ slopeLip L * ‖y - a‖ := by
  set η := t' - t with hη
  have hδ := h.pos
  have hL := h.lip0
  have hM := h.bound0
  have hηM : 0 ≤ η * M := mul_nonneg ht hM
  have hy' : ‖y - a‖ ≤ δ := by linarith
  have ha0 : ‖a - a‖ ≤ δ / 2 := by rw [sub_self, norm_zero]; linarith
  set e := ‖y - a‖ with he
  have he0 : 0 ≤ e := norm_nonneg _
  have o1 := h.ok a ha y hy'
  -- a step of length at most `3 η M` stays in the tube
  have go : ∀ {z v : E} {c : ℝ}, ‖z - a‖ ≤ δ / 2 → c ≤ 3 → ‖v‖ ≤ c * (η * M) → ‖z + v - a‖ ≤ δ := fun {z v c} hz hc hv =>
    h.near ha hz (hv.trans (by nlinarith))
  -- the right-hand side after such steps from both points
  have li : ∀ {v w : E} {c k : ℝ}, c ≤ 3 → ‖v‖ ≤ c * (η * M) → ‖w‖ ≤ c * (η * M) → 0 ≤ k → ‖v - w‖ ≤ η * (k * e) →
      ‖f (y + v) - f (a + w)‖ ≤ L * (1 + k) * e := fun {v w c k} hc hv hw hk hvw => by
    refine (h.lip a ha (y + v) (a + w) (go hy hc hv) (go ha0 hc hw)).trans ?_
    rw [mul_assoc]
    refine mul_le_mul_of_nonneg_left ?_ hL
    calc ‖y + v - (a + w)‖ = ‖(y - a) + (v - w)‖ := by congr 1; abel
      _ ≤ e + ‖v - w‖ := norm_add_le _ _
      _ ≤ (1 + k) * e := by nlinarith [mul_nonneg hk he0]
  have b : ∀ {z : E}, ‖z - a‖ ≤ δ / 2 → ‖f z‖ ≤ M := fun hz => h.bound a ha _ (by linarith)
  have l1 : ‖f y - f a‖ ≤ L * e := h.lip a ha y a hy' (by linarith)
  have hLe : 0 ≤ L * e := by positivity
  cases s with
  | euler =>
    refine ⟨by rw [stepOf_euler, o1]; rfl, ?_⟩
    change ‖f y - f a‖ ≤ _
    refine l1.trans (mul_le_mul_of_nonneg_right ?_ he0)
    unfold slopeLip
    have : 0 ≤ L * (1 + L) + L * (1 + (L + L * (1 + L))) + L * (1 + (L + L * (1 + L) + L * (1 + (L + L * (1 + L))))) := by positivity
    linarith
  | midpoint =>
    have v1 : ∀ {z : E}, ‖z - a‖ ≤ δ / 2 → ‖(0.5 * η) • f z‖ ≤ (1 / 2) * (η * M) := fun hz => by
      rw [norm_smul, Real.norm_of_nonneg (by positivity)]
      nlinarith [mul_le_mul_of_nonneg_left (b hz) ht]
    have o2 := h.ok a ha _ (go hy (by norm_num) (v1 hy))
    refine ⟨by rw [stepOf_midpoint, o1, ← hη]; dsimp only [Except.bind]; rw [o2]; rfl, ?_⟩
    have q := li (k := L) (by norm_num) (v1 hy) (v1 ha0) hL (by
      rw [← smul_sub, norm_smul, Real.norm_of_nonneg (by positivity)]
      nlinarith [mul_le_mul_of_nonneg_left l1 ht, mul_nonneg ht hLe])
    refine q.trans (mul_le_mul_of_nonneg_right ?_ he0)
    unfold slopeLip
    have : 0 ≤ L + L * (1 + (L + L * (1 + L))) + L * (1 + (L + L * (1 + L) + L * (1 + (L + L * (1 + L))))) := by positivity
    linarith
  | rk4 =>
    have v1 : ∀ {z : E}, ‖z - a‖ ≤ δ / 2 → ‖(η * (1 / 3)) • f z‖ ≤ (1 / 3) * (η * M) := fun hz => by
      rw [norm_smul, Real.norm_of_nonneg (by positivity)]
      nlinarith [mul_le_mul_of_nonneg_left (b hz) ht]
    have o2 := h.ok a ha _ (go hy (by norm_num) (v1 hy))
    have b2 : ∀ {z : E}, ‖z - a‖ ≤ δ / 2 → ‖rkSlope2 f (z, η)‖ ≤ M := fun hz => h.bound a ha _ (go hz (by norm_num) (v1 hz))
    have l2 : ‖rkSlope2 f (y, η) - rkSlope2 f (a, η)‖ ≤ L * (1 + L) * e := li (by norm_num) (v1 hy) (v1 ha0) hL (by
      rw [← smul_sub, norm_smul, Real.norm_of_nonneg (by positivity)]
      nlinarith [mul_le_mul_of_nonneg_left l1 ht, mul_nonneg ht hLe])
    have v2 : ∀ {z : E}, ‖z - a‖ ≤ δ / 2 → ‖η • (rkSlope2 f (z, η) - (1 / 3 : ℝ) • f z)‖ ≤ (4 / 3) * (η * M) := fun {z} hz => by
      rw [norm_smul, Real.norm_of_nonneg ht]
      have : ‖rkSlope2 f (z, η) - (1 / 3 : ℝ) • f z‖ ≤ 4 / 3 * M := by
        refine (norm_sub_le _ _).trans ?_
        rw [norm_smul, Real.norm_of_nonneg (by norm_num)]
        linarith [b hz, b2 hz]
      nlinarith
    have o3 := h.ok a ha _ (go hy (by norm_num) (v2 hy))
    have b3 : ∀ {z : E}, ‖z - a‖ ≤ δ / 2 → ‖rkSlope3 f (z, η)‖ ≤ M := fun hz => h.bound a ha _ (go hz (by norm_num) (v2 hz))
    have l3 : ‖rkSlope3 f (y, η) - rkSlope3 f (a, η)‖ ≤ L * (1 + (L + L * (1 + L))) * e := li (by norm_num) (v2 hy) (v2 ha0) (by positivity) (by
      rw [← smul_sub, norm_smul, Real.norm_of_nonneg ht]
      refine mul_le_mul_of_nonneg_left ?_ ht
      calc ‖rkSlope2 f (y, η) - (1 / 3 : ℝ) • f y - (rkSlope2 f (a, η) - (1 / 3 : ℝ) • f a)‖
          = ‖(rkSlope2 f (y, η) - rkSlope2 f (a, η)) - (1 / 3 : ℝ) • (f y - f a)‖ := by congr 1; module
        _ ≤ L * (1 + L) * e + 1 / 3 * (L * e) := by
          refine (norm_sub_le _ _).trans (add_le_add l2 ?_)
          rw [norm_smul, Real.norm_of_nonneg (by norm_num)]
          linarith
        _ ≤ _ := by linarith)
    have v3 : ∀ {z : E}, ‖z - a‖ ≤ δ / 2 → ‖η • (f z - rkSlope2 f (z, η) + rkSlope3 f (z, η))‖ ≤ 3 * (η * M) := fun {z} hz => by
      rw [norm_smul, Real.norm_of_nonneg ht]
      have : ‖f z - rkSlope2 f (z, η) + rkSlope3 f (z, η)‖ ≤ 3 * M := by
        refine (norm_add_le _ _).trans ?_
        have := norm_sub_le (f z) (rkSlope2 f (z, η))
        linarith [b hz, b2 hz, b3 hz]
      nlinarith
    have o4 := h.ok a ha _ (go hy le_rfl (v3 hy))
    have l4 : ‖rkSlope4 f (y, η) - rkSlope4 f (a, η)‖ ≤ L * (1 + (L + L * (1 + L) + L * (1 + (L + L * (1 + L))))) * e :=
      li le_rfl (v3 hy) (v3 ha0) (by positivity) (by
        rw [← smul_sub, norm_smul, Real.norm_of_nonneg ht]
        refine mul_le_mul_of_nonneg_left ?_ ht
        calc ‖f y - rkSlope2 f (y, η) + rkSlope3 f (y, η) - (f a - rkSlope2 f (a, η) + rkSlope3 f (a, η))‖
            = ‖(f y - f a) - (rkSlope2 f (y, η) - rkSlope2 f (a, η)) + (rkSlope3 f (y, η) - rkSlope3 f (a, η))‖ := by congr 1; abel
          _ ≤ L * e + L * (1 + L) * e + L * (1 + (L + L * (1 + L))) * e :=
            (norm_add_le _ _).trans (add_le_add ((norm_sub_le _ _).trans (add_le_add l1 l2)) l3)
          _ = _ := by ring)
    refine ⟨?_, ?_⟩
    · rw [stepOf_rk4, o1, ← hη]
      dsimp only [Except.bind]
      rw [o2]
      dsimp only
      rw [show y + η • (f (y + (η * (1 / 3)) • f y) - (1 / 3 : ℝ) • f y) = y + η • (rkSlope2 f (y, η) - (1 / 3 : ℝ) • f y) from rfl, o3]
      dsimp only
      rw [show y + η • (f y - f (y + (η * (1 / 3)) • f y) + f (y + η • (rkSlope2 f (y, η) - (1 / 3 : ℝ) • f y)))
        = y + η • (f y - rkSlope2 f (y, η) + rkSlope3 f (y, η)) from rfl, o4]
      change Except.ok _ = _
      congr 2
      rw [slopeOf, rkSlope, smul_smul]
      rfl
    · have e1 : slopeOf f .rk4 (y, η) - slopeOf f .rk4 (a, η) = (0.125 : ℝ) • ((f y - f a) + (3 : ℝ) • (rkSlope2 f (y, η) - rkSlope2 f (a, η))
          + (3 : ℝ) • (rkSlope3 f (y, η) - rkSlope3 f (a, η)) + (rkSlope4 f (y, η) - rkSlope4 f (a, η))) := by
        simp only [slopeOf, rkSlope]
        module
      rw [e1, norm_smul, Real.norm_of_nonneg (by norm_num)]
      have n1 : ‖(f y - f a) + (3 : ℝ) • (rkSlope2 f (y, η) - rkSlope2 f (a, η)) + (3 : ℝ) • (rkSlope3 f (y, η) - rkSlope3 f (a, η))
          + (rkSlope4 f (y, η) - rkSlope4 f (a, η))‖ ≤ L * e + 3 * (L * (1 + L) * e) + 3 * (L * (1 + (L + L * (1 + L))) * e)
            + L * (1 + (L + L * (1 + L) + L * (1 + (L + L * (1 + L))))) * e := by
        refine (norm_add_le _ _).trans (add_le_add ((norm_add_le _ _).trans (add_le_add ((norm_add_le _ _).trans (add_le_add l1 ?_)) ?_)) l4)
        · rw [norm_smul, Real.norm_of_nonneg (by norm_num)]; linarith
        · rw [norm_smul, Real.norm_of_nonneg (by norm_num)]; linarith
      have p2 : 0 ≤ L * (1 + L) * e := by positivity
      have p3 : 0 ≤ L * (1 + (L + L * (1 + L))) * e := by positivity
      have p4 : 0 ≤ L * (1 + (L + L * (1 + L) + L * (1 + (L + L * (1 + L))))) * e := by positivity
      unfold slopeLip
      nlinarith

theorem slopeLip_nonneg {L : ℝ} (h : 0 ≤ L) : 0 ≤ slopeLip L := by unfold slopeLip; positivity

/-- The distance to the solution after `i` steps, if it was `b` and each step from the solution misses it by `c`. -/
theorem orbitFrom_error {x : ℝ → E} {T : ℝ} {s : Solver} {it : Nat} {σ : E → E} {b c Λ δ : ℝ} (hb0 : 0 ≤ b) (hc0 : 0 ≤ c) (hΛ : 0 ≤ Λ) (hT : 0 ≤ T)
    (hstep : ∀ i < it, ∀ y, ‖y - x (gridTime T it i)‖ ≤ δ → stepOf s X (gridTime T it i) (gridTime T it (i + 1)) y = .ok (y + (T / it) • σ y) ∧
      ‖σ y - σ (x (gridTime T it i))‖ ≤ Λ * ‖y - x (gridTime T it i)‖)
    (hloc : ∀ i < it, ‖x (gridTime T it i) + (T / it) • σ (x (gridTime T it i)) - x (gridTime T it (i + 1))‖ ≤ c)
    (h2 : (b + c * it) * (1 + T / it * Λ) ^ it ≤ δ) (k : Nat) :
    ∀ (i : Nat) (y : E), i + k = it → ‖y - x (gridTime T it i)‖ ≤ (b + c * i) * (1 + T / it * Λ) ^ i →
      ∃ l, Imodal.orbitFrom s X T it i k y = .ok l ∧ ∀ j ≤ k, ∃ y', l[j]? = some y' ∧
        ‖y' - x (gridTime T it (i + j))‖ ≤ (b + c * (i + j : Nat)) * (1 + T / it * Λ) ^ (i + j) := by
  set η := T / (it : ℝ) with hη
  have hη0 : 0 ≤ η := by positivity
  have hρ : 1 ≤ 1 + η * Λ := by nlinarith
  induction k with
  | zero =>
    intro i y _ hy
    refine ⟨[y], rfl, fun j hj => ⟨y, ?_, ?_⟩⟩
    · obtain rfl : j = 0 := by omega
      rfl
    · obtain rfl : j = 0 := by omega
      exact hy
  | succ k ih =>
    intro i y hi hy
    have hi' : (i : ℝ) ≤ it := by exact_mod_cast (show i ≤ it by omega)
    have hyδ : ‖y - x (gridTime T it i)‖ ≤ δ := by
      refine hy.trans (le_trans ?_ h2)
      exact mul_le_mul (add_le_add le_rfl (mul_le_mul_of_nonneg_left hi' hc0)) (pow_le_pow_right₀ hρ (by omega)) (by positivity) (by positivity)
    obtain ⟨hs, hli⟩ := hstep i (by omega) y hyδ
    have hcv := hloc i (by omega)
    have hy' : ‖y + η • σ y - x (gridTime T it (i + 1))‖ ≤ (b + c * (i + 1 : Nat)) * (1 + η * Λ) ^ (i + 1) := by
      have e : y + η • σ y - x (gridTime T it (i + 1)) = ((y - x (gridTime T it i)) + η • (σ y - σ (x (gridTime T it i))))
          + (x (gridTime T it i) + η • σ (x (gridTime T it i)) - x (gridTime T it (i + 1))) := by module
      have n1 : ‖y + η • σ y - x (gridTime T it (i + 1))‖ ≤ (‖y - x (gridTime T it i)‖ + η * (Λ * ‖y - x (gridTime T it i)‖)) + c := by
        rw [e]
        refine (norm_add_le _ _).trans (add_le_add ((norm_add_le _ _).trans (add_le_add le_rfl ?_)) hcv)
        rw [norm_smul, Real.norm_of_nonneg hη0]
        exact mul_le_mul_of_nonneg_left hli hη0
      have n2 : ‖y + η • σ y - x (gridTime T it (i + 1))‖ ≤ c + (1 + η * Λ) * ((b + c * i) * (1 + η * Λ) ^ i) := by
        have := mul_le_mul_of_nonneg_left hy (by linarith : (0 : ℝ) ≤ 1 + η * Λ)
        linarith
      refine n2.trans ?_
      have p1 : 1 ≤ (1 + η * Λ) ^ (i + 1) := one_le_pow₀ hρ
      push_cast
      have : c ≤ c * (1 + η * Λ) ^ (i + 1) := le_mul_of_one_le_right hc0 p1
      rw [pow_succ] at this ⊢
      nlinarith
    obtain ⟨l, hl, hall⟩ := ih (i + 1) _ (by omega) hy'
    refine ⟨y :: l, ?_, fun j hj => ?_⟩
    · rw [Imodal.orbitFrom, hs]
      dsimp only
      rw [hl]
    · cases j with
      | zero => exact ⟨y, rfl, hy⟩
      | succ j =>
        obtain ⟨z, hz, hzn⟩ := hall j (by omega)
        refine ⟨z, by simpa using hz, ?_⟩
        rwa [show i + (j + 1) = i + 1 + j by omega]

/-- **Order of convergence.** Along a solution around which the right-hand side is defined and as often
continuously differentiable as the order of the method, the method succeeds if the steps are small
enough, and misses the solution by at most a constant over that power of the number of steps, if it starts so near to it. -/
theorem orbit_order_from {x : ℝ → E} {T : ℝ} (hT : 0 < T) (hx : Solves f x T) (s : Solver) (hf : ∀ t ∈ Icc 0 T, ContDiffAt ℝ s.order f (x t))
    (hX : ∀ t ∈ Icc 0 T, ∀ᶠ y in 𝓝 (x t), X y = .ok (f y)) {B : ℝ} (hB : 0 ≤ B) :
    ∃ (C : ℝ) (n₀ : Nat), ∀ it : Nat, it ≥ n₀ → it ≠ 0 → ∀ y₀, ‖y₀ - x 0‖ ≤ B / it ^ s.order → ∃ l, orbit s X T it y₀ = .ok l ∧ ∀ k ≤ it, ∃ y, l[k]? = some y ∧ ‖y - x (gridTime T it k)‖ ≤ C / it ^ s.order := by
  have hc : ContinuousOn x (Icc 0 T) := fun t ht => (hx t ht).continuousWithinAt
  have h1s : ((1 : Nat) : WithTop ℕ∞) ≤ s.order := by cases s <;> simp [Solver.order]
  obtain ⟨δ, L, M, h⟩ := exists_tube (X := X) (f := f) (isCompact_Icc.image_of_continuousOn hc)
    (by rintro _ ⟨t, ht, rfl⟩; exact (hf t ht).of_le h1s) (by rintro _ ⟨t, ht, rfl⟩; exact hX t ht)
  obtain ⟨A, hA, r, hr, hloc⟩ := local_error hx s hf
  have hL := h.lip0
  have hM := h.bound0
  have hδ := h.pos
  have hΛ := slopeLip_nonneg hL
  set Λ := slopeLip L
  set C := (B + A * T ^ (s.order + 1)) * Real.exp (T * Λ) with hC
  have hC0 : 0 ≤ C := by positivity
  obtain ⟨n₀, hn⟩ := exists_nat_ge (max (max (6 * M * T / δ) (2 * C / δ)) (max T (2 * T / r)))
  refine ⟨C, n₀, fun it hit h0 y₀ hy₀ => ?_⟩
  have hit0 : (0 : ℝ) < it := by exact_mod_cast Nat.pos_of_ne_zero h0
  have hit1 : (1 : ℝ) ≤ it := by exact_mod_cast Nat.pos_of_ne_zero h0
  have hitn : (n₀ : ℝ) ≤ it := by exact_mod_cast hit
  have a1 : 6 * M * T / δ ≤ it := ((le_max_left _ _).trans (le_max_left _ _)).trans (hn.trans hitn)
  have a2 : 2 * C / δ ≤ it := ((le_max_right _ _).trans (le_max_left _ _)).trans (hn.trans hitn)
  have a3 : T ≤ it := ((le_max_left _ _).trans (le_max_right _ _)).trans (hn.trans hitn)
  have a4 : 2 * T / r ≤ it := ((le_max_right _ _).trans (le_max_right _ _)).trans (hn.trans hitn)
  have hη0 : 0 < T / it := by positivity
  have h1 : 3 * (T / it) * M ≤ δ / 2 := by
    rw [div_le_iff₀ hδ] at a1
    rw [show 3 * (T / (it : ℝ)) * M = (3 * T * M) / it by ring, div_le_iff₀ hit0]
    linarith
  have hone : T / it ≤ 1 := by rw [div_le_one hit0]; exact a3
  have hrr : T / it < r := by
    rw [div_le_iff₀ hr] at a4
    rw [div_lt_iff₀ hit0]
    linarith
  have hexp : (1 + T / it * Λ) ^ it ≤ Real.exp (T * Λ) := by
    have := pow_le_pow_left₀ (by positivity) (Real.add_one_le_exp (T / it * Λ)) it
    rw [← Real.exp_nat_mul, show (it : ℝ) * (T / it * Λ) = T * Λ by field_simp] at this
    rwa [add_comm] at this
  have hb : ∀ k : Nat, k ≤ it → (B / it ^ s.order + A * (T / it) ^ (s.order + 1) * (k : Nat)) * (1 + T / it * Λ) ^ k ≤ C / it ^ s.order := fun k hk => by
    have hk' : (k : ℝ) ≤ it := by exact_mod_cast hk
    have p : (1 + T / it * Λ) ^ k ≤ Real.exp (T * Λ) := (pow_le_pow_right₀ (by have : 0 ≤ T / it * Λ := by positivity
                                                                               linarith) hk).trans hexp
    calc (B / it ^ s.order + A * (T / it) ^ (s.order + 1) * (k : ℝ)) * (1 + T / it * Λ) ^ k
          ≤ (B / it ^ s.order + A * (T / it) ^ (s.order + 1) * it) * Real.exp (T * Λ) :=
          mul_le_mul (add_le_add le_rfl (mul_le_mul_of_nonneg_left hk' (by positivity))) p (by positivity) (by positivity)
      _ = C / it ^ s.order := by rw [hC, div_pow, pow_succ (it : ℝ)]; field_simp
  have hpow : C / (it : ℝ) ^ s.order ≤ C / it := by
    refine div_le_div_of_nonneg_left hC0 hit0 ?_
    calc (it : ℝ) = (it : ℝ) ^ 1 := (pow_one _).symm
      _ ≤ (it : ℝ) ^ s.order := pow_le_pow_right₀ hit1 (by cases s <;> simp [Solver.order])
  have h2 : (B / it ^ s.order + A * (T / it) ^ (s.order + 1) * it) * (1 + T / it * Λ) ^ it ≤ δ / 2 := by
    refine (hb it le_rfl).trans (hpow.trans ?_)
    rw [div_le_iff₀ hδ] at a2
    rw [div_le_iff₀ hit0]
    linarith
  obtain ⟨l, hl, hall⟩ := orbitFrom_error (X := X) (x := x) (T := T) (s := s) (it := it) (σ := fun y => slopeOf f s (y, T / it))
    (b := B / it ^ s.order) (c := A * (T / it) ^ (s.order + 1)) (Λ := Λ) (δ := δ / 2) (by positivity) (by positivity) hΛ hT.le
    (fun i hi y hy => by
      have hst := grid_step T it i
      obtain ⟨g0, -⟩ := grid_le hT.le (show i ≤ it by omega)
      obtain ⟨-, g1⟩ := grid_le hT.le (show i + 1 ≤ it by omega)
      have := h.stable (a := x (gridTime T it i)) ⟨_, ⟨g0, by linarith⟩, rfl⟩ hy (t := gridTime T it i) (t' := gridTime T it (i + 1))
        (by rw [hst]; exact hη0.le) (by rw [hst]; exact hone) (by rw [hst]; exact h1) s
      rwa [hst] at this)
    (fun i hi => by
      have hst := grid_step T it i
      obtain ⟨g0, -⟩ := grid_le hT.le (show i ≤ it by omega)
      obtain ⟨-, g1⟩ := grid_le hT.le (show i + 1 ≤ it by omega)
      have := hloc (gridTime T it i) (gridTime T it (i + 1)) g0 (by linarith) g1 (by rw [hst]; exact hrr)
      rwa [hst] at this) h2 it 0 y₀ (by omega) (by simpa [gridTime] using hy₀)
  refine ⟨l, by rw [orbit_eq, if_neg fun h => hT.ne' h.2]; exact hl, fun k hk => ?_⟩
  obtain ⟨y, hy, hyn⟩ := hall k hk
  rw [Nat.zero_add] at hyn
  exact ⟨y, hy, hyn.trans (hb k hk)⟩

/-- The same from the initial value of the solution. -/
theorem orbit_order {x : ℝ → E} {T : ℝ} (hT : 0 < T) (hx : Solves f x T) (s : Solver) (hf : ∀ t ∈ Icc 0 T, ContDiffAt ℝ s.order f (x t))
    (hX : ∀ t ∈ Icc 0 T, ∀ᶠ y in 𝓝 (x t), X y = .ok (f y)) :
    ∃ C n₀, ∀ it ≥ n₀, it ≠ 0 → ∃ l, orbit s X T it (x 0) = .ok l ∧ ∀ k ≤ it, ∃ y, l[k]? = some y ∧ ‖y - x (gridTime T it k)‖ ≤ C / it ^ s.order := by
  obtain ⟨C, n₀, h⟩ := orbit_order_from hT hx s hf hX le_rfl
  exact ⟨C, n₀, fun it hit h0 => h it hit h0 (x 0) (by simp)⟩
end

end
end Imodal
