import Verif.Lemmas.Taylor
/-!
# Expansions in the step size, uniformly on a set
-/
set_option autoImplicit false
namespace Imodal
noncomputable section
open Filter Topology Set Asymptotics

variable {E F G : Type} [NormedAddCommGroup E] [NormedSpace ℝ E] [NormedAddCommGroup F] [NormedSpace ℝ F]
  [NormedAddCommGroup G] [NormedSpace ℝ G]

/-- Small positive steps, uniformly for the points of `K`. -/
def steps (K : Set E) : Filter (E × ℝ) := 𝓟 K ×ˢ 𝓝[>] 0

/-- At most a constant times the power `n` of the step. -/
def Ord (K : Set E) (n : Nat) (u : E × ℝ → F) : Prop := u =O[steps K] fun p => p.2 ^ n

variable {K : Set E}

theorem steps_eventually {P : E × ℝ → Prop} : (∀ᶠ p in steps K, P p) ↔ ∃ r > 0, ∀ a ∈ K, ∀ h, 0 < h → h < r → P (a, h) := by
  unfold steps
  rw [prod_comm, eventually_map, eventually_prod_principal_iff, (nhdsGT_basis (0 : ℝ)).eventually_iff]
  constructor
  · rintro ⟨r, hr, h⟩
    exact ⟨r, hr, fun a ha x h0 h1 => h ⟨h0, h1⟩ a ha⟩
  · rintro ⟨r, hr, h⟩
    exact ⟨r, hr, fun x hx a ha => h a ha x hx.1 hx.2⟩

theorem ord_iff {n : Nat} {u : E × ℝ → F} : Ord K n u ↔ ∃ C, 0 ≤ C ∧ ∃ r > 0, ∀ a ∈ K, ∀ h, 0 < h → h < r → ‖u (a, h)‖ ≤ C * h ^ n := by
  constructor
  · intro h
    obtain ⟨C, hC, h⟩ := h.exists_nonneg
    obtain ⟨r, hr, h⟩ := steps_eventually.1 h.bound
    refine ⟨C, hC, r, hr, fun a ha x h0 h1 => ?_⟩
    have := h a ha x h0 h1
    rwa [norm_pow, Real.norm_of_nonneg h0.le] at this
  · rintro ⟨C, hC, r, hr, h⟩
    refine IsBigO.of_bound C (steps_eventually.2 ⟨r, hr, fun a ha x h0 h1 => ?_⟩)
    rw [norm_pow, Real.norm_of_nonneg h0.le]
    exact h a ha x h0 h1

theorem Ord.add {n : Nat} {u v : E × ℝ → F} (hu : Ord K n u) (hv : Ord K n v) : Ord K n fun p => u p + v p := IsBigO.add hu hv

theorem Ord.sub {n : Nat} {u v : E × ℝ → F} (hu : Ord K n u) (hv : Ord K n v) : Ord K n fun p => u p - v p := IsBigO.sub hu hv

theorem Ord.const {n : Nat} {u : E × ℝ → F} (hu : Ord K n u) (c : ℝ) : Ord K n fun p => c • u p := IsBigO.const_smul_left hu c

theorem Ord.congr {n : Nat} {u v : E × ℝ → F} (hu : Ord K n u) (h : ∀ p, u p = v p) : Ord K n v := by
  obtain rfl : u = v := funext h
  exact hu

theorem Ord.step {n : Nat} {u : E × ℝ → F} (hu : Ord K n u) (i : Nat) : Ord K (i + n) fun p => p.2 ^ i • u p := by
  have := (isBigO_refl (fun p : E × ℝ => p.2 ^ i) (steps K)).smul hu
  exact this.congr_right fun p => by rw [pow_add, smul_eq_mul]

theorem Ord.mono {n k : Nat} {u : E × ℝ → F} (hu : Ord K n u) (h : k ≤ n) : Ord K k u := by
  rw [ord_iff] at hu ⊢
  obtain ⟨C, hC, r, hr, hu⟩ := hu
  refine ⟨C, hC, min r 1, lt_min hr one_pos, fun a ha x h0 h1 => (hu a ha x h0 (h1.trans_le (min_le_left _ _))).trans ?_⟩
  exact mul_le_mul_of_nonneg_left (pow_le_pow_of_le_one h0.le (h1.trans_le (min_le_right _ _)).le h) hC

theorem Ord.apply {n k : Nat} {B : E × ℝ → F →L[ℝ] G} {u : E × ℝ → F} (hB : Ord K n B) (hu : Ord K k u) : Ord K (n + k) fun p => B p (u p) := by
  have h1 : (fun p => B p (u p)) =O[steps K] fun p => ‖B p‖ * ‖u p‖ :=
    IsBigO.of_bound 1 (Eventually.of_forall fun p => by
      rw [one_mul, norm_mul, norm_norm, norm_norm]; exact (B p).le_opNorm _)
  have h2 := h1.trans ((IsBigO.norm_left hB).mul (IsBigO.norm_left hu))
  exact h2.congr_right fun p => by rw [pow_add]

/-- Bounded functions of the point. -/
theorem ord_point {u : E → F} {C : ℝ} (h : ∀ a ∈ K, ‖u a‖ ≤ C) : Ord K 0 fun p => u p.1 := by
  rw [ord_iff]
  exact ⟨max C 0, le_max_right _ _, 1, one_pos, fun a ha x _ _ => by rw [pow_zero, mul_one]; exact (h a ha).trans (le_max_left _ _)⟩

/-- `f` has expansions of order one, with derivative `f1`. -/
structure Expand1 (K : Set E) (f : E → F) (f1 : E → E →L[ℝ] F) : Prop where
  b0 : Ord K 0 fun p => f p.1
  b1 : Ord K 0 fun p => f1 p.1
  taylor : ∃ C, 0 ≤ C ∧ ∃ δ > 0, ∀ a ∈ K, ∀ v, ‖v‖ ≤ δ → ‖f (a + v) - (f a + f1 a v)‖ ≤ C * ‖v‖ ^ 2

/-- `f` has expansions of order three, with derivatives `f1`, `f2`, `f3`. -/
structure Expand3 (K : Set E) (f : E → F) (f1 : E → E →L[ℝ] F) (f2 : E → E →L[ℝ] E →L[ℝ] F) (f3 : E → E →L[ℝ] E →L[ℝ] E →L[ℝ] F) : Prop where
  b0 : Ord K 0 fun p => f p.1
  b1 : Ord K 0 fun p => f1 p.1
  b2 : Ord K 0 fun p => f2 p.1
  b3 : ∀ (n : Nat) (u : E × ℝ → E), Ord K n u → Ord K n fun p => f3 p.1 (u p)
  taylor : ∃ C, 0 ≤ C ∧ ∃ δ > 0, ∀ a ∈ K, ∀ v, ‖v‖ ≤ δ →
    ‖f (a + v) - (f a + f1 a v + (1 / 2 : ℝ) • f2 a v v + (1 / 6 : ℝ) • f3 a v v v)‖ ≤ C * ‖v‖ ^ 4

/-- A remainder of order `n` in the increment is of that order in the step if the increment is of the order of the step. -/
theorem remainder {n : Nat} {R : E → E → F} (h : ∃ C, 0 ≤ C ∧ ∃ δ > 0, ∀ a ∈ K, ∀ v, ‖v‖ ≤ δ → ‖R a v‖ ≤ C * ‖v‖ ^ n) {v : E × ℝ → E} (hv : Ord K 1 v) :
    Ord K n fun p => R p.1 (v p) := by
  obtain ⟨C, hC, δ, hδ, h⟩ := h
  obtain ⟨A, hA, r, hr, hv⟩ := ord_iff.1 hv
  refine ord_iff.2 ⟨C * A ^ n, by positivity, min r (δ / (A + 1)), by positivity, fun a ha x h0 h1 => ?_⟩
  have h2 := hv a ha x h0 (h1.trans_le (min_le_left _ _))
  rw [pow_one] at h2
  have h3 : ‖v (a, x)‖ ≤ δ := h2.trans (by
    have := (h1.trans_le (min_le_right _ _)).le
    rw [le_div_iff₀ (by positivity)] at this
    nlinarith)
  refine (h a ha _ h3).trans ?_
  rw [mul_assoc, ← mul_pow]
  exact mul_le_mul_of_nonneg_left (pow_le_pow_left₀ (norm_nonneg _) h2 _) hC

section
variable {f : E → F} {f1 : E → E →L[ℝ] F} {f2 : E → E →L[ℝ] E →L[ℝ] F} {f3 : E → E →L[ℝ] E →L[ℝ] E →L[ℝ] F}

theorem Expand1.stage (h : Expand1 K f f1) {v : E × ℝ → E} {w0 : E → E} (h0 : Ord K 0 fun p => w0 p.1) (hv : Ord K 2 fun p => v p - p.2 • w0 p.1) :
    Ord K 2 fun p => f (p.1 + v p) - (f p.1 + p.2 • f1 p.1 (w0 p.1)) := by
  have v1 : Ord K 1 v := ((hv.mono (by norm_num)).add (h0.step 1)).congr fun p => by rw [pow_one]; abel
  have t := remainder (R := fun a v => f (a + v) - (f a + f1 a v)) h.taylor v1
  refine (t.add (h.b1.apply hv)).congr fun p => ?_
  rw [map_sub, map_smul]
  abel

/-- One stage of a method: the value of `f` at an increment with a known expansion. -/
theorem Expand3.stage (h : Expand3 K f f1 f2 f3) {v : E × ℝ → E} {w0 w1 w2 : E → E} (h0 : Ord K 0 fun p => w0 p.1) (h1 : Ord K 0 fun p => w1 p.1)
    (h2 : Ord K 0 fun p => w2 p.1) (hv : Ord K 4 fun p => v p - (p.2 • w0 p.1 + p.2 ^ 2 • w1 p.1 + p.2 ^ 3 • w2 p.1)) :
    Ord K 4 fun p => f (p.1 + v p) - (f p.1 + p.2 • f1 p.1 (w0 p.1) + p.2 ^ 2 • (f1 p.1 (w1 p.1) + (1 / 2 : ℝ) • f2 p.1 (w0 p.1) (w0 p.1))
      + p.2 ^ 3 • (f1 p.1 (w2 p.1) + (1 / 2 : ℝ) • (f2 p.1 (w0 p.1) (w1 p.1) + f2 p.1 (w1 p.1) (w0 p.1))
        + (1 / 6 : ℝ) • f3 p.1 (w0 p.1) (w0 p.1) (w0 p.1))) := by
  have r3 : Ord K 3 fun p => v p - (p.2 • w0 p.1 + p.2 ^ 2 • w1 p.1) :=
    ((hv.mono (by norm_num)).add (h2.step 3)).congr fun p => by abel
  have r2 : Ord K 2 fun p => v p - p.2 • w0 p.1 := ((r3.mono (by norm_num)).add (h1.step 2)).congr fun p => by abel
  have v1 : Ord K 1 v := ((r2.mono (by norm_num)).add (h0.step 1)).congr fun p => by rw [pow_one]; abel
  have t := remainder (R := fun a v => f (a + v) - (f a + f1 a v + (1 / 2 : ℝ) • f2 a v v + (1 / 6 : ℝ) • f3 a v v v)) h.taylor v1
  have q1 := h.b1.apply hv
  have q2 : Ord K 4 fun p => f2 p.1 (v p) (v p) - (p.2 ^ 2 • f2 p.1 (w0 p.1) (w0 p.1)
      + p.2 ^ 3 • (f2 p.1 (w0 p.1) (w1 p.1) + f2 p.1 (w1 p.1) (w0 p.1))) := by
    have a1 := (h.b2.apply r3).apply v1
    have a2 := ((h.b2.apply h0).apply r3).step 1
    have a3 := (((h.b2.apply h1).apply r2).step 2)
    refine ((a1.add a2).add a3).congr fun p => ?_
    simp only [map_sub, map_add, map_smul, ContinuousLinearMap.sub_apply, ContinuousLinearMap.add_apply, ContinuousLinearMap.smul_apply]
    module
  have q3 : Ord K 4 fun p => f3 p.1 (v p) (v p) (v p) - p.2 ^ 3 • f3 p.1 (w0 p.1) (w0 p.1) (w0 p.1) := by
    have a1 := ((h.b3 _ _ r2).apply v1).apply v1
    have a2 := (((h.b3 _ _ h0).apply r2).apply v1).step 1
    have a3 := (((h.b3 _ _ h0).apply h0).apply r2).step 2
    refine ((a1.add a2).add a3).congr fun p => ?_
    simp only [map_sub, map_add, map_smul, ContinuousLinearMap.sub_apply, ContinuousLinearMap.add_apply, ContinuousLinearMap.smul_apply]
    module
  refine (((t.add q1).add (q2.const (1 / 2))).add (q3.const (1 / 6))).congr fun p => ?_
  simp only [map_sub, map_add, map_smul]
  module

end

end
end Imodal
