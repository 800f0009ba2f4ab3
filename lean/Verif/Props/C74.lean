import Verif.Model.Local
import Verif.Lemmas.Field
import Mathlib.Analysis.SpecialFunctions.Trigonometric.Bounds
/-!
# C74 Local scaling and rotation do what their names say

At its centre the field of a local scaling has value zero and a Jacobian that is a multiple of the
identity, that of a local rotation value zero and a multiple of a quarter turn. Away from the
centre, whatever the distance, a scaling with a positive control moves every point away from the
centre and a rotation turns every point the same way round.
-/
set_option autoImplicit false
namespace Imodal
noncomputable section
open scoped BigOperators

/-! ## The three directions -/

theorem cos_third : Real.cos (2 * Real.pi / 3) = -(1 / 2) := by
  rw [show 2 * Real.pi / 3 = Real.pi - Real.pi / 3 by ring, Real.cos_pi_sub, Real.cos_pi_div_three]
theorem sin_third : Real.sin (2 * Real.pi / 3) = √3 / 2 := by
  rw [show 2 * Real.pi / 3 = Real.pi - Real.pi / 3 by ring, Real.sin_pi_sub, Real.sin_pi_div_three]
theorem cos_two_third : Real.cos (2 * Real.pi / 3 * 2) = -(1 / 2) := by
  rw [show 2 * Real.pi / 3 * 2 = Real.pi / 3 + Real.pi by ring, Real.cos_add_pi, Real.cos_pi_div_three]
theorem sin_two_third : Real.sin (2 * Real.pi / 3 * 2) = -(√3 / 2) := by
  rw [show 2 * Real.pi / 3 * 2 = Real.pi / 3 + Real.pi by ring, Real.sin_add_pi, Real.sin_pi_div_three]

theorem radial3_0 : radial3 0 = ![1, 0] := by simp [radial3]
theorem radial3_1 : radial3 1 = ![-(1 / 2), √3 / 2] := by simp [radial3, cos_third, sin_third]
theorem radial3_2 : radial3 2 = ![-(1 / 2), -(√3 / 2)] := by simp [radial3, cos_two_third, sin_two_third]
theorem tangential3_eq (i : Fin 3) : tangential3 i = ![-(radial3 i 1), radial3 i 0] := by simp [tangential3, radial3]

theorem sqrt3_sq : √3 * √3 = (3 : ℝ) := Real.mul_self_sqrt (by norm_num)

theorem radial3_sq (i : Fin 3) : radial3 i 0 ^ 2 + radial3 i 1 ^ 2 = 1 := by
  simp [radial3, Real.cos_sq_add_sin_sq]

/-- A weighted sum of exponentials whose exponents sum to zero. -/
theorem exp_weighted_pos {n : Nat} (t : Fin n → ℝ) (a : ℝ) (ha : 0 < a) (h0 : ∑ i, t i = 0) (hne : ∃ i, t i ≠ 0) :
    0 < ∑ i, Real.exp (a * t i) * t i := by
  have hle : ∀ i, t i ≤ Real.exp (a * t i) * t i := fun i => by
    rcases le_total 0 (t i) with h | h
    · have : 1 ≤ Real.exp (a * t i) := Real.one_le_exp (by positivity)
      nlinarith
    · have : Real.exp (a * t i) ≤ 1 := Real.exp_le_one_iff.2 (by nlinarith)
      nlinarith
  obtain ⟨i, hi⟩ := hne
  have hlt : t i < Real.exp (a * t i) * t i := by
    rcases lt_or_gt_of_ne hi with h | h
    · have : Real.exp (a * t i) < 1 := Real.exp_lt_one_iff.2 (by nlinarith)
      nlinarith
    · have : 1 < Real.exp (a * t i) := Real.one_lt_exp_iff.2 (by positivity)
      nlinarith
  have := Finset.sum_lt_sum (fun i _ => hle i) ⟨i, Finset.mem_univ i, hlt⟩
  linarith

/-- The kernel between a point and a point of the support. -/
theorem kXY_offset {d : Nat} (σ : ℝ) (hσ : σ ≠ 0) (x c u : Vec d) :
    kXY σ x (fun b => c b + σ / 3 * u b)
      = Real.exp (-(∑ b, (x b - c b) ^ 2) / (2 * σ ^ 2) - (∑ b, u b ^ 2) / 18) * Real.exp (1 / (3 * σ) * ∑ b, u b * (x b - c b)) := by
  rw [kXY, ← Real.exp_add, sqDistance]
  congr 1
  have : ∑ b, (x b - (c b + σ / 3 * u b)) ^ 2
      = ∑ b, (x b - c b) ^ 2 - 2 * σ / 3 * ∑ b, u b * (x b - c b) + σ ^ 2 / 9 * ∑ b, u b ^ 2 := by
    rw [Finset.mul_sum, Finset.mul_sum, ← Finset.sum_sub_distrib, ← Finset.sum_add_distrib]
    exact Finset.sum_congr rfl fun b _ => by ring
  rw [this]
  field_simp
  ring

/-! ## The field of constrained translations -/

theorem constrained_eval0 {d n p : Nat} (m : Constrained d n p) (x : Vec d) :
    m.field.eval 0 x = .ok fun I => m.ctrl * ∑ j, kXY m.σ x (m.fsupp m.gd j) * m.fvec m.gd j (I 0) := by
  rw [Constrained.field, FieldExpr.eval]
  rw [field0Torch_zero]
  refine congrArg Except.ok (funext fun I => ?_)
  rw [Finset.mul_sum]
  exact Finset.sum_congr rfl fun j _ => by ring

theorem constrained_eval1 {d n p : Nat} (m : Constrained d n p) (x : Vec d) :
    m.field.eval 1 x = .ok fun I => m.ctrl * ∑ j, kXY m.σ x (m.fsupp m.gd j) * ((m.fsupp m.gd j (I 1) - x (I 1)) / m.σ ^ 2) * m.fvec m.gd j (I 0) := by
  rw [Constrained.field, FieldExpr.eval]
  rw [field0Torch_one]
  refine congrArg Except.ok (funext fun I => ?_)
  rw [Finset.mul_sum]
  refine Finset.sum_congr rfl fun j _ => ?_
  have : gauss0 m.σ (relDiff x (m.fsupp m.gd j)) = kXY m.σ x (m.fsupp m.gd j) := by
    simp only [gauss0, relDiff, kXY, sqDistance]; congr 1; ring
  rw [g1, this, relDiff]
  ring

/-- Pushing through directions that sum to zero: the scalar product of the field with the offset
from the centre has the sign of the control. -/
theorem push_pos {d p : Nat} (σ : ℝ) (hσ : 0 < σ) (r : ℝ) (c : Vec d) (u : Fin p → Vec d) (hu : ∀ i, ∑ b, u i b ^ 2 = r)
    (x : Vec d) (h0 : ∑ i, ∑ b, u i b * (x b - c b) = 0) (hne : ∃ i, ∑ b, u i b * (x b - c b) ≠ 0) :
    0 < ∑ i, kXY σ x (fun b => c b + σ / 3 * u i b) * ∑ b, u i b * (x b - c b) := by
  have hk := exp_weighted_pos (fun i => ∑ b, u i b * (x b - c b)) (1 / (3 * σ)) (by positivity) h0 hne
  have : ∑ i, kXY σ x (fun b => c b + σ / 3 * u i b) * ∑ b, u i b * (x b - c b)
      = Real.exp (-(∑ b, (x b - c b) ^ 2) / (2 * σ ^ 2) - r / 18) * ∑ i, Real.exp (1 / (3 * σ) * ∑ b, u i b * (x b - c b)) * ∑ b, u i b * (x b - c b) := by
    rw [Finset.mul_sum]
    refine Finset.sum_congr rfl fun i _ => ?_
    rw [kXY_offset σ hσ.ne' x c (u i), hu i]
    ring
  rw [this]
  exact mul_pos (Real.exp_pos _) hk

theorem kXY_centre {d : Nat} (σ : ℝ) (hσ : σ ≠ 0) (c u : Vec d) :
    kXY σ c (fun b => c b + σ / 3 * u b) = Real.exp (-(∑ b, u b ^ 2) / 18) := by
  rw [kXY_offset σ hσ]
  simp
  ring_nf

theorem radial3_sum (y : Vec 2) : ∑ i, ∑ b, radial3 i b * y b = 0 := by
  simp [Fin.sum_univ_succ, radial3_0, radial3_1, radial3_2]
  ring

theorem radial3_ne (y : Vec 2) (hy : y ≠ 0) : ∃ i, ∑ b, radial3 i b * y b ≠ 0 := by
  by_contra hc
  push Not at hc
  have h0 := hc 0
  have h1 := hc 1
  simp [Fin.sum_univ_two, radial3_0, radial3_1] at h0 h1
  apply hy
  ext b
  fin_cases b
  · exact h0
  · simpa [h0] using h1

theorem radial3_norm (i : Fin 3) : ∑ b, radial3 i b ^ 2 = 1 := by
  rw [Fin.sum_univ_two]; exact radial3_sq i

theorem kXY_support3 (σ : ℝ) (hσ : σ ≠ 0) (gd : Fin 1 → Vec 2) (i : Fin 3) : kXY σ (gd 0) (support3 σ gd i) = Real.exp (-(1 / 18)) := by
  have := kXY_centre σ hσ (gd 0) (radial3 i)
  rw [radial3_norm] at this
  rw [show support3 σ gd i = fun b => gd 0 b + σ / 3 * radial3 i b from rfl, this]; norm_num

/-! ## Scaling -/

/-- The centre does not move and the Jacobian there is a multiple of the identity, positive when
the control is. -/
theorem C74_scaling_centre (σ coeff : ℝ) (hσ : σ ≠ 0) (gd cot : Fin 1 → Vec 2) (h : ℝ) :
    (localScaling σ coeff gd cot h).field.eval 0 (gd 0) = .ok (fun _ => 0) ∧
    (localScaling σ coeff gd cot h).field.eval 1 (gd 0)
      = .ok fun I => h * (Real.exp (-(1 / 18)) / (2 * σ)) * if I 0 = I 1 then 1 else 0 := by
  have hk := kXY_support3 σ hσ gd
  constructor
  · rw [constrained_eval0]
    refine congrArg Except.ok (funext fun I => ?_)
    simp only [localScaling, hk]
    generalize I 0 = b
    fin_cases b <;> simp [Fin.sum_univ_succ, radial3_0, radial3_1, radial3_2]
    right; ring
  · rw [constrained_eval1]
    refine congrArg Except.ok (funext fun I => ?_)
    simp only [localScaling, hk]
    generalize I 0 = b
    generalize I 1 = c
    have h3 := sqrt3_sq
    fin_cases b <;> fin_cases c <;> simp [Fin.sum_univ_succ, support3, radial3_0, radial3_1, radial3_2] <;> field_simp <;> ring_nf
    all_goals first | exact Or.inl trivial | exact Or.inr trivial | (left; nlinarith)

/-- A positive control moves every other point away from the centre, a negative one towards it. -/
theorem C74_scaling_outward (σ coeff : ℝ) (hσ : 0 < σ) (gd cot : Fin 1 → Vec 2) (h : ℝ) (hh : h ≠ 0) (x : Vec 2) (hx : x ≠ gd 0) :
    ∃ v : Vec 2, (localScaling σ coeff gd cot h).field.eval 0 x = .ok (fun I => v (I 0)) ∧
      0 < h * ∑ c, v c * (x c - gd 0 c) := by
  refine ⟨fun c => h * ∑ j, kXY σ x (support3 σ gd j) * radial3 j c, constrained_eval0 (localScaling σ coeff gd cot h) x, ?_⟩
  have hp := push_pos σ hσ 1 (gd 0) radial3 radial3_norm x (radial3_sum fun b => x b - gd 0 b)
    (radial3_ne (fun b => x b - gd 0 b) fun e => hx (funext fun b => sub_eq_zero.1 (congrFun e b)))
  have e : h * ∑ c, (h * ∑ j, kXY σ x (support3 σ gd j) * radial3 j c) * (x c - gd 0 c)
      = h ^ 2 * ∑ i, kXY σ x (fun b => gd 0 b + σ / 3 * radial3 i b) * ∑ b, radial3 i b * (x b - gd 0 b) := by
    simp only [Fin.sum_univ_two, Fin.sum_univ_three]
    show _ = h ^ 2 * (kXY σ x (support3 σ gd 0) * _ + kXY σ x (support3 σ gd 1) * _ + kXY σ x (support3 σ gd 2) * _)
    ring
  show 0 < h * ∑ c, (h * ∑ j, kXY σ x (support3 σ gd j) * radial3 j c) * (x c - gd 0 c)
  rw [e]
  exact mul_pos (by positivity) hp

/-! ## Rotation in the plane -/

/-- The centre does not move and the Jacobian there is a multiple of the counter-clockwise quarter
turn, positive when the control is. -/
theorem C74_rotation_centre (σ coeff : ℝ) (hσ : σ ≠ 0) (gd cot : Fin 1 → Vec 2) (h : ℝ) :
    (localRotation2 σ coeff gd cot h).field.eval 0 (gd 0) = .ok (fun _ => 0) ∧
    (localRotation2 σ coeff gd cot h).field.eval 1 (gd 0)
      = .ok fun I => h * (Real.exp (-(1 / 18)) / (2 * σ)) * !![0, -1; 1, 0] (I 0) (I 1) := by
  have hk := kXY_support3 σ hσ gd
  constructor
  · rw [constrained_eval0]
    refine congrArg Except.ok (funext fun I => ?_)
    simp only [localRotation2, hk, tangential3_eq]
    generalize I 0 = b
    fin_cases b <;> simp [Fin.sum_univ_succ, radial3_0, radial3_1, radial3_2]
    right; ring
  · rw [constrained_eval1]
    refine congrArg Except.ok (funext fun I => ?_)
    simp only [localRotation2, hk, tangential3_eq]
    generalize I 0 = b
    generalize I 1 = c
    have h3 := sqrt3_sq
    fin_cases b <;> fin_cases c <;> simp [Fin.sum_univ_succ, support3, radial3_0, radial3_1, radial3_2] <;> field_simp <;> ring_nf
    all_goals first | exact Or.inl trivial | exact Or.inr trivial | (left; nlinarith) | linear_combination (-2 * h) * h3 | linear_combination (2 * h) * h3

/-- A positive control turns every other point counter-clockwise around the centre, a negative one
clockwise: the offset from the centre and the velocity make a positively oriented pair. -/
theorem C74_rotation_turns (σ coeff : ℝ) (hσ : 0 < σ) (gd cot : Fin 1 → Vec 2) (h : ℝ) (hh : h ≠ 0) (x : Vec 2) (hx : x ≠ gd 0) :
    ∃ v : Vec 2, (localRotation2 σ coeff gd cot h).field.eval 0 x = .ok (fun I => v (I 0)) ∧
      0 < h * ((x 0 - gd 0 0) * v 1 - (x 1 - gd 0 1) * v 0) := by
  refine ⟨fun c => h * ∑ j, kXY σ x (support3 σ gd j) * tangential3 j c, constrained_eval0 (localRotation2 σ coeff gd cot h) x, ?_⟩
  have hp := push_pos σ hσ 1 (gd 0) radial3 radial3_norm x (radial3_sum fun b => x b - gd 0 b)
    (radial3_ne (fun b => x b - gd 0 b) fun e => hx (funext fun b => sub_eq_zero.1 (congrFun e b)))
  have e : h * ((x 0 - gd 0 0) * (h * ∑ j, kXY σ x (support3 σ gd j) * tangential3 j 1)
        - (x 1 - gd 0 1) * (h * ∑ j, kXY σ x (support3 σ gd j) * tangential3 j 0))
      = h ^ 2 * ∑ i, kXY σ x (fun b => gd 0 b + σ / 3 * radial3 i b) * ∑ b, radial3 i b * (x b - gd 0 b) := by
    simp only [Fin.sum_univ_two, Fin.sum_univ_three, tangential3_eq, Matrix.cons_val_zero, Matrix.cons_val_one]
    show _ = h ^ 2 * (kXY σ x (support3 σ gd 0) * _ + kXY σ x (support3 σ gd 1) * _ + kXY σ x (support3 σ gd 2) * _)
    ring
  show 0 < h * ((x 0 - gd 0 0) * (h * ∑ j, kXY σ x (support3 σ gd j) * tangential3 j 1)
        - (x 1 - gd 0 1) * (h * ∑ j, kXY σ x (support3 σ gd j) * tangential3 j 0))
  rw [e]
  exact mul_pos (by positivity) hp

/-! ## Rotation in space -/

theorem tetra_sum (y : Vec 3) : ∑ i, ∑ b, tetra i b * y b = 0 := by
  simp [Fin.sum_univ_succ, tetra]
  ring

theorem tetra_ne (y : Vec 3) (hy : y ≠ 0) : ∃ i, ∑ b, tetra i b * y b ≠ 0 := by
  by_contra hc
  push Not at hc
  have h0 := hc 0
  have h1 := hc 1
  have h2 := hc 2
  simp [Fin.sum_univ_three, tetra] at h0 h1 h2
  apply hy
  ext b
  fin_cases b <;> simp <;> linarith

theorem tetra_norm (i : Fin 4) : ∑ b, tetra i b ^ 2 = 3 := by
  fin_cases i <;> simp [Fin.sum_univ_three, tetra] <;> norm_num

theorem kXY_supportTetra (σ : ℝ) (hσ : σ ≠ 0) (gd : Fin 2 → Vec 3) (i : Fin 4) : kXY σ (gd 0) (supportTetra σ gd i) = Real.exp (-(1 / 6)) := by
  have := kXY_centre σ hσ (gd 0) (tetra i)
  rw [tetra_norm] at this
  rw [show supportTetra σ gd i = fun b => gd 0 b + σ / 3 * tetra i b from rfl, this]; norm_num

/-- The first descriptor point does not move, and the Jacobian there is a multiple of the vector
product with the axis, which goes from the first point to the second. -/
theorem C74_rotation3_centre (σ coeff : ℝ) (hσ : σ ≠ 0) (gd cot : Fin 2 → Vec 3) (h : ℝ) :
    (localRotation3 σ coeff gd cot h).field.eval 0 (gd 0) = .ok (fun _ => 0) ∧
    ∃ J : Mat 3, (localRotation3 σ coeff gd cot h).field.eval 1 (gd 0) = .ok (fun I => J (I 0) (I 1)) ∧
      ∀ y : Vec 3, J.mulVec y = (h * (4 * Real.exp (-(1 / 6)) / (3 * σ))) • crossProduct y fun c => gd 1 c - gd 0 c := by
  have hk := kXY_supportTetra σ hσ gd
  constructor
  · rw [constrained_eval0]
    refine congrArg Except.ok (funext fun I => ?_)
    simp only [localRotation3, hk]
    generalize I 0 = b
    fin_cases b <;> simp [Fin.sum_univ_succ, vectorsTetra, tetra, cross_apply] <;> right <;> ring
  · refine ⟨fun b c => h * ∑ j, kXY σ (gd 0) (supportTetra σ gd j) * ((supportTetra σ gd j c - gd 0 c) / σ ^ 2) * vectorsTetra gd j b,
      constrained_eval1 (localRotation3 σ coeff gd cot h) (gd 0), fun y => ?_⟩
    ext b
    simp only [hk]
    fin_cases b <;> simp [Matrix.mulVec, dotProduct, Fin.sum_univ_succ, supportTetra, vectorsTetra, tetra, cross_apply] <;> field_simp <;> ring

/-- Every point of the plane through the centre and orthogonal to the axis turns around it, always
the same way round. -/
theorem C74_rotation3_turns (σ coeff : ℝ) (hσ : 0 < σ) (gd cot : Fin 2 → Vec 3) (h : ℝ) (hh : h ≠ 0) (hgd : gd 1 ≠ gd 0)
    (x : Vec 3) (hx : x ≠ gd 0) (hperp : ∑ c, (x c - gd 0 c) * (gd 1 c - gd 0 c) = 0) :
    ∃ v : Vec 3, (localRotation3 σ coeff gd cot h).field.eval 0 x = .ok (fun I => v (I 0)) ∧
      0 < h * ∑ c, v c * crossProduct (fun c => x c - gd 0 c) (fun c => gd 1 c - gd 0 c) c := by
  refine ⟨fun c => h * ∑ j, kXY σ x (supportTetra σ gd j) * vectorsTetra gd j c, constrained_eval0 (localRotation3 σ coeff gd cot h) x, ?_⟩
  have hp := push_pos σ hσ 3 (gd 0) tetra tetra_norm x (tetra_sum fun b => x b - gd 0 b)
    (tetra_ne (fun b => x b - gd 0 b) fun e => hx (funext fun b => sub_eq_zero.1 (congrFun e b)))
  have hw : 0 < ∑ c, (gd 1 c - gd 0 c) ^ 2 := by
    refine lt_of_le_of_ne (Finset.sum_nonneg fun c _ => sq_nonneg _) fun e => hgd (funext fun c => ?_)
    exact sub_eq_zero.1 (pow_eq_zero_iff (two_ne_zero) |>.1 ((Finset.sum_eq_zero_iff_of_nonneg fun c _ => sq_nonneg _).1 e.symm c (Finset.mem_univ c)))
  have hbac : ∀ (t y w : Vec 3), ∑ c, y c * w c = 0 →
      ∑ c, crossProduct t w c * crossProduct y w c = (∑ c, w c ^ 2) * ∑ c, t c * y c := by
    intro t y w h
    simp [Fin.sum_univ_three, cross_apply] at h ⊢
    linear_combination (-(t 0 * w 0 + t 1 * w 1 + t 2 * w 2)) * h
  have e : h * ∑ c, (h * ∑ j, kXY σ x (supportTetra σ gd j) * vectorsTetra gd j c) * crossProduct (fun c => x c - gd 0 c) (fun c => gd 1 c - gd 0 c) c
      = h ^ 2 * (∑ c, (gd 1 c - gd 0 c) ^ 2) * ∑ i, kXY σ x (fun b => gd 0 b + σ / 3 * tetra i b) * ∑ b, tetra i b * (x b - gd 0 b) := by
    calc _ = h ^ 2 * ∑ j, kXY σ x (supportTetra σ gd j) * ∑ c, vectorsTetra gd j c * crossProduct (fun c => x c - gd 0 c) (fun c => gd 1 c - gd 0 c) c := by
          simp only [Fin.sum_univ_three, Fin.sum_univ_four]; ring
      _ = h ^ 2 * ∑ j, kXY σ x (supportTetra σ gd j) * ((∑ c, (gd 1 c - gd 0 c) ^ 2) * ∑ b, tetra j b * (x b - gd 0 b)) := by
          refine congrArg _ (Finset.sum_congr rfl fun j _ => congrArg _ ?_)
          exact hbac (tetra j) (fun c => x c - gd 0 c) (fun c => gd 1 c - gd 0 c) hperp
      _ = _ := by
          rw [mul_assoc, Finset.mul_sum (a := ∑ c, (gd 1 c - gd 0 c) ^ 2)]
          refine congrArg _ (Finset.sum_congr rfl fun j _ => ?_)
          show _ = _ * (kXY σ x (supportTetra σ gd j) * _)
          ring
  show 0 < h * ∑ c, (h * ∑ j, kXY σ x (supportTetra σ gd j) * vectorsTetra gd j c) * _
  rw [e]
  exact mul_pos (by positivity) hp

/-- At every point the velocity is orthogonal to the axis. -/
theorem C74_rotation3_orthogonal (σ coeff : ℝ) (gd cot : Fin 2 → Vec 3) (h : ℝ) (x : Vec 3) :
    ∃ v : Vec 3, (localRotation3 σ coeff gd cot h).field.eval 0 x = .ok (fun I => v (I 0)) ∧ ∑ c, v c * (gd 1 c - gd 0 c) = 0 := by
  refine ⟨fun c => h * ∑ j, kXY σ x (supportTetra σ gd j) * vectorsTetra gd j c, constrained_eval0 (localRotation3 σ coeff gd cot h) x, ?_⟩
  simp only [vectorsTetra, cross_apply, Fin.sum_univ_three, Fin.sum_univ_four, Matrix.cons_val_zero, Matrix.cons_val_one, Matrix.cons_val_two,
    Matrix.head_cons, Matrix.tail_cons, Matrix.cons_val]
  ring

/-! ## Costs -/

theorem kXX_offsets {d p : Nat} (σ : ℝ) (hσ : σ ≠ 0) (c : Vec d) (u : Fin p → Vec d) (i j : Fin p) :
    kXX σ (fun i b => c b + σ / 3 * u i b) i j = Real.exp (-(∑ b, (u i b - u j b) ^ 2) / 18) := by
  rw [kXX, sqDistance]
  have : ∑ b, ((c b + σ / 3 * u i b) - (c b + σ / 3 * u j b)) ^ 2 = σ ^ 2 / 9 * ∑ b, (u i b - u j b) ^ 2 := by
    rw [Finset.mul_sum]; exact Finset.sum_congr rfl fun b _ => by ring
  rw [this]
  congr 1
  field_simp
  ring

theorem radial3_dist (i j : Fin 3) : ∑ b, (radial3 i b - radial3 j b) ^ 2 = if i = j then 0 else 3 := by
  have h3 := sqrt3_sq
  fin_cases i <;> fin_cases j <;> simp [Fin.sum_univ_two, radial3_0, radial3_1, radial3_2] <;> nlinarith

theorem tetra_dist (i j : Fin 4) : ∑ b, (tetra i b - tetra j b) ^ 2 = if i = j then 0 else 8 := by
  fin_cases i <;> fin_cases j <;> simp [Fin.sum_univ_three, tetra] <;> norm_num

/-- The energy of vectors that sum to zero, at points with the same kernel between any two. -/
theorem energy_simplex {d p : Nat} (e : ℝ) (K : Fin p → Fin p → ℝ) (hK : ∀ i j, K i j = if i = j then 1 else e) (v : Fin p → Vec d)
    (hv : ∀ c, ∑ i, v i c = 0) : dotFlat (kMul K v) v = (1 - e) * ∑ i, ∑ c, v i c ^ 2 := by
  have h1 : ∀ i c, kMul K v i c = (1 - e) * v i c := fun i c => by
    have : ∀ j, K i j * v j c = e * v j c + if i = j then (1 - e) * v j c else 0 := fun j => by
      rw [hK]; split_ifs <;> ring
    simp only [kMul, this, Finset.sum_add_distrib, ← Finset.mul_sum, hv, mul_zero, zero_add, Finset.sum_ite_eq, Finset.mem_univ, if_true]
  simp only [dotFlat, h1]
  rw [Finset.mul_sum]
  refine Finset.sum_congr rfl fun i _ => ?_
  rw [Finset.mul_sum]
  exact Finset.sum_congr rfl fun c _ => by ring

/-- The cost of a local scaling and of a plane rotation is half the coefficient times a positive
constant times the square of the control: it depends neither on the centre nor on the scale. -/
theorem C74_cost2 (σ coeff : ℝ) (hσ : σ ≠ 0) (gd cot : Fin 1 → Vec 2) (h : ℝ) :
    (localScaling σ coeff gd cot h).cost = coeff / 2 * (3 * (1 - Real.exp (-(1 / 6)))) * h ^ 2 ∧
    (localRotation2 σ coeff gd cot h).cost = coeff / 2 * (3 * (1 - Real.exp (-(1 / 6)))) * h ^ 2 ∧
    0 < 3 * (1 - Real.exp (-(1 / 6))) := by
  have hK : ∀ i j, kXX σ (support3 σ gd) i j = if i = j then 1 else Real.exp (-(1 / 6)) := fun i j => by
    refine (kXX_offsets σ hσ (gd 0) radial3 i j).trans ?_
    rw [radial3_dist]
    split_ifs
    · simp
    · norm_num
  have hs : ∀ c, ∑ i, radial3 i c = 0 := fun c => by
    fin_cases c <;> simp [Fin.sum_univ_three, radial3_0, radial3_1, radial3_2]
    ring
  refine ⟨?_, ?_, ?_⟩
  · have he : (localScaling σ coeff gd cot h).energy = _ := energy_simplex _ _ hK radial3 hs
    rw [Constrained.cost, he]
    simp only [radial3_norm, localScaling]
    simp
    ring
  · have ht : ∀ c, ∑ i, tangential3 i c = 0 := fun c => by
      have h0 := hs 0
      have h1 := hs 1
      simp only [tangential3_eq]
      fin_cases c
      · simpa [Finset.sum_neg_distrib] using h1
      · simpa using h0
    have hn : ∀ i, ∑ c, tangential3 i c ^ 2 = 1 := fun i => by
      have := radial3_sq i
      simp [tangential3_eq, Fin.sum_univ_two]; linarith
    have he : (localRotation2 σ coeff gd cot h).energy = _ := energy_simplex _ _ hK tangential3 ht
    rw [Constrained.cost, he]
    simp only [hn, localRotation2]
    simp
    ring
  · have : Real.exp (-(1 / 6)) < 1 := Real.exp_lt_one_iff.2 (by norm_num)
    linarith

/-- The cost of a rotation in space is proportional to the squared length of the axis. -/
theorem C74_cost3 (σ coeff : ℝ) (hσ : σ ≠ 0) (gd cot : Fin 2 → Vec 3) (h : ℝ) :
    (localRotation3 σ coeff gd cot h).cost = coeff / 2 * (8 * (1 - Real.exp (-(4 / 9)))) * (∑ c, (gd 1 c - gd 0 c) ^ 2) * h ^ 2 ∧
    0 < 8 * (1 - Real.exp (-(4 / 9))) := by
  have hK : ∀ i j, kXX σ (supportTetra σ gd) i j = if i = j then 1 else Real.exp (-(4 / 9)) := fun i j => by
    refine (kXX_offsets σ hσ (gd 0) tetra i j).trans ?_
    rw [tetra_dist]
    split_ifs
    · simp
    · norm_num
  have hs : ∀ c, ∑ i, vectorsTetra gd i c = 0 := fun c => by
    simp only [Fin.sum_univ_four, vectorsTetra, cross_apply, tetra]
    fin_cases c <;> simp <;> ring
  have hn : ∑ i, ∑ c, vectorsTetra gd i c ^ 2 = 8 * ∑ c, (gd 1 c - gd 0 c) ^ 2 := by
    simp only [Fin.sum_univ_four, Fin.sum_univ_three, vectorsTetra, cross_apply, tetra]
    simp
    ring
  refine ⟨?_, ?_⟩
  · have he : (localRotation3 σ coeff gd cot h).energy = _ := energy_simplex _ _ hK (vectorsTetra gd) hs
    rw [Constrained.cost, he, hn]
    simp only [localRotation3]
    ring
  · have : Real.exp (-(4 / 9)) < 1 := Real.exp_lt_one_iff.2 (by norm_num)
    linarith

/-! ## Other dimensions -/

/-- **Disagreement.** The builder takes any dimension, but in dimension three or more the field of a
local scaling raises RuntimeError. -/
theorem C74_scaling_dimension_disagreement (d : Nat) (hd : 3 ≤ d) (σ : ℝ) (gd : Fin 1 → Vec d) (h : ℝ) :
    scalingField d σ gd h = .error .runtime := by
  rw [scalingField, scalingSupport, dif_neg (by omega), if_neg (by omega)]

/-- In the plane the general builder is the one above. -/
theorem C74_scaling_plane (σ coeff : ℝ) (gd cot : Fin 1 → Vec 2) (h : ℝ) :
    scalingField 2 σ gd h = .ok (localScaling σ coeff gd cot h).field := rfl

/-! ## A concrete case -/

example : ∃ v : Vec 2, (localScaling 1 1 ![![0, 0]] ![![0, 0]] 2).field.eval 0 ![5, 7] = .ok (fun I => v (I 0)) ∧
    0 < 2 * ∑ c, v c * ((![5, 7] : Vec 2) c - (![![0, 0]] : Fin 1 → Vec 2) 0 c) :=
  C74_scaling_outward 1 1 one_pos _ _ 2 two_ne_zero _ fun e => by have := congrFun e 0; simp at this

example : ∃ v : Vec 3, (localRotation3 1 1 ![![0, 0, 0], ![0, 0, 1]] ![0, 0] 2).field.eval 0 ![5, 7, 0] = .ok (fun I => v (I 0)) ∧
    0 < 2 * ∑ c, v c * crossProduct (fun c => (![5, 7, 0] : Vec 3) c - (![![0, 0, 0], ![0, 0, 1]] : Fin 2 → Vec 3) 0 c)
      (fun c => (![![0, 0, 0], ![0, 0, 1]] : Fin 2 → Vec 3) 1 c - (![![0, 0, 0], ![0, 0, 1]] : Fin 2 → Vec 3) 0 c) c :=
  C74_rotation3_turns 1 1 one_pos _ _ 2 two_ne_zero (fun e => by have := congrFun e 2; simp at this) _
    (fun e => by have := congrFun e 0; simp at this) (by simp [Fin.sum_univ_three])

end
end Imodal
