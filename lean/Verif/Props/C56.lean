import Verif.Model.MeshUtils
import Verif.Lemmas.Kernel
import Verif.Spec.Euclid
import Mathlib.Analysis.Convex.Segment
/-!
# C56: area and distance predicates
-/
set_option autoImplicit false
namespace Imodal
noncomputable section
variable {d : Nat}

theorem tdist_eq (x y : Vec d) : tdist x y = Spec.euclid x y := by
  unfold tdist Spec.euclid
  rw [sqDistance_eq_dist, Real.sqrt_sq dist_nonneg]

theorem tdist_sq (x y : Vec d) : tdist x y ^ 2 = sqDistance x y := Real.sq_sqrt (sqDistance_nonneg x y)

theorem tdist_le {x y x' y' : Vec d} (h : sqDistance x y ≤ sqDistance x' y') : tdist x y ≤ tdist x' y' := Real.sqrt_le_sqrt h

/-- Points of a segment by their parameter. -/
theorem mem_segment_iff (p0 p1 q : Vec d) : q ∈ segment ℝ p0 p1 ↔ ∃ t : ℝ, 0 ≤ t ∧ t ≤ 1 ∧ q = fun c => p0 c + t * (p1 c - p0 c) := by
  rw [segment_eq_image']
  constructor
  · rintro ⟨t, ⟨h0, h1⟩, rfl⟩
    exact ⟨t, h0, h1, rfl⟩
  · rintro ⟨t, h0, h1, rfl⟩
    exact ⟨t, ⟨h0, h1⟩, rfl⟩

theorem sqDistance_param (p p0 v : Vec d) (t : ℝ) :
    sqDistance p (fun c => p0 c + t * v c) = sqDistance p0 p - 2 * t * (∑ c, (p c - p0 c) * v c) + t ^ 2 * ∑ c, v c ^ 2 := by
  unfold sqDistance
  rw [Finset.mul_sum, Finset.mul_sum, ← Finset.sum_sub_distrib, ← Finset.sum_add_distrib]
  exact Finset.sum_congr rfl fun c _ => by ring

/-- `distance_segment` is the least Euclidean distance from the point to a point of the segment. -/
theorem C56_distance (p p0 p1 : Vec d) : IsLeast (Spec.euclid p '' segment ℝ p0 p1) (distanceSegment p p0 p1) := by
  unfold distanceSegment
  split_ifs with h0
  · rw [tdist_sq, sqDistance_eq_zero] at h0
    subst h0
    rw [segment_same, Set.image_singleton, tdist_eq]
    have : Spec.euclid p0 p = Spec.euclid p p0 := dist_comm _ _
    rw [this]
    exact isLeast_singleton
  · rw [tdist_sq] at h0 ⊢
    have hS : sqDistance p0 p1 = ∑ c, (p1 c - p0 c) ^ 2 := by
      rw [sqDistance_comm]; rfl
    rw [hS] at h0 ⊢
    set S := ∑ c, (p1 c - p0 c) ^ 2 with hSd
    set A := ∑ c, (p c - p0 c) * (p1 c - p0 c) with hA
    have hpos : 0 < S := lt_of_le_of_ne (Finset.sum_nonneg fun c _ => sq_nonneg _) (Ne.symm h0)
    set t := max 0 (min 1 (A / S)) with ht
    have ht0 : 0 ≤ t := le_max_left _ _
    have ht1 : t ≤ 1 := max_le zero_le_one (min_le_left _ _)
    refine ⟨⟨_, (mem_segment_iff p0 p1 _).2 ⟨t, ht0, ht1, rfl⟩, (tdist_eq _ _).symm⟩, ?_⟩
    rintro _ ⟨q, hq, rfl⟩
    obtain ⟨s, hs0, hs1, rfl⟩ := (mem_segment_iff p0 p1 q).1 hq
    rw [← tdist_eq]
    refine tdist_le ?_
    rw [sqDistance_param p p0 (fun c => p1 c - p0 c) t, sqDistance_param p p0 (fun c => p1 c - p0 c) s]
    have hAS : A = A / S * S := by field_simp
    -- the projection onto the interval minimises the parabola
    have key : (t - A / S) ^ 2 ≤ (s - A / S) ^ 2 := by
      rcases le_total (A / S) 0 with h | h
      · have : t = 0 := by rw [ht, max_eq_left (le_trans (min_le_right _ _) h)]
        rw [this]; nlinarith
      · rcases le_total (A / S) 1 with h' | h'
        · have : t = A / S := by rw [ht, min_eq_right h', max_eq_right h]
          rw [this, sub_self]; nlinarith [sq_nonneg (s - A / S)]
        · have : t = 1 := by rw [ht, min_eq_left h', max_eq_right zero_le_one]
          rw [this]; nlinarith
    simp only [← hA, ← hSd]
    have : S * (t - A / S) ^ 2 ≤ S * (s - A / S) ^ 2 := mul_le_mul_of_nonneg_left key hpos.le
    have e : ∀ x : ℝ, S * (x - A / S) ^ 2 = x ^ 2 * S - 2 * x * A + A ^ 2 / S := fun x => by field_simp; ring
    rw [e, e] at this
    linarith

/-- A mask answers a predicate for every point. -/
def Answers {β : Type} (points : List β) (mask : List Bool) (P : β → Prop) : Prop := List.Forall₂ (fun p b => b = true ↔ P p) points mask

theorem answers_map {β : Type} (points : List β) (f : β → Bool) {P : β → Prop} (h : ∀ p, f p = true ↔ P p) : Answers points (points.map f) P := by
  unfold Answers
  induction points with
  | nil => exact .nil
  | cons p l ih => exact .cons (h p) ih

/-- The point is within distance `w` of the segment. -/
def Near (w : ℝ) (p0 p1 p : Vec d) : Prop := ∃ q ∈ segment ℝ p0 p1, Spec.euclid p q ≤ w

theorem distance_le_iff (p p0 p1 : Vec d) (w : ℝ) : distanceSegment p p0 p1 ≤ w ↔ Near w p0 p1 p := by
  obtain ⟨⟨q, hq, hqe⟩, hle⟩ := C56_distance p p0 p1
  constructor
  · intro h
    exact ⟨q, hq, hqe ▸ h⟩
  · rintro ⟨q', hq', h⟩
    exact (hle ⟨q', hq', rfl⟩).trans h

/-- The disc: exactly the points within `radius` of the centre. -/
theorem C56_disc (points : List (Vec d)) (c : Vec d) (r : ℝ) :
    ∃ mask, areaDisc points (some c) (some r) = .ok mask ∧ Answers points mask fun p => Spec.euclid p c ≤ r :=
  ⟨_, rfl, answers_map _ _ fun p => by simp [tdist_eq]⟩

/-- The neighbourhood of a segment, given by its ends or by origin and direction. -/
theorem C56_segment (points : List (Vec d)) (p0 p1 : Vec d) (w : ℝ) :
    (∃ mask, areaSegment points { p0 := some p0, p1 := some p1 } (some w) = .ok mask ∧ Answers points mask (Near w p0 p1)) ∧
    ∃ mask, areaSegment points { origin := some p0, direction := some fun c => p1 c - p0 c } (some w) = .ok mask ∧ Answers points mask (Near w p0 p1) := by
  refine ⟨⟨_, rfl, answers_map _ _ fun p => by simp [distance_le_iff]⟩, ⟨_, rfl, answers_map _ _ fun p => ?_⟩⟩
  have : (fun c => p0 c + (p1 c - p0 c)) = p1 := by funext c; ring
  simp [distance_le_iff, this]

/-- The outline of a polyline: within `width` of one of its segments; with `close` also of the
segment from the last to the first vertex. -/
theorem C56_outline (points polyline : List (Vec d)) (w : ℝ) :
    (∃ mask, areaPolylineOutline points (some polyline) (some w) (some false) = .ok mask ∧
      Answers points mask fun p => ∃ e ∈ edges polyline, Near w e.1 e.2 p) ∧
    ∀ v l, polyline = v :: l → ∃ mask, areaPolylineOutline points (some polyline) (some w) (some true) = .ok mask ∧
      Answers points mask fun p => ∃ e ∈ edges (polyline ++ [v]), Near w e.1 e.2 p := by
  refine ⟨⟨_, rfl, answers_map _ _ fun p => by simp [distance_le_iff]⟩, ?_⟩
  rintro v l rfl
  exact ⟨_, rfl, answers_map _ _ fun p => by simp [distance_le_iff]⟩

theorem sgn_eq_one {x : ℝ} : sgn x = 1 ↔ 0 < x := by
  unfold sgn; split_ifs with h h' <;> simp <;> linarith

theorem sgn_eq_neg_one {x : ℝ} : sgn x = -1 ↔ x < 0 := by
  unfold sgn; split_ifs with h h' <;> simp <;> linarith

theorem sgn_eq_zero {x : ℝ} : sgn x = 0 ↔ x = 0 := by
  unfold sgn; split_ifs with h h' <;> simp <;> [skip; skip; exact le_antisymm (not_lt.1 h') (not_lt.1 h)] <;> linarith

/-- `area_side`: the open (with `intersect` the closed) half plane to the left (right, for
side -1) of the directed line. `crossAt` is the oriented area of the parallelogram. -/
theorem C56_side (points : List (Vec 2)) (p0 p1 : Vec 2) (side : ℤ) (hs : side = 1 ∨ side = -1) :
    (∃ mask, areaSide points { p0 := some p0, p1 := some p1 } (some side) (some false) = .ok mask ∧
      Answers points mask fun p => 0 < side * ((p1 0 - p0 0) * (p 1 - p0 1) - (p1 1 - p0 1) * (p 0 - p0 0))) ∧
    ∃ mask, areaSide points { p0 := some p0, p1 := some p1 } (some side) (some true) = .ok mask ∧
      Answers points mask fun p => 0 ≤ side * ((p1 0 - p0 0) * (p 1 - p0 1) - (p1 1 - p0 1) * (p 0 - p0 0)) := by
  refine ⟨⟨_, rfl, answers_map _ _ fun p => ?_⟩, ⟨_, rfl, answers_map _ _ fun p => ?_⟩⟩
  · show _ ↔ 0 < (side : ℝ) * crossAt p0 p1 p
    rcases hs with rfl | rfl
    · simp [onSide, sgn_eq_one]
    · simp [onSide, sgn_eq_neg_one]
  · show _ ↔ 0 ≤ (side : ℝ) * crossAt p0 p1 p
    rcases hs with rfl | rfl
    · simp only [onSide, Option.getD_some, if_true, Bool.or_eq_true, beq_iff_eq, sgn_eq_one, sgn_eq_zero, Int.cast_one, one_mul]
      rw [le_iff_lt_or_eq, @eq_comm ℝ 0]
    · simp only [onSide, Option.getD_some, if_true, Bool.or_eq_true, beq_iff_eq, sgn_eq_neg_one, sgn_eq_zero, Int.cast_neg, Int.cast_one, neg_mul,
        one_mul, Left.nonneg_neg_iff]
      rw [le_iff_lt_or_eq]

/-- `area_convex_shape`: the points that are on the inner side of every edge of the closed shape;
with `intersect` also points on the edges' lines. -/
theorem C56_convex (points : List (Vec 2)) (v : Vec 2) (l : List (Vec 2)) (side : ℤ) (hs : side = 1 ∨ side = -1) :
    (∃ mask, areaConvexShape points (some (v :: l)) (some side) (some false) = .ok mask ∧
      Answers points mask fun p => ∀ e ∈ edges (v :: l ++ [v]), side * crossAt e.1 e.2 p < 0) ∧
    ∃ mask, areaConvexShape points (some (v :: l)) (some side) (some true) = .ok mask ∧
      Answers points mask fun p => ∀ e ∈ edges (v :: l ++ [v]), side * crossAt e.1 e.2 p ≤ 0 := by
  refine ⟨⟨(points.map fun p => !(edges (v :: l ++ [v])).any fun e => onSide e.1 e.2 side true p), ?_, answers_map _ _ fun p => ?_⟩,
    ⟨(points.map fun p => !(edges (v :: l ++ [v])).any fun e => onSide e.1 e.2 side false p), ?_, answers_map _ _ fun p => ?_⟩⟩
  · rcases hs with rfl | rfl <;> rfl
  · rcases hs with rfl | rfl
    · simp only [Bool.not_eq_true', List.any_eq_false, onSide, if_true, Bool.or_eq_true, beq_iff_eq, sgn_eq_one, sgn_eq_zero, Int.cast_one, one_mul]
      refine forall₂_congr fun e _ => ?_
      push Not
      exact ⟨fun h => lt_of_le_of_ne h.1 h.2, fun h => ⟨h.le, h.ne⟩⟩
    · simp only [Bool.not_eq_true', List.any_eq_false, onSide, if_true, Bool.or_eq_true, beq_iff_eq, sgn_eq_neg_one, sgn_eq_zero, Int.cast_neg,
        Int.cast_one, neg_mul, one_mul]
      refine forall₂_congr fun e _ => ?_
      push Not
      exact ⟨fun h => by have := lt_of_le_of_ne h.1 (Ne.symm h.2); linarith, fun h => ⟨by linarith, by intro e; linarith⟩⟩
  · rcases hs with rfl | rfl <;> rfl
  · rcases hs with rfl | rfl
    · simp [onSide, sgn_eq_one]
    · simp [onSide, sgn_eq_neg_one]

/-- These areas are convex: half planes are. -/
theorem C56_convex_convex (es : List (Vec 2 × Vec 2)) (side : ℤ) :
    Convex ℝ {p : Vec 2 | ∀ e ∈ es, side * crossAt e.1 e.2 p ≤ 0} ∧ Convex ℝ {p : Vec 2 | ∀ e ∈ es, side * crossAt e.1 e.2 p < 0} := by
  have lin : ∀ (e : Vec 2 × Vec 2) (x y : Vec 2) (a b : ℝ), a + b = 1 →
      side * crossAt e.1 e.2 (a • x + b • y) = a * (side * crossAt e.1 e.2 x) + b * (side * crossAt e.1 e.2 y) := by
    intro e x y a b hab
    have hb : b = 1 - a := by linarith
    subst hb
    simp only [crossAt, Pi.add_apply, Pi.smul_apply, smul_eq_mul]
    ring
  constructor
  · intro x hx y hy a b ha hb hab e he
    rw [lin e x y a b hab]
    nlinarith [hx e he, hy e he]
  · intro x hx y hy a b ha hb hab e he
    rw [lin e x y a b hab]
    have h1 := hx e he
    have h2 := hy e he
    rcases ha.eq_or_lt with rfl | ha
    · have : b = 1 := by linarith
      subst this; simpa using h2
    · nlinarith

/-- Missing arguments are rejected. -/
theorem C56_missing (points : List (Vec 2)) (c : Vec 2) (r : ℝ) :
    areaDisc points none (some r) = .error .runtime ∧ areaDisc points (some c) none = .error .runtime ∧
    areaSegment points {} (some r) = .error .runtime ∧ areaSegment points { p0 := some c, p1 := some c } none = .error .runtime ∧
    areaSide points { p0 := some c } none none = .error .runtime ∧ areaConvexShape points none none none = .error .runtime ∧
    areaPolylineOutline points none none none = .error .runtime := ⟨rfl, rfl, rfl, rfl, rfl, rfl, rfl⟩

/-- The clockwise unit square contains its centre and not the point (2, 0.5). -/
example : areaConvexShape [![0.5, 0.5], ![2, 0.5]] (some [![0, 0], ![0, 1], ![1, 1], ![1, 0]]) (some 1) (some false) = .ok [true, false] := by
  have h1 : sgn (crossAt ![0, 0] ![0, 1] ![0.5, 0.5]) = -1 := sgn_eq_neg_one.2 (by norm_num [crossAt])
  have h2 : sgn (crossAt ![0, 1] ![1, 1] ![0.5, 0.5]) = -1 := sgn_eq_neg_one.2 (by norm_num [crossAt])
  have h3 : sgn (crossAt ![1, 1] ![1, 0] ![0.5, 0.5]) = -1 := sgn_eq_neg_one.2 (by norm_num [crossAt])
  have h4 : sgn (crossAt ![1, 0] ![0, 0] ![0.5, 0.5]) = -1 := sgn_eq_neg_one.2 (by norm_num [crossAt])
  have h5 : sgn (crossAt ![1, 1] ![1, 0] ![2, 0.5]) = 1 := sgn_eq_one.2 (by norm_num [crossAt])
  simp [areaConvexShape, closeShape, edges, onSide, h1, h2, h3, h4, h5, bind, Except.bind, pure, Except.pure]

end
end Imodal
