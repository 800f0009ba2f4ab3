import Verif.Props.C56
import Mathlib.Analysis.SpecialFunctions.Complex.Arg
import Mathlib.Data.List.Rotate
/-!
# C57: the winding number
-/
set_option autoImplicit false
namespace Imodal
noncomputable section

/-! ## Edges -/

theorem edges_append {β : Type} (l : List β) (a : β) (m : List β) : edges (l ++ a :: m) = edges (l ++ [a]) ++ edges (a :: m) := by
  induction l with
  | nil => simp [edges]
  | cons b l ih =>
    cases l with
    | nil => simp [edges]
    | cons c l => simpa [edges] using ih

theorem edges_map {β γ : Type} (f : β → γ) (l : List β) : edges (l.map f) = (edges l).map fun e => (f e.1, f e.2) := by
  induction l with
  | nil => rfl
  | cons a l ih =>
    cases l with
    | nil => rfl
    | cons b l => simpa [edges] using ih

theorem edges_reverse {β : Type} (l : List β) : edges l.reverse = ((edges l).map Prod.swap).reverse := by
  induction l with
  | nil => rfl
  | cons a l ih =>
    cases l with
    | nil => rfl
    | cons b l =>
      have h : (a :: b :: l).reverse = l.reverse ++ b :: [a] := by simp
      rw [h, edges_append]
      have h' : l.reverse ++ [b] = (b :: l).reverse := by simp
      rw [h', ih]
      simp [edges]

/-- Edges of a closed shape cut at a vertex: the two arcs change places. -/
theorem edges_close_swap {β : Type} (a b : β) (u v : List β) :
    List.Perm (edges ((a :: u ++ b :: v) ++ [a])) (edges ((b :: v ++ a :: u) ++ [b])) := by
  have h1 : (a :: u ++ b :: v) ++ [a] = (a :: u) ++ b :: (v ++ [a]) := by simp
  have h2 : (b :: v ++ a :: u) ++ [b] = (b :: v) ++ a :: (u ++ [b]) := by simp
  rw [h1, h2, edges_append (a :: u) b (v ++ [a]), edges_append (b :: v) a (u ++ [b])]
  exact List.perm_append_comm

theorem closeShape_ok {β : Type} {s c : List β} (h : closeShape s = .ok c) : ∃ a l, s = a :: l ∧ c = a :: l ++ [a] := by
  cases s with
  | nil => exact absurd h (by simp [closeShape])
  | cons a l => exact ⟨a, l, rfl, by simpa [closeShape] using h.symm⟩

theorem close_swap_perm {β : Type} {u v c c' : List β} (h : closeShape (u ++ v) = .ok c) (h' : closeShape (v ++ u) = .ok c') :
    List.Perm (edges c) (edges c') := by
  cases u with
  | nil => rw [List.nil_append] at h; rw [List.append_nil, h] at h'; cases h'; exact List.Perm.refl _
  | cons a u =>
    cases v with
    | nil => rw [List.append_nil] at h; rw [List.nil_append, h] at h'; cases h'; exact List.Perm.refl _
    | cons b v =>
      cases h
      cases h'
      exact edges_close_swap a b u v

/-! ## The loop as a sum -/

theorem windingOrder_eq (p : Vec 2) (s : List (Vec 2)) (side : ℤ) : windingOrder p s side = ((edges s).map fun e => windingStep p side e.1 e.2).sum := by
  unfold windingOrder
  have : ∀ (l : List (Vec 2 × Vec 2)) (z : ℤ), l.foldl (fun wn e => wn + windingStep p side e.1 e.2) z = z + (l.map fun e => windingStep p side e.1 e.2).sum := by
    intro l
    induction l with
    | nil => intro z; simp
    | cons e l ih => intro z; rw [List.foldl_cons, ih, List.map_cons, List.sum_cons]; ring
  rw [this, zero_add]

/-- The start vertex does not matter: the winding order is the same for every rotation of the
list of vertices. -/
theorem C57_start (p : Vec 2) (s c c' : List (Vec 2)) (k : Nat) (side : ℤ) (h : closeShape s = .ok c) (h' : closeShape (s.rotate k) = .ok c') :
    windingOrder p c' side = windingOrder p c side := by
  rw [windingOrder_eq, windingOrder_eq]
  rw [List.rotate_eq_drop_append_take_mod] at h'
  rw [← List.take_append_drop (k % s.length) s] at h
  exact ((close_swap_perm h h').symm.map _).sum_eq

theorem crossAt_add (a b p v : Vec 2) : crossAt (a + v) (b + v) (p + v) = crossAt a b p := by
  simp only [crossAt, Pi.add_apply]; ring

theorem windingStep_add (p v a b : Vec 2) (side : ℤ) : windingStep (p + v) side (a + v) (b + v) = windingStep p side a b := by
  unfold windingStep onSide
  simp only [crossAt_add, Pi.add_apply, add_le_add_iff_right, gt_iff_lt, add_lt_add_iff_right]

/-- Moving the point and the shape together changes nothing. -/
theorem C57_translation (p v : Vec 2) (s : List (Vec 2)) (side : ℤ) : windingOrder (p + v) (s.map (· + v)) side = windingOrder p s side := by
  rw [windingOrder_eq, windingOrder_eq, edges_map, List.map_map]
  congr 1
  exact List.map_congr_left fun e _ => windingStep_add p v e.1 e.2 side

theorem crossAt_swap (a b p : Vec 2) : crossAt b a p = -crossAt a b p := by
  simp only [crossAt]; ring

theorem sgn_neg (x : ℝ) : sgn (-x) = -sgn x := by
  rcases lt_trichotomy x 0 with h | h | h
  · rw [sgn_eq_neg_one.2 h, sgn_eq_one.2 (by linarith)]; rfl
  · subst h; rw [neg_zero, sgn_eq_zero.2 rfl]; rfl
  · rw [sgn_eq_one.2 h, sgn_eq_neg_one.2 (by linarith)]

theorem windingStep_swap (p a b : Vec 2) (side : ℤ) : windingStep p side b a = -windingStep p side a b := by
  have hc : ∀ z, onSide b a z false p = onSide a b (-z) false p := by
    intro z
    simp only [onSide, Bool.false_eq_true, if_false, crossAt_swap a b p, sgn_neg]
    rw [Bool.eq_iff_iff, beq_iff_eq, beq_iff_eq]
    omega
  unfold windingStep
  rw [hc, hc, neg_neg]
  split_ifs <;> first | rfl | (exfalso; linarith)

theorem sum_map_neg' {β : Type} (l : List β) (f : β → ℤ) : (l.map fun e => -f e).sum = -(l.map f).sum := by
  induction l with
  | nil => rfl
  | cons a l ih => rw [List.map_cons, List.sum_cons, ih, List.map_cons, List.sum_cons]; ring

/-- Reversing the order of the vertices changes the sign. -/
theorem C57_reverse (p : Vec 2) (s : List (Vec 2)) (side : ℤ) :
    windingOrder p s.reverse side = -windingOrder p s side ∧
    ∀ c c', closeShape s = .ok c → closeShape s.reverse = .ok c' → windingOrder p c' side = -windingOrder p c side := by
  have key : ∀ s : List (Vec 2), windingOrder p s.reverse side = -windingOrder p s side := by
    intro s
    rw [windingOrder_eq, windingOrder_eq, edges_reverse, List.map_reverse, List.sum_reverse, List.map_map, ← sum_map_neg']
    congr 1
    exact List.map_congr_left fun e _ => windingStep_swap p e.1 e.2 side
  refine ⟨key s, fun c c' h h' => ?_⟩
  obtain ⟨a, l, rfl, rfl⟩ := closeShape_ok h
  rw [← key]
  rw [List.reverse_cons] at h'
  have h2 : closeShape ([a] ++ l.reverse) = .ok (a :: l.reverse ++ [a]) := rfl
  have e : (a :: l ++ [a]).reverse = a :: l.reverse ++ [a] := by simp
  rw [e, windingOrder_eq, windingOrder_eq]
  exact ((close_swap_perm h' h2).map _).sum_eq

/-! ## The winding number -/

/-- The vector from `p` to `a` as a complex number. -/
def Spec.toC (p a : Vec 2) : ℂ := ⟨a 0 - p 0, a 1 - p 1⟩

/-- The oriented angle, in (-π, π], under which `p` sees the way from `a` to `b`. -/
def Spec.seen (p a b : Vec 2) : ℝ := Complex.arg (Spec.toC p b / Spec.toC p a)

/-- No vertex pair of the list has `p` on the segment between them. -/
def Spec.OffEdges (p : Vec 2) (c : List (Vec 2)) : Prop := ∀ e ∈ edges c, p ∉ segment ℝ e.1 e.2

theorem toC_ne {p a : Vec 2} (h : a ≠ p) : Spec.toC p a ≠ 0 := by
  intro e
  apply h
  funext i
  have h0 := congrArg Complex.re e
  have h1 := congrArg Complex.im e
  simp only [Spec.toC, Complex.zero_re, Complex.zero_im] at h0 h1
  fin_cases i
  · show a 0 = p 0
    linarith
  · show a 1 = p 1
    linarith

theorem im_div_sign (z w : ℂ) (hw : w ≠ 0) : (z / w).im = (z.im * w.re - z.re * w.im) / Complex.normSq w := by
  rw [Complex.div_im]; field_simp

theorem re_div_sign (z w : ℂ) (hw : w ≠ 0) : (z / w).re = (z.re * w.re + z.im * w.im) / Complex.normSq w := by
  rw [Complex.div_re]; field_simp

theorem cross_toC (p a b : Vec 2) : (Spec.toC p b).im * (Spec.toC p a).re - (Spec.toC p b).re * (Spec.toC p a).im = crossAt a b p := by
  simp only [Spec.toC, crossAt]; ring

/-- A point on the line of an edge and between its ends lies on the edge. -/
theorem mem_segment_of {p a b : Vec 2} (hc : crossAt a b p = 0) (hd : (b 0 - p 0) * (a 0 - p 0) + (b 1 - p 1) * (a 1 - p 1) ≤ 0) : p ∈ segment ℝ a b := by
  rw [mem_segment_iff]
  set N := (b 0 - a 0) ^ 2 + (b 1 - a 1) ^ 2 with hN
  set T := (p 0 - a 0) * (b 0 - a 0) + (p 1 - a 1) * (b 1 - a 1) with hT
  unfold crossAt at hc
  rcases eq_or_ne N 0 with h0 | h0
  · have h1 : b 0 = a 0 := by nlinarith [sq_nonneg (b 0 - a 0), sq_nonneg (b 1 - a 1)]
    have h2 : b 1 = a 1 := by nlinarith [sq_nonneg (b 0 - a 0), sq_nonneg (b 1 - a 1)]
    rw [h1, h2] at hd
    have h3 : a 0 = p 0 := by nlinarith [sq_nonneg (a 0 - p 0), sq_nonneg (a 1 - p 1)]
    have h4 : a 1 = p 1 := by nlinarith [sq_nonneg (a 0 - p 0), sq_nonneg (a 1 - p 1)]
    refine ⟨0, le_rfl, zero_le_one, ?_⟩
    funext i
    fin_cases i
    · simpa using h3.symm
    · simpa using h4.symm
  · have hpos : 0 < N := lt_of_le_of_ne (by positivity) (Ne.symm h0)
    have e1 : (p 0 - a 0) * N = T * (b 0 - a 0) := by rw [hN, hT]; linear_combination (-(b 1 - a 1)) * hc
    have e2 : (p 1 - a 1) * N = T * (b 1 - a 1) := by rw [hN, hT]; linear_combination (b 0 - a 0) * hc
    -- `hd` is `|p - a|² ≤ T` and with the line equation `T² = N |p - a|²`
    set Q := (p 0 - a 0) ^ 2 + (p 1 - a 1) ^ 2 with hQ
    have hQT : Q ≤ T := by rw [hQ, hT]; linarith
    have hQ0 : 0 ≤ Q := by positivity
    have hTN : T ^ 2 = N * Q := by rw [hT, hN, hQ]; linear_combination (-((b 0 - a 0) * (p 1 - a 1) - (b 1 - a 1) * (p 0 - a 0))) * hc
    have hT0 : 0 ≤ T := hQ0.trans hQT
    have hTle : T ≤ N := by
      rcases hT0.eq_or_lt with h | h
      · rw [← h]; exact hpos.le
      · have : T * T ≤ N * T := by nlinarith
        exact le_of_mul_le_mul_right this h
    refine ⟨T / N, div_nonneg hT0 hpos.le, (div_le_one hpos).2 hTle, ?_⟩
    funext i
    fin_cases i
    · show p 0 = a 0 + T / N * (b 0 - a 0)
      have : T / N * (b 0 - a 0) = p 0 - a 0 := by rw [div_mul_eq_mul_div, ← e1]; field_simp
      linarith
    · show p 1 = a 1 + T / N * (b 1 - a 1)
      have : T / N * (b 1 - a 1) = p 1 - a 1 := by rw [div_mul_eq_mul_div, ← e2]; field_simp
      linarith

/-- A point on the line of an edge that passes its height lies on the edge. -/
theorem mem_segment_cross {p a b : Vec 2} (hc : crossAt a b p = 0) (h1 : a 1 ≤ p 1) (h2 : p 1 < b 1) : p ∈ segment ℝ a b := by
  have hpos : 0 < b 1 - a 1 := by linarith
  unfold crossAt at hc
  rw [mem_segment_iff]
  refine ⟨(p 1 - a 1) / (b 1 - a 1), div_nonneg (by linarith) hpos.le, (div_le_one hpos).2 (by linarith), ?_⟩
  funext i
  fin_cases i
  · show p 0 = a 0 + (p 1 - a 1) / (b 1 - a 1) * (b 0 - a 0)
    rw [div_mul_eq_mul_div, ← sub_eq_iff_eq_add', eq_div_iff hpos.ne']
    linarith
  · show p 1 = a 1 + (p 1 - a 1) / (b 1 - a 1) * (b 1 - a 1)
    rw [div_mul_cancel₀ _ hpos.ne']
    ring

/-- One edge: the step of the loop corrects the jump of the argument across the cut. -/
theorem step_angle (p a b : Vec 2) (h : p ∉ segment ℝ a b) :
    2 * Real.pi * windingStep p 1 a b = Spec.seen p a b + (-Spec.toC p a).arg - (-Spec.toC p b).arg := by
  have ha : a ≠ p := fun e => h (e ▸ left_mem_segment ℝ a b)
  have hb : b ≠ p := fun e => h (e ▸ right_mem_segment ℝ a b)
  have hza := toC_ne ha
  have hzb := toC_ne hb
  have hn : 0 < Complex.normSq (Spec.toC p a) := Complex.normSq_pos.2 hza
  have hpi := Real.pi_pos
  have him : (Spec.toC p b / Spec.toC p a).im = crossAt a b p / Complex.normSq (Spec.toC p a) := by rw [im_div_sign _ _ hza, cross_toC]
  have hre : (Spec.toC p b / Spec.toC p a).re = ((b 0 - p 0) * (a 0 - p 0) + (b 1 - p 1) * (a 1 - p 1)) / Complex.normSq (Spec.toC p a) :=
    re_div_sign _ _ hza
  set γ := Spec.seen p a b with hγ
  set α := (-Spec.toC p a).arg with hα
  set β := (-Spec.toC p b).arg with hβ
  have hγ1 : -Real.pi < γ := Complex.neg_pi_lt_arg _
  have hγ2 : γ < Real.pi := by
    refine lt_of_le_of_ne (Complex.arg_le_pi _) fun e => ?_
    obtain ⟨h1, h2⟩ := Complex.arg_eq_pi_iff.1 e
    rw [him, div_eq_zero_iff, or_iff_left hn.ne'] at h2
    rw [hre] at h1
    refine h (mem_segment_of h2 ?_)
    by_contra hlt
    push Not at hlt
    exact absurd h1 (not_lt.2 (div_nonneg hlt.le hn.le))
  have hα1 : -Real.pi < α := Complex.neg_pi_lt_arg _
  have hα2 : α ≤ Real.pi := Complex.arg_le_pi _
  have hβ1 : -Real.pi < β := Complex.neg_pi_lt_arg _
  have hβ2 : β ≤ Real.pi := Complex.arg_le_pi _
  have hαs : a 1 ≤ p 1 ↔ 0 ≤ α := by
    rw [hα, Complex.arg_nonneg_iff]; simp [Spec.toC]
  have hβs : b 1 ≤ p 1 ↔ 0 ≤ β := by
    rw [hβ, Complex.arg_nonneg_iff]; simp [Spec.toC]
  have hneg : γ < 0 ↔ crossAt a b p < 0 := by
    rw [hγ, Spec.seen, Complex.arg_neg_iff, him, div_lt_iff₀ hn, zero_mul]
  obtain ⟨k, hk⟩ : ∃ k : ℤ, γ - (β - α) = 2 * Real.pi * k := by
    rw [← Real.Angle.angle_eq_iff_two_pi_dvd_sub, Real.Angle.coe_sub, hγ, hα, hβ, Spec.seen,
      ← Complex.arg_div_coe_angle (neg_ne_zero.2 hzb) (neg_ne_zero.2 hza), neg_div_neg_eq]
  -- the value of `k` from its bounds
  have kval : ∀ m : ℤ, 2 * Real.pi * (m - 1) < γ - (β - α) → γ - (β - α) < 2 * Real.pi * (m + 1) → k = m := by
    intro m h1 h2
    rw [hk] at h1 h2
    have h1' : ((m : ℝ) - 1) < k := lt_of_mul_lt_mul_left h1 (by linarith)
    have h2' : (k : ℝ) < m + 1 := lt_of_mul_lt_mul_left h2 (by linarith)
    have h3 : m - 1 < k := by exact_mod_cast h1'
    have h4 : k < m + 1 := by exact_mod_cast h2'
    omega
  have goal : windingStep p 1 a b = k := by
    unfold windingStep
    simp only [onSide, Bool.false_eq_true, if_false, beq_iff_eq, sgn_eq_one, sgn_eq_neg_one]
    by_cases h1 : a 1 ≤ p 1
    · rw [if_pos h1]
      have hα0 := hαs.1 h1
      by_cases h2 : b 1 ≤ p 1
      · rw [if_neg (not_lt.2 h2)]
        have hβ0 := hβs.1 h2
        exact (kval 0 (by push_cast; linarith) (by push_cast; linarith)).symm
      · rw [if_pos (not_le.1 h2)]
        have hβ0 : β < 0 := lt_of_not_ge fun hh => h2 (hβs.2 hh)
        by_cases h3 : 0 < crossAt a b p
        · rw [if_pos h3]
          have hγ0 : 0 ≤ γ := not_lt.1 fun hh => absurd (hneg.1 hh) (not_lt.2 h3.le)
          exact (kval 1 (by push_cast; linarith) (by push_cast; linarith)).symm
        · rw [if_neg h3]
          have hc : crossAt a b p ≠ 0 := fun hc => h (mem_segment_cross hc h1 (not_le.1 h2))
          have hγ0 : γ < 0 := hneg.2 (lt_of_le_of_ne (not_lt.1 h3) hc)
          exact (kval 0 (by push_cast; linarith) (by push_cast; linarith)).symm
    · rw [if_neg h1]
      have hα0 : α < 0 := lt_of_not_ge fun hh => h1 (hαs.2 hh)
      by_cases h2 : b 1 ≤ p 1
      · rw [if_pos h2]
        have hβ0 := hβs.1 h2
        by_cases h3 : crossAt a b p < 0
        · rw [if_pos h3]
          have hγ0 := hneg.2 h3
          exact (kval (-1) (by push_cast; linarith) (by push_cast; linarith)).symm
        · rw [if_neg h3]
          have hγ0 : 0 ≤ γ := not_lt.1 fun hh => h3 (hneg.1 hh)
          exact (kval 0 (by push_cast; linarith) (by push_cast; linarith)).symm
      · rw [if_neg h2]
        have hβ0 : β < 0 := lt_of_not_ge fun hh => h2 (hβs.2 hh)
        exact (kval 0 (by push_cast; linarith) (by push_cast; linarith)).symm
  rw [goal, ← hk]; ring

theorem edges_telescope (f : Vec 2 → ℝ) (c : List (Vec 2)) (a b : Vec 2) (h : c.head? = some a) (h' : c.getLast? = some b) :
    ((edges c).map fun e => f e.1 - f e.2).sum = f a - f b := by
  induction c generalizing a with
  | nil => exact absurd h (by simp)
  | cons x l ih =>
    cases l with
    | nil =>
      simp at h h'
      subst h; subst h'
      simp [edges]
    | cons y l =>
      simp at h
      subst h
      have := ih y rfl (by simpa using h')
      rw [edges, List.map_cons, List.sum_cons, this]
      ring

/-- For a closed shape and a point on none of its edges, the winding order for side 1 is the
winding number of the curve about the point: the sum of the angles under which the point sees
the edges, in full turns. -/
theorem C57_winding_number (p : Vec 2) (c : List (Vec 2)) (hc : c.head? = c.getLast?) (h : Spec.OffEdges p c) :
    (windingOrder p c 1 : ℝ) = ((edges c).map fun e => Spec.seen p e.1 e.2).sum / (2 * Real.pi) := by
  have hpi : (2 * Real.pi) ≠ 0 := by positivity
  rw [eq_div_iff hpi, windingOrder_eq]
  have key : ∀ es : List (Vec 2 × Vec 2), (∀ e ∈ es, p ∉ segment ℝ e.1 e.2) →
      (((es.map fun e => windingStep p 1 e.1 e.2).sum : ℤ) : ℝ) * (2 * Real.pi) =
      (es.map fun e => Spec.seen p e.1 e.2).sum + (es.map fun e => (-Spec.toC p e.1).arg - (-Spec.toC p e.2).arg).sum := by
    intro es hes
    induction es with
    | nil => simp
    | cons e es ih =>
      have h1 := step_angle p e.1 e.2 (hes e (by simp))
      have h2 := ih fun e' he' => hes e' (by simp [he'])
      simp only [List.map_cons, List.sum_cons, Int.cast_add]
      linarith
  rw [key _ h]
  cases hh : c.head? with
  | none =>
    rw [List.head?_eq_none_iff] at hh
    subst hh
    simp [edges]
  | some a =>
    rw [edges_telescope (fun x => (-Spec.toC p x).arg) c a a hh (by rw [← hc, hh]), sub_self, add_zero]

/-- +1 for an edge that comes up through the height of the point, -1 for one that goes down. -/
def Spec.updown (p : Vec 2) (e : Vec 2 × Vec 2) : ℤ := by
  classical exact (if p 1 < e.2 1 then 1 else 0) - (if p 1 < e.1 1 then 1 else 0)

theorem step_sides (p a b : Vec 2) (h : p ∉ segment ℝ a b) : windingStep p 1 a b + windingStep p (-1) a b = Spec.updown p (a, b) := by
  unfold windingStep Spec.updown
  simp only [onSide, Bool.false_eq_true, if_false, beq_iff_eq, sgn_eq_one, sgn_eq_neg_one, neg_neg]
  by_cases h1 : a 1 ≤ p 1
  · by_cases h2 : p 1 < b 1
    · have hc : crossAt a b p ≠ 0 := fun hc => h (mem_segment_cross hc h1 h2)
      rcases lt_or_gt_of_ne hc with h3 | h3
      · simp [h1, h2, h3, not_lt.2 h3.le, not_lt.2 h1]
      · simp [h1, h2, h3, not_lt.2 h3.le, not_lt.2 h1]
    · simp [h1, h2]
  · by_cases h2 : b 1 ≤ p 1
    · have hc : crossAt a b p ≠ 0 := fun hc => h (segment_symm ℝ a b ▸ mem_segment_cross (by rw [crossAt_swap, hc, neg_zero]) h2 (not_le.1 h1))
      rcases lt_or_gt_of_ne hc with h3 | h3
      · simp [h1, h2, not_le.1 h1, h3, not_lt.2 h3.le, not_lt.2 h2]
      · simp [h1, h2, not_le.1 h1, h3, not_lt.2 h3.le, not_lt.2 h2]
    · simp [h1, h2, not_le.1 h1, not_le.1 h2]

/-- The side argument only changes the sign, for points on no edge of a closed shape. -/
theorem C57_side (p : Vec 2) (c : List (Vec 2)) (hc : c.head? = c.getLast?) (h : Spec.OffEdges p c) : windingOrder p c (-1) = -windingOrder p c 1 := by
  classical
  have key : ∀ es : List (Vec 2 × Vec 2), (∀ e ∈ es, p ∉ segment ℝ e.1 e.2) →
      (es.map fun e => windingStep p 1 e.1 e.2).sum + (es.map fun e => windingStep p (-1) e.1 e.2).sum = (es.map (Spec.updown p)).sum := by
    intro es hes
    induction es with
    | nil => rfl
    | cons e es ih =>
      have h1 := step_sides p e.1 e.2 (hes e (by simp))
      have h2 := ih fun e' he' => hes e' (by simp [he'])
      simp only [List.map_cons, List.sum_cons]
      linarith
  have tel : ∀ (c : List (Vec 2)) (a b : Vec 2), c.head? = some a → c.getLast? = some b →
      ((edges c).map (Spec.updown p)).sum = (if p 1 < b 1 then 1 else 0) - (if p 1 < a 1 then 1 else 0) := by
    intro c
    induction c with
    | nil => intro a b h; exact absurd h (by simp)
    | cons x l ih =>
      intro a b h h'
      cases l with
      | nil =>
        simp at h h'
        subst h; subst h'
        simp [edges]
      | cons y l =>
        simp at h
        subst h
        rw [edges, List.map_cons, List.sum_cons, ih y b rfl (by simpa using h')]
        unfold Spec.updown
        split_ifs <;> rfl
  have hz : ((edges c).map (Spec.updown p)).sum = 0 := by
    cases hh : c.head? with
    | none =>
      rw [List.head?_eq_none_iff] at hh
      subst hh
      rfl
    | some a => rw [tel c a a hh (by rw [← hc, hh]), sub_self]
  have := key _ h
  rw [hz] at this
  rw [windingOrder_eq, windingOrder_eq]
  linarith

theorem closeShape_closed {β : Type} {s c : List β} (h : closeShape s = .ok c) : c.head? = c.getLast? := by
  obtain ⟨a, l, rfl, rfl⟩ := closeShape_ok h
  rw [List.getLast?_append]
  simp

/-- `area_shape` gives the same interior for both sides, and it is the set of the points about
which the closed curve winds. -/
theorem C57_area (points s c : List (Vec 2)) (hs : closeShape s = .ok c) (h : ∀ p ∈ points, Spec.OffEdges p c) :
    ∃ mask, areaShape points (some s) (some 1) = .ok mask ∧ areaShape points (some s) (some (-1)) = .ok mask ∧
      List.Forall₂ (fun p b => b = true ↔ ((edges c).map fun e => Spec.seen p e.1 e.2).sum ≠ 0) points mask := by
  refine ⟨points.map fun p => windingOrder p c 1 != 0, ?_, ?_, ?_⟩
  · simp [areaShape, hs, bind, Except.bind, pure, Except.pure]
  · have : (points.map fun p => windingOrder p c 1 != 0) = points.map fun p => windingOrder p c (-1) != 0 := by
      refine List.map_congr_left fun p hp => ?_
      rw [C57_side p c (closeShape_closed hs) (h p hp), Bool.eq_iff_iff]
      simp
    rw [this]
    simp [areaShape, hs, bind, Except.bind, pure, Except.pure]
  · rw [List.forall₂_map_right_iff, List.forall₂_same]
    intro p hp
    have e := C57_winding_number p c (closeShape_closed hs) (h p hp)
    have hpi : (2 * Real.pi) ≠ 0 := by positivity
    rw [bne_iff_ne, not_iff_not, ← Int.cast_eq_zero (α := ℝ), e, div_eq_zero_iff, or_iff_left hpi]

/-- A missing or an empty shape is rejected. -/
theorem C57_missing (points : List (Vec 2)) (side : Option ℤ) : areaShape points none side = .error .runtime ∧ areaShape points (some []) side = .error .index := ⟨rfl, rfl⟩

/-- A counterclockwise triangle winds once about an inner point that is on no edge. -/
example : windingOrder ![1, 1] [![0, 0], ![4, 0], ![0, 4], ![0, 0]] 1 = 1 := by
  have h1 : sgn (crossAt ![4, 0] ![0, 4] ![1, 1]) = 1 := sgn_eq_one.2 (by norm_num [crossAt])
  have h2 : sgn (crossAt ![0, 4] ![0, 0] ![1, 1]) = 1 := sgn_eq_one.2 (by norm_num [crossAt])
  simp [windingOrder, edges, windingStep, onSide, h1, h2]

example : Spec.OffEdges ![1, 1] [![0, 0], ![4, 0], ![0, 4], ![0, 0]] ∧ closeShape [(![0, 0] : Vec 2), ![4, 0], ![0, 4]] = .ok [![0, 0], ![4, 0], ![0, 4], ![0, 0]] := by
  refine ⟨?_, rfl⟩
  intro e he hm
  simp only [edges, List.mem_cons, List.not_mem_nil, or_false] at he
  rw [mem_segment_iff] at hm
  obtain ⟨t, h0, h1, ht⟩ := hm
  have e0 := congrFun ht 0
  have e1 := congrFun ht 1
  rcases he with rfl | rfl | rfl <;> simp at e0 e1 <;> linarith

end
end Imodal
