import Verif.Props.C57
import Verif.Props.C49
/-!
# C58: closing shapes and filling areas
-/
set_option autoImplicit false
namespace Imodal
noncomputable section
variable {d : Nat}

/-! ## Closing -/

/-- `close_shape` keeps the vertices in order and adds the first one at the end; the result has
equal ends and is recognised as closed. -/
theorem C58_close (s : List (Vec d)) (hs : s ≠ []) :
    ∃ c, closeShape s = .ok c ∧ c.length = s.length + 1 ∧ s <+: c ∧ c.head? = s.head? ∧ c.getLast? = s.head? ∧ isShapeClosed c = .ok true := by
  cases s with
  | nil => exact absurd rfl hs
  | cons a l =>
    refine ⟨_, rfl, by simp, List.prefix_append _ _, rfl, ?_, ?_⟩
    · rw [List.getLast?_append]; simp
    · have h1 : (a :: l ++ [a]).head? = some a := rfl
      have h2 : (a :: l ++ [a]).getLast? = some a := by rw [List.getLast?_append]; simp
      unfold isShapeClosed
      rw [h1, h2]
      simp

/-- Closing twice adds the first vertex again. -/
theorem C58_close_again {β : Type} (a : β) (l : List β) : (closeShape (a :: l) >>= closeShape) = .ok (a :: l ++ [a] ++ [a]) := rfl

/-- `is_shape_closed` answers whether the first and the last vertex are equal. -/
theorem C58_closed_iff (s : List (Vec d)) (hs : s ≠ []) : ∃ b, isShapeClosed s = .ok b ∧ (b = true ↔ s.head? = s.getLast?) := by
  unfold isShapeClosed
  cases h : s.head? with
  | none => exact absurd (List.head?_eq_none_iff.1 h) hs
  | some a =>
    cases h' : s.getLast? with
    | none => exact absurd (List.getLast?_eq_none_iff.1 h') hs
    | some b =>
      refine ⟨_, rfl, ?_⟩
      rw [decide_eq_true_iff, Option.some_inj]
      exact ⟨funext, fun e c => congrFun e c⟩

/-- Shapes without vertices are rejected by both. -/
theorem C58_empty : closeShape ([] : List (Vec d)) = .error .index ∧ isShapeClosed ([] : List (Vec d)) = .error .index := ⟨rfl, rfl⟩

/-! ## Filling -/

/-- The area answers the predicate `P` for every row of whatever list of points it is given. -/
def Spec.Decides (area : AreaFn) (P : List ℝ → Prop) : Prop := ∀ rows, ∃ mask, area rows = .ok mask ∧ Answers rows mask P

open Classical in
theorem selectRows_answers {β : Type} (rows : List β) (mask : List Bool) (P : β → Prop) (h : Answers rows mask P) :
    selectRows rows mask = .ok (rows.filter fun r => decide (P r)) := by
  unfold selectRows
  rw [if_pos (List.Forall₂.length_eq h).symm]
  congr 1
  unfold Answers at h
  induction h with
  | nil => rfl
  | @cons r b rs bs hb _ ih =>
    cases b with
    | true => simp [hb.1 rfl, ih]
    | false =>
      have : ¬ P r := fun hp => absurd (hb.2 hp) (by simp)
      simp [this, ih]

/-- Uniform filling: exactly the points of the box's grid that belong to the area, in the order
of the grid; all of them lie in the box. -/
theorem C58_fill_uniform (area : AreaFn) (P : List ℝ → Prop) (hA : Spec.Decides area P) (b : AABB ℝ) (hb : b.WF) (hd : 0 < b.dim) (spacing : ℝ)
    (hs : 0 < spacing) :
    ∃ grid rows, b.fillUniformSpacing spacing = .ok grid ∧ fillAreaUniform area b spacing = .ok rows ∧ rows.Sublist grid ∧
      (∀ row, row ∈ rows ↔ row ∈ grid ∧ P row) ∧ ∀ row ∈ rows, b.ContainsL row := by
  classical
  obtain ⟨grid, hg, hin⟩ := C49_fill_spacing b hb hd spacing hs
  obtain ⟨mask, hm, hans⟩ := hA grid
  refine ⟨grid, grid.filter fun r => decide (P r), hg, ?_, List.filter_sublist, ?_, ?_⟩
  · simp only [fillAreaUniform, hg, hm, bind, Except.bind]
    exact selectRows_answers grid mask P hans
  · intro row; simp
  · intro row hrow
    exact (hin row (List.mem_of_mem_filter hrow)).1

/-- A density stands for the spacing `1/√density`; densities that are not positive raise. -/
theorem C58_density (area : AreaFn) (b : AABB ℝ) (density : ℝ) :
    (0 < density → fillAreaUniformDensity area b density = fillAreaUniform area b (1 / Real.sqrt density) ∧ density * (1 / Real.sqrt density) ^ 2 = 1) ∧
    (density ≤ 0 → ∃ e, fillAreaUniformDensity area b density = .error e) := by
  constructor
  · intro h
    refine ⟨by simp [fillAreaUniformDensity, not_lt.2 h.le, h.ne'], ?_⟩
    rw [div_pow, Real.sq_sqrt h.le]
    field_simp
  · intro h
    unfold fillAreaUniformDensity
    rcases h.lt_or_eq with h | h
    · exact ⟨_, if_pos h⟩
    · rw [if_neg (by linarith), if_pos h]; exact ⟨_, rfl⟩

/-- The candidate points made of the variates. -/
theorem fillRandom_cons (b : AABB ℝ) (u : List ℝ) (us : List (List ℝ)) : b.fillRandom (u :: us) = b.fillRandom [u] ++ b.fillRandom us := rfl

theorem storeRow_two {r : List ℝ} (h : r.length = 2) : storeRow r = .ok r := by
  match r, h with
  | [_, _], _ => rfl

open Classical in
theorem drawPoint_spec (area : AreaFn) (P : List ℝ → Prop) (hA : Spec.Decides area P) (b : AABB ℝ) :
    ∀ us : List (List ℝ), (∀ row ∈ b.fillRandom us, row.length = 2) →
      (drawPoint area b us = .ok none ∧ (b.fillRandom us).filter (fun r => decide (P r)) = []) ∨
      ∃ r us', drawPoint area b us = .ok (some (r, us')) ∧ us' <:+ us ∧
        (b.fillRandom us).filter (fun r => decide (P r)) = r :: (b.fillRandom us').filter fun r => decide (P r)
  | [], _ => .inl ⟨rfl, rfl⟩
  | u :: us, hl => by
    obtain ⟨r, hr⟩ : ∃ r, b.fillRandom [u] = [r] := ⟨_, rfl⟩
    have hcons : b.fillRandom (u :: us) = r :: b.fillRandom us := by rw [fillRandom_cons, hr]; rfl
    rw [hcons] at hl ⊢
    obtain ⟨mask, hm, hans⟩ := hA [r]
    obtain ⟨f, rfl, hf⟩ : ∃ f, mask = [f] ∧ (f = true ↔ P r) := by
      unfold Answers at hans
      cases hans with
      | cons h1 h2 => cases h2; exact ⟨_, rfl, h1⟩
    cases f with
    | true =>
      refine .inr ⟨r, us, ?_, List.suffix_cons u us, by simp [hf.1 rfl]⟩
      simp [drawPoint, hr, hm, bind, Except.bind, storeRow_two (hl r (by simp)), pure, Except.pure]
    | false =>
      have hP : ¬ P r := fun hp => absurd (hf.2 hp) (by simp)
      have hstep : drawPoint area b (u :: us) = drawPoint area b us := by
        simp [drawPoint, hr, hm, bind, Except.bind]
      rw [hstep]
      rcases drawPoint_spec area P hA b us fun row hrow => hl row (by simp [hrow]) with ⟨h1, h2⟩ | ⟨r', us', h1, h2, h3⟩
      · exact .inl ⟨h1, by simp [hP, h2]⟩
      · exact .inr ⟨r', us', h1, h2.trans (List.suffix_cons u us), by simp [hP, h3]⟩

open Classical in
theorem fillAreaRandom_spec (area : AreaFn) (P : List ℝ → Prop) (hA : Spec.Decides area P) (b : AABB ℝ) :
    ∀ (n : Nat) (us : List (List ℝ)), (∀ row ∈ b.fillRandom us, row.length = 2) →
      fillAreaRandom area b n us = .ok (if n ≤ ((b.fillRandom us).filter fun r => decide (P r)).length
        then some (((b.fillRandom us).filter fun r => decide (P r)).take n) else none)
  | 0, us, _ => by simp [fillAreaRandom]
  | n + 1, us, hl => by
    rcases drawPoint_spec area P hA b us hl with ⟨h1, h2⟩ | ⟨r, us', h1, h2, h3⟩
    · simp [fillAreaRandom, h1, h2, bind, Except.bind]
    · have hl' : ∀ row ∈ b.fillRandom us', row.length = 2 := by
        intro row hrow
        refine hl row ?_
        simp only [AABB.fillRandom, List.mem_map] at hrow ⊢
        obtain ⟨u, hu, e⟩ := hrow
        exact ⟨u, h2.subset hu, e⟩
      have ih := fillAreaRandom_spec area P hA b n us' hl'
      rw [h3]
      simp only [fillAreaRandom, h1, bind, Except.bind, ih, List.length_cons, Nat.add_le_add_iff_right]
      split_ifs <;> rfl

/-- Random filling in the plane, for every stream of uniform variates: the result, if the loop
ends, consists of exactly `N` points, all of the area and of the box, namely the first `N`
candidates that belong to the area; and the loop ends as soon as the stream has `N` of those. -/
theorem C58_fill_random (area : AreaFn) (P : List ℝ → Prop) (hA : Spec.Decides area P) (b : AABB ℝ) (hb : b.WF) (hd : b.dim = 2) (N : Nat)
    (us : List (List ℝ)) (hu : ∀ u ∈ us, u.length = 2 ∧ ∀ x ∈ u, 0 ≤ x ∧ x < 1) :
    ∃ acc : List (List ℝ), acc.Sublist (b.fillRandom us) ∧ (∀ row, row ∈ acc ↔ row ∈ b.fillRandom us ∧ P row) ∧
      (acc.length < N → fillAreaRandom area b N us = .ok none) ∧
      (N ≤ acc.length → ∃ rows, fillAreaRandom area b N us = .ok (some rows) ∧ rows = acc.take N ∧ rows.length = N ∧
        ∀ row ∈ rows, P row ∧ b.ContainsL row) := by
  classical
  obtain ⟨_, hin⟩ := C49_fill_random b hb us fun u h => ⟨(hu u h).1.trans hd.symm, (hu u h).2⟩
  have hl : ∀ row ∈ b.fillRandom us, row.length = 2 := fun row h => ((hin row h).1).trans hd
  have hspec := fillAreaRandom_spec area P hA b N us hl
  refine ⟨(b.fillRandom us).filter fun r => decide (P r), List.filter_sublist, fun row => by simp, ?_, ?_⟩
  · intro h
    rw [hspec, if_neg (by omega)]
  · intro h
    refine ⟨_, by rw [hspec, if_pos h], rfl, by simpa using h, ?_⟩
    intro row hrow
    have hm := List.mem_of_mem_take hrow
    exact ⟨by simpa using List.of_mem_filter hm, hin row (List.mem_of_mem_filter hm)⟩

/-- With a density, `N` is the integer part of area times density. -/
theorem C58_random_density (area : AreaFn) (x0 x1 y0 y1 density : ℝ) (hx : x0 ≤ x1) (hy : y0 ≤ y1) (hdens : 0 ≤ density) (us : List (List ℝ)) :
    fillAreaRandomDensity area ⟨2, [x0, y0], [x1, y1]⟩ density us =
      fillAreaRandom area ⟨2, [x0, y0], [x1, y1]⟩ ⌊(x1 - x0) * (y1 - y0) * density⌋₊ us := by
  have h1 : 0 ≤ (x1 - x0) * (y1 - y0) * density := mul_nonneg (mul_nonneg (by linarith) (by linarith)) hdens
  have ha : (⟨2, [x0, y0], [x1, y1]⟩ : AABB ℝ).area = .ok ((x1 - x0) * (y1 - y0)) := by
    simp [AABB.area, AABB.side, bind, Except.bind, pure, Except.pure, abs_of_nonneg (sub_nonneg.2 hx), abs_of_nonneg (sub_nonneg.2 hy)]
  have hi : pyInt ((x1 - x0) * (y1 - y0) * density) = ⌊(x1 - x0) * (y1 - y0) * density⌋ := by unfold pyInt; rw [if_pos h1]
  simp only [fillAreaRandomDensity, ha, bind, Except.bind, hi]
  rw [if_neg (not_lt.2 (Int.floor_nonneg.2 h1)), Int.floor_toNat]

/-- The disc area of the package as a predicate on rows of two columns, and rejecting others. -/
example : ∃ (area : AreaFn) (P : List ℝ → Prop), Spec.Decides area P ∧ P [0, 0] ∧ ¬ P [2, 0] := by
  classical
  refine ⟨fun rows => areaDisc (rows.map fun r => (![r.getD 0 0, r.getD 1 0] : Vec 2)) (some ![0, 0]) (some 1),
    fun r => Spec.euclid (![r.getD 0 0, r.getD 1 0] : Vec 2) ![0, 0] ≤ 1, ?_, ?_, ?_⟩
  · intro rows
    obtain ⟨mask, h1, h2⟩ := C56_disc (rows.map fun r => (![r.getD 0 0, r.getD 1 0] : Vec 2)) ![0, 0] 1
    refine ⟨mask, h1, ?_⟩
    unfold Answers at h2 ⊢
    rwa [List.forall₂_map_left_iff] at h2
  · simp only [← tdist_eq]; simp [tdist, sqDistance]
  · simp only [← tdist_eq]
    simp [tdist, sqDistance, Fin.sum_univ_two]

end
end Imodal
