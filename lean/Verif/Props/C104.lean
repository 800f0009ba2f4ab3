import Verif.Spec.Hull
import Verif.Props.C56
import Mathlib.Analysis.Convex.Hull
import Mathlib.Analysis.Convex.Combination
import Mathlib.Topology.Algebra.Order.LiminfLimsup
/-!
# C104: marking the points in a convex hull
-/
set_option autoImplicit false
namespace Imodal
noncomputable section
open Set

theorem takeRows_ok {β : Type} (points : List β) (z : β) : ∀ idx : List Nat, (∀ i ∈ idx, i < points.length) →
    takeRows points idx = .ok (idx.map fun i => points.getD i z)
  | [], _ => rfl
  | i :: idx, h => by
    have ih := takeRows_ok points z idx fun j hj => h j (List.mem_cons_of_mem _ hj)
    have hi := h i List.mem_cons_self
    unfold takeRows at ih ⊢
    rw [List.foldr_cons, ih, List.getElem?_eq_getElem hi]
    simp [List.getElem?_eq_getElem hi]

theorem cross_rot (a b c p : Vec 2) : crossAt a b p + crossAt b c p + crossAt c a p = crossAt a b c := by
  simp only [crossAt]; ring

theorem crossAt_swap2 (a b p : Vec 2) : crossAt b a p = -crossAt a b p := by
  simp only [crossAt]; ring

/-- A point on the left of the three sides of a triangle is a convex combination of its corners. -/
theorem mem_triangle {a b c p : Vec 2} {S : Set (Vec 2)} (hS : Convex ℝ S) (ha : a ∈ S) (hb : b ∈ S) (hc : c ∈ S) (h0 : 0 < crossAt a b c)
    (h1 : 0 ≤ crossAt a b p) (h2 : 0 ≤ crossAt b c p) (h3 : 0 ≤ crossAt c a p) : p ∈ S := by
  have hs := cross_rot a b c p
  have hp : p = (crossAt b c p / crossAt a b c) • a + (crossAt c a p / crossAt a b c) • b + (crossAt a b p / crossAt a b c) • c := by
    have hne := h0.ne'
    funext i
    simp only [Pi.add_apply, Pi.smul_apply, smul_eq_mul]
    rw [div_mul_eq_mul_div, div_mul_eq_mul_div, div_mul_eq_mul_div, ← add_div, ← add_div, eq_div_iff hne]
    fin_cases i <;> simp only [crossAt] <;> simp <;> ring
  rw [hp]
  have hsum : crossAt b c p / crossAt a b c + crossAt c a p / crossAt a b c + crossAt a b p / crossAt a b c = 1 := by
    rw [← add_div, ← add_div, div_eq_one_iff_eq h0.ne']; linarith
  have := hS.sum_mem (t := Finset.univ) (w := ![crossAt b c p / crossAt a b c, crossAt c a p / crossAt a b c, crossAt a b p / crossAt a b c])
    (z := ![a, b, c]) (fun i _ => by fin_cases i <;> simp <;> positivity) (by simpa [Fin.sum_univ_three] using hsum)
    (fun i _ => by fin_cases i <;> simp [ha, hb, hc])
  simpa [Fin.sum_univ_three] using this

/-- Going around the fan of triangles at `v`, the point is between two neighbours. -/
theorem hullFan {v p : Vec 2} : ∀ (a : Vec 2) (l : List (Vec 2)), l ≠ [] → 0 ≤ crossAt v a p → (∀ z, (a :: l).getLast? = some z → crossAt v z p ≤ 0) →
    ∃ e ∈ edges (a :: l), 0 ≤ crossAt v e.1 p ∧ crossAt v e.2 p ≤ 0
  | a, [], h, _, _ => absurd rfl h
  | a, b :: l, _, ha, hz => by
    by_cases hb : crossAt v b p ≤ 0
    · exact ⟨(a, b), by simp [edges], ha, hb⟩
    · cases l with
      | nil => exact absurd (hz b (by simp)) hb
      | cons c l =>
        obtain ⟨e, he, h1, h2⟩ := hullFan b (c :: l) (by simp) (not_le.1 hb).le (fun z h => hz z (by simpa using h))
        exact ⟨e, by rw [edges]; exact List.mem_cons_of_mem _ he, h1, h2⟩

theorem hullEdges_mem {β : Type} : ∀ (l : List β) {e : β × β}, e ∈ edges l → e.1 ∈ l ∧ e.2 ∈ l
  | [], e, h => by simp [edges] at h
  | [a], e, h => by simp [edges] at h
  | a :: b :: l, e, h => by
    rw [edges, List.mem_cons] at h
    rcases h with rfl | h
    · simp
    · have := hullEdges_mem (b :: l) h
      exact ⟨List.mem_cons_of_mem _ this.1, List.mem_cons_of_mem _ this.2⟩

theorem hullEdges_append {β : Type} : ∀ (l m : List β) {e : β × β}, e ∈ edges l → e ∈ edges (l ++ m)
  | [], m, e, h => by simp [edges] at h
  | [a], m, e, h => by simp [edges] at h
  | a :: b :: l, m, e, h => by
    rw [edges, List.mem_cons] at h
    rw [List.cons_append, List.cons_append, edges, List.mem_cons]
    exact h.imp id fun h => hullEdges_append (b :: l) m h

theorem hullEdges_last {β : Type} : ∀ (l : List β) {z v : β}, l.getLast? = some z → (z, v) ∈ edges (l ++ [v])
  | [], z, v, h => by simp at h
  | [a], z, v, h => by simp at h; subst h; simp [edges]
  | a :: b :: l, z, v, h => by
    rw [List.cons_append, List.cons_append, edges]
    exact List.mem_cons_of_mem _ (hullEdges_last (b :: l) (by simpa using h))

section
variable {scatter poly : List (Vec 2)}

/-- A polygon as scipy returns it is the hull: the points on the left of its edges. -/
theorem hull_eq (h : CcwHull scatter poly) :
    {p | ∀ e ∈ edges (poly ++ poly.take 1), 0 ≤ crossAt e.1 e.2 p} = convexHull ℝ {s | s ∈ scatter} := by
  apply Subset.antisymm
  · intro p hp
    match hpoly : poly, h.three with
    | v :: a :: b :: l, _ =>
      subst hpoly
      have hC : ∀ w ∈ v :: a :: b :: l, w ∈ convexHull ℝ {s | s ∈ scatter} := fun w hw => subset_convexHull ℝ _ (h.mem w hw)
      have hv : v ∉ a :: b :: l := (List.nodup_cons.1 h.nodup).1
      simp only [List.take_succ_cons, List.take_zero] at hp
      have hfan : ∀ e ∈ edges (a :: b :: l), e ∈ edges (v :: a :: b :: l ++ (v :: a :: b :: l).take 1) := fun e he => by
        refine hullEdges_append _ _ ?_
        rw [edges]
        exact List.mem_cons_of_mem _ he
      obtain ⟨e, he, h1, h2⟩ := hullFan (v := v) (p := p) a (b :: l) (by simp) (hp (v, a) (by simp [edges])) (fun z hz => by
        have := hp (z, v) (hullEdges_last (v :: a :: b :: l) (by simpa using hz))
        rw [crossAt_swap2]
        simpa using this)
      obtain ⟨m1, m2⟩ := hullEdges_mem _ he
      have hc : 0 < crossAt e.1 e.2 v := h.corner e (hfan e he) v (by simp) (fun q => hv (q ▸ m1)) (fun q => hv (q ▸ m2))
      refine mem_triangle (convex_convexHull ℝ _) (hC e.1 (List.mem_cons_of_mem _ m1)) (hC e.2 (List.mem_cons_of_mem _ m2)) (hC v (by simp)) hc
        (hp e (by simpa using hfan e he)) ?_ h1
      rw [crossAt_swap2]; linarith
  · refine convexHull_min (fun s hs e he => h.left e he s hs) ?_
    have := (C56_convex_convex (edges (poly ++ poly.take 1)) (-1)).1
    simpa using this

/-- An edge has different ends. -/
theorem hull_edge (h : CcwHull scatter poly) {e : Vec 2 × Vec 2} (he : e ∈ edges (poly ++ poly.take 1)) : e.1 ≠ e.2 := by
  classical
  intro heq
  have hcard : ({e.1, e.2} : Finset (Vec 2)).card < poly.toFinset.card := by
    rw [List.toFinset_card_of_nodup h.nodup]
    exact lt_of_le_of_lt Finset.card_le_two h.three
  obtain ⟨s, hs, hn⟩ := Finset.exists_mem_notMem_of_card_lt_card hcard
  simp only [Finset.mem_insert, Finset.mem_singleton, not_or] at hn
  have := h.corner e he s (List.mem_toFinset.1 hs) hn.1 hn.2
  rw [heq] at this
  simp at this

theorem crossAt_cont (a b : Vec 2) : Continuous fun p : Vec 2 => crossAt a b p := by
  unfold crossAt
  fun_prop

theorem hull_interior (h : CcwHull scatter poly) :
    {p | ∀ e ∈ edges (poly ++ poly.take 1), 0 < crossAt e.1 e.2 p} = interior (convexHull ℝ {s | s ∈ scatter}) := by
  apply Subset.antisymm
  · refine interior_maximal (fun p hp => ?_) ?_
    · rw [← hull_eq h]; exact fun e he => (hp e he).le
    · have : {p : Vec 2 | ∀ e ∈ edges (poly ++ poly.take 1), 0 < crossAt e.1 e.2 p}
          = ⋂ e ∈ {e | e ∈ edges (poly ++ poly.take 1)}, {p | 0 < crossAt e.1 e.2 p} := by ext p; simp
      rw [this]
      exact (List.finite_toSet _).isOpen_biInter fun e _ => isOpen_lt continuous_const (crossAt_cont _ _)
  · intro p hp e he
    have hin := interior_subset hp
    rw [← hull_eq h] at hin
    refine lt_of_le_of_ne (hin e he) fun h0 => ?_
    set n : Vec 2 := ![e.2 1 - e.1 1, -(e.2 0 - e.1 0)] with hn
    have hcont : Continuous fun t : ℝ => p + t • n := by fun_prop
    have hnear : ∀ᶠ t : ℝ in nhds 0, p + t • n ∈ convexHull ℝ {s | s ∈ scatter} := by
      have := hcont.continuousAt (x := 0)
      refine this.eventually ?_
      simp only [zero_smul, add_zero]
      exact mem_interior_iff_mem_nhds.1 hp
    obtain ⟨t, ht, ht0⟩ := (hnear.filter_mono nhdsWithin_le_nhds |>.and (self_mem_nhdsWithin (s := Ioi (0 : ℝ)))).exists
    rw [← hull_eq h] at ht
    have h1 := ht e he
    have hexp : crossAt e.1 e.2 (p + t • n) = crossAt e.1 e.2 p - t * ((e.2 0 - e.1 0) ^ 2 + (e.2 1 - e.1 1) ^ 2) := by
      simp [crossAt, hn]; ring
    rw [hexp, ← h0] at h1
    have hne := hull_edge h he
    have hpos : 0 < (e.2 0 - e.1 0) ^ 2 + (e.2 1 - e.1 1) ^ 2 := by
      by_contra hle
      have e0 : (e.2 0 - e.1 0) ^ 2 = 0 := le_antisymm (by nlinarith [sq_nonneg (e.2 1 - e.1 1)]) (sq_nonneg _)
      have e1 : (e.2 1 - e.1 1) ^ 2 = 0 := le_antisymm (by nlinarith [sq_nonneg (e.2 0 - e.1 0)]) (sq_nonneg _)
      refine hne (funext fun i => ?_)
      have := pow_eq_zero_iff (two_ne_zero) |>.1 e0
      have := pow_eq_zero_iff (two_ne_zero) |>.1 e1
      fin_cases i <;> simp <;> linarith
    have : 0 < t := ht0
    nlinarith

/-- **C104**: with `intersect` the marked points are those of the convex hull of the scatter, whatever the scatter. -/
theorem C104_closed (hull : List (Vec 2) → Py Hull) (points scatter : List (Vec 2)) (h : HullOf hull scatter) :
    ∃ mask, areaConvexHull hull points (some scatter) (some true) = .ok mask ∧
      Answers points mask fun p => p ∈ convexHull ℝ {s | s ∈ scatter} := by
  obtain ⟨H, h1, h2, h3⟩ := h
  generalize hp : (H.vertices.map fun i => scatter.getD i 0) = poly at h3
  match poly, h3.three with
  | v :: l, _ =>
    obtain ⟨mask, e, a⟩ := (C56_convex points v l (-1) (Or.inr rfl)).2
    refine ⟨mask, ?_, ?_⟩
    · simp only [areaConvexHull, extractConvexHull, h1, takeRows_ok scatter 0 H.vertices h2, hp, if_true, Except.map, Option.getD_some]
      exact e
    · convert a using 2 with p
      rw [← hull_eq h3]
      simp

/-- **C104**: without it they are those of the interior. -/
theorem C104_open (hull : List (Vec 2) → Py Hull) (points scatter : List (Vec 2)) (h : HullOf hull scatter) (i : Option Bool) (hi : i.getD false = false) :
    ∃ mask, areaConvexHull hull points (some scatter) i = .ok mask ∧
      Answers points mask fun p => p ∈ interior (convexHull ℝ {s | s ∈ scatter}) := by
  obtain ⟨H, h1, h2, h3⟩ := h
  generalize hp : (H.vertices.map fun i => scatter.getD i 0) = poly at h3
  match poly, h3.three with
  | v :: l, _ =>
    obtain ⟨mask, e, a⟩ := (C56_convex points v l (-1) (Or.inr rfl)).1
    refine ⟨mask, ?_, ?_⟩
    · simp only [areaConvexHull, extractConvexHull, h1, takeRows_ok scatter 0 H.vertices h2, hp, if_true, Except.map, hi]
      exact e
    · convert a using 2 with p
      rw [← hull_interior h3]
      simp

end

/-- **C104**: refused calls, and the exceptions of scipy. -/
theorem C104_refused {d : Nat} (hull : List (Vec 2) → Py Hull) (hull' : List (Vec d) → Py Hull) (points scatter : List (Vec 2)) (q : List (Vec d))
    (i : Option Bool) (e : PyErr) :
    areaConvexHull hull points none i = .error .runtime ∧ extractConvexHull hull' .other q = .error .value ∧
      (hull scatter = .error e → areaConvexHull hull points (some scatter) i = .error e) :=
  ⟨rfl, rfl, fun h => by simp [areaConvexHull, extractConvexHull, h]⟩

/-- **C104**: a corner that is no index of a point raises IndexError. -/
theorem C104_index (hull : List (Vec 2) → Py Hull) (points scatter : List (Vec 2)) (i : Option Bool) (H : Hull) (h : hull scatter = .ok H)
    (hv : ∃ j ∈ H.vertices, scatter.length ≤ j) : areaConvexHull hull points (some scatter) i = .error .index := by
  have key : ∀ l : List Nat, (∃ j ∈ l, scatter.length ≤ j) → takeRows scatter l = .error .index := by
    intro l
    induction l with
    | nil => rintro ⟨j, hj, -⟩; cases hj
    | cons a l ih =>
      rintro ⟨j, hj, hle⟩
      unfold takeRows at ih ⊢
      rw [List.foldr_cons]
      rcases List.mem_cons.1 hj with rfl | hj
      · rw [List.getElem?_eq_none hle]
      · rw [ih ⟨j, hj, hle⟩]
        cases scatter[a]? <;> rfl
  simp [areaConvexHull, extractConvexHull, h, key H.vertices hv, Except.map]

/-- **C104**: in dimension four the exception is returned, not raised. -/
theorem C104_dimension_disagreement (hull : List (Vec 4) → Py Hull) (points : List (Vec 4)) (H : Hull) (h : hull points = .ok H) :
    extractConvexHull hull .torch points = .ok .valueErrorClass := by
  simp [extractConvexHull, h]

/-- **C104**: in space the faces fit the returned points when every point is a corner, listed in order. -/
theorem C104_faces_partial (hull : List (Vec 3) → Py Hull) (points : List (Vec 3)) (H : Hull) (h : hull points = .ok H)
    (hv : H.vertices = List.range points.length) : extractConvexHull hull .torch points = .ok (.mesh points H.simplices) := by
  have hr := takeRows_ok points 0 H.vertices fun i hi => by rw [hv] at hi; exact List.mem_range.1 hi
  have : (H.vertices.map fun i => points.getD i 0) = points := by
    rw [hv]
    refine List.ext_getElem (by simp) fun i h1 h2 => by simp [List.getElem?_eq_getElem h2]
  simp only [extractConvexHull, h, hr, Except.map, this]
  rfl

/-- **C104**: otherwise they need not: as soon as a corner comes after points that are no corners, a face names a point that is not returned. -/
theorem C104_faces_disagreement (hull : List (Vec 3) → Py Hull) (points : List (Vec 3)) (H : Hull) (h : hull points = .ok H)
    (hlt : ∀ i ∈ H.vertices, i < points.length) (hf : ∀ i ∈ H.vertices, ∃ f ∈ H.simplices, i ∈ f) (i : Nat) (hi : i ∈ H.vertices)
    (hlate : H.vertices.length ≤ i) :
    ∃ l faces, extractConvexHull hull .torch points = .ok (.mesh l faces) ∧ ∃ f ∈ faces, ∃ j ∈ f, l[j]? = none := by
  refine ⟨H.vertices.map fun i => points.getD i 0, H.simplices, by simp [extractConvexHull, h, takeRows_ok points 0 H.vertices hlt, Except.map], ?_⟩
  obtain ⟨f, h1, h2⟩ := hf i hi
  exact ⟨f, h1, i, h2, by simpa using hlate⟩

/-- A triangle with a point inside, listed first. -/
example : HullOf (fun _ => .ok ⟨[1, 2, 3], [[1, 2], [2, 3], [3, 1]]⟩) [![1, 1], ![0, 0], ![4, 0], ![0, 4]] := by
  refine ⟨_, rfl, by simp, by simp, ?_, by simp, ?_, ?_⟩
  · simp
  · simp [edges]; norm_num
  · simp [edges]

example : ∃ (hull : List (Vec 3) → Py Hull) (points : List (Vec 3)) (H : Hull), hull points = .ok H ∧ (∀ i ∈ H.vertices, i < points.length) ∧
    (∀ i ∈ H.vertices, ∃ f ∈ H.simplices, i ∈ f) ∧ 4 ∈ H.vertices ∧ H.vertices.length ≤ 4 :=
  ⟨fun _ => .ok ⟨[1, 2, 3, 4], [[1, 2, 3], [1, 2, 4], [1, 3, 4], [2, 3, 4]]⟩, [![1, 1, 1], ![0, 0, 0], ![9, 0, 0], ![0, 9, 0], ![0, 0, 9]], _, rfl,
    by simp, by simp, by simp, by simp⟩

end
end Imodal
