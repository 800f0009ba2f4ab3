import Verif.Model.MeshGen
import Mathlib.Analysis.SpecialFunctions.Trigonometric.Angle
/-!
# C59: generated outlines
-/
set_option autoImplicit false
namespace Imodal
noncomputable section

/-! ## The sides -/

theorem linspaceTail_eq (a b : ℝ) (n : Nat) : linspaceTail a b n = (List.range n).map fun k : Nat => a + ((k : ℝ) + 1) * ((b - a) / n) := by
  unfold linspaceTail
  cases n with
  | zero => rfl
  | succ n =>
    rw [linspace, List.range_succ_eq_map, List.map_cons, List.tail_cons, List.map_map]
    refine List.map_congr_left fun k _ => ?_
    simp

theorem linspaceTail_length (a b : ℝ) (n : Nat) : (linspaceTail a b n).length = n := by rw [linspaceTail_eq]; simp

theorem mem_linspaceTail {a b x : ℝ} {n : Nat} : x ∈ linspaceTail a b n ↔ ∃ k : Nat, k < n ∧ x = a + ((k : ℝ) + 1) / n * (b - a) := by
  rw [linspaceTail_eq]
  simp only [List.mem_map, List.mem_range]
  refine exists_congr fun k => and_congr_right fun _ => ?_
  rw [eq_comm]
  have : ((k : ℝ) + 1) * ((b - a) / n) = ((k : ℝ) + 1) / n * (b - a) := by ring
  rw [this]

theorem tail_param {k n : Nat} (h : k < n) : 0 < ((k : ℝ) + 1) / n ∧ ((k : ℝ) + 1) / n ≤ 1 := by
  have hn : (0 : ℝ) < n := by exact_mod_cast (by omega : 0 < n)
  refine ⟨by positivity, (div_le_one hn).2 ?_⟩
  exact_mod_cast h

theorem linspaceTail_bounds {a b x : ℝ} {n : Nat} (hab : a < b) (hx : x ∈ linspaceTail a b n) : a < x ∧ x ≤ b := by
  obtain ⟨k, hk, rfl⟩ := mem_linspaceTail.1 hx
  obtain ⟨h0, h1⟩ := tail_param hk
  constructor <;> nlinarith

theorem linspaceTail_bounds' {a b x : ℝ} {n : Nat} (hab : a < b) (hx : x ∈ linspaceTail b a n) : a ≤ x ∧ x < b := by
  obtain ⟨k, hk, rfl⟩ := mem_linspaceTail.1 hx
  obtain ⟨h0, h1⟩ := tail_param hk
  constructor <;> nlinarith

theorem linspaceTail_nodup {a b : ℝ} (hab : a ≠ b) (n : Nat) : (linspaceTail a b n).Nodup := by
  rw [linspaceTail_eq]
  refine List.Nodup.map_on ?_ List.nodup_range
  intro i hi j _ e
  rw [List.mem_range] at hi
  have hn : (n : ℝ) ≠ 0 := by exact_mod_cast (by omega : n ≠ 0)
  have hd : (b - a) / n ≠ 0 := div_ne_zero (sub_ne_zero.2 hab.symm) hn
  have := mul_right_cancel₀ hd (add_left_cancel e)
  exact_mod_cast add_right_cancel this

theorem last_mem_linspaceTail (a b : ℝ) {n : Nat} (hn : 0 < n) : b ∈ linspaceTail a b n := by
  refine mem_linspaceTail.2 ⟨n - 1, by omega, ?_⟩
  have : ((n - 1 : Nat) : ℝ) + 1 = n := by exact_mod_cast (by omega : n - 1 + 1 = n)
  rw [this, div_self (by exact_mod_cast hn.ne')]
  ring

/-! ## The outline -/

/-- The four sides, counterclockwise from the lower left corner, each without its start. -/
def outline (x0 x1 y0 y1 : ℝ) (nx ny : Nat) : List (ℝ × ℝ) :=
  (linspaceTail x0 x1 nx).map (fun x => (x, y0)) ++ ((linspaceTail y0 y1 ny).map (fun y => (x1, y)) ++
    ((linspaceTail x1 x0 nx).map (fun x => (x, y1)) ++ (linspaceTail y1 y0 ny).map fun y => (x0, y)))

/-- The boundary of the rectangle `[x0, x1] × [y0, y1]`. -/
def Spec.OnRectangle (x0 x1 y0 y1 : ℝ) (p : ℝ × ℝ) : Prop :=
  (x0 ≤ p.1 ∧ p.1 ≤ x1 ∧ y0 ≤ p.2 ∧ p.2 ≤ y1) ∧ (p.1 = x0 ∨ p.1 = x1 ∨ p.2 = y0 ∨ p.2 = y1)

theorem outline_length (x0 x1 y0 y1 : ℝ) (nx ny : Nat) : (outline x0 x1 y0 y1 nx ny).length = 2 * (nx + ny) := by
  simp [outline, linspaceTail_length]; omega

theorem outline_on {x0 x1 y0 y1 : ℝ} (hx : x0 < x1) (hy : y0 < y1) (nx ny : Nat) : ∀ p ∈ outline x0 x1 y0 y1 nx ny, Spec.OnRectangle x0 x1 y0 y1 p := by
  intro p hp
  simp only [outline, List.mem_append, List.mem_map] at hp
  rcases hp with ⟨t, ht, rfl⟩ | ⟨t, ht, rfl⟩ | ⟨t, ht, rfl⟩ | ⟨t, ht, rfl⟩
  · have := linspaceTail_bounds hx ht
    exact ⟨⟨this.1.le, this.2, le_rfl, hy.le⟩, by simp⟩
  · have := linspaceTail_bounds hy ht
    exact ⟨⟨hx.le, le_rfl, this.1.le, this.2⟩, by simp⟩
  · have := linspaceTail_bounds' hx ht
    exact ⟨⟨this.1, this.2.le, hy.le, le_rfl⟩, by simp⟩
  · have := linspaceTail_bounds' hy ht
    exact ⟨⟨le_rfl, hx.le, this.1, this.2.le⟩, by simp⟩

theorem outline_nodup {x0 x1 y0 y1 : ℝ} (hx : x0 < x1) (hy : y0 < y1) (nx ny : Nat) : (outline x0 x1 y0 y1 nx ny).Nodup := by
  unfold outline
  have i1 : ∀ c : ℝ, Function.Injective fun x : ℝ => (x, c) := fun c a b e => (Prod.mk.inj e).1
  have i2 : ∀ c : ℝ, Function.Injective fun y : ℝ => (c, y) := fun c a b e => (Prod.mk.inj e).2
  refine List.Nodup.append ((linspaceTail_nodup hx.ne nx).map (i1 _)) ?_ ?_
  · refine List.Nodup.append ((linspaceTail_nodup hy.ne ny).map (i2 _)) ?_ ?_
    · refine List.Nodup.append ((linspaceTail_nodup hx.ne' nx).map (i1 _)) ((linspaceTail_nodup hy.ne' ny).map (i2 _)) ?_
      intro p hp hq
      simp only [List.mem_map] at hp hq
      obtain ⟨s, hs, rfl⟩ := hp
      obtain ⟨t, ht, e⟩ := hq
      have h2 := (linspaceTail_bounds' hy ht).2
      have := (Prod.mk.inj e).2
      linarith
    · intro p hp hq
      simp only [List.mem_map, List.mem_append] at hp hq
      obtain ⟨s, hs, rfl⟩ := hp
      rcases hq with ⟨t, ht, e⟩ | ⟨t, ht, e⟩
      · have h2 := (linspaceTail_bounds' hx ht).2
        have := (Prod.mk.inj e).1
        linarith
      · have := (Prod.mk.inj e).1
        linarith
  · intro p hp hq
    simp only [List.mem_map, List.mem_append] at hp hq
    obtain ⟨s, hs, rfl⟩ := hp
    rcases hq with ⟨t, ht, e⟩ | ⟨t, ht, e⟩ | ⟨t, ht, e⟩
    · have h2 := (linspaceTail_bounds hy ht).1
      have := (Prod.mk.inj e).2
      linarith
    · have := (Prod.mk.inj e).2
      linarith
    · have h2 := (linspaceTail_bounds hx hs).1
      have := (Prod.mk.inj e).1
      linarith

theorem outline_corners (x0 x1 y0 y1 : ℝ) {nx ny : Nat} (hx : 0 < nx) (hy : 0 < ny) :
    (x1, y0) ∈ outline x0 x1 y0 y1 nx ny ∧ (x1, y1) ∈ outline x0 x1 y0 y1 nx ny ∧ (x0, y1) ∈ outline x0 x1 y0 y1 nx ny ∧
    (x0, y0) ∈ outline x0 x1 y0 y1 nx ny := by
  simp only [outline, List.mem_append, List.mem_map]
  exact ⟨.inl ⟨x1, last_mem_linspaceTail _ _ hx, rfl⟩, .inr (.inl ⟨y1, last_mem_linspaceTail _ _ hy, rfl⟩),
    .inr (.inr (.inl ⟨x0, last_mem_linspaceTail _ _ hx, rfl⟩)), .inr (.inr (.inr ⟨y0, last_mem_linspaceTail _ _ hy, rfl⟩))⟩

/-! ## Slice assignments -/

/-- Replacing the part of a column that follows `pre`. -/
theorem setSlice_split (pre old post vals : List ℝ) (i j : Nat) (hi : i = pre.length) (hj : j = pre.length + old.length) (hv : vals.length = old.length) :
    setSlice (pre ++ (old ++ post)) i j vals = .ok (pre ++ (vals ++ post)) := by
  subst hi
  subst hj
  unfold setSlice
  rw [if_pos (by simp only [List.length_append]; omega)]
  congr 1
  rw [max_eq_right (Nat.le_add_right _ _), List.take_left', List.drop_append, ← List.append_assoc]
  · simp
  · rfl

theorem zip_replicate_right (l : List ℝ) (c : ℝ) (n : Nat) (h : l.length = n) : l.zip (List.replicate n c) = l.map fun x => (x, c) := by
  subst h
  induction l with
  | nil => rfl
  | cons a l ih => simp [List.replicate_succ, ih]

theorem zip_replicate_left (l : List ℝ) (c : ℝ) (n : Nat) (h : l.length = n) : (List.replicate n c).zip l = l.map fun y => (c, y) := by
  subst h
  induction l with
  | nil => rfl
  | cons a l ih => simp [List.replicate_succ, ih]

theorem zip_outline (x0 x1 y0 y1 : ℝ) (nx ny : Nat) :
    (linspaceTail x0 x1 nx ++ (List.replicate ny x1 ++ (linspaceTail x1 x0 nx ++ List.replicate ny x0))).zip
      (List.replicate nx y0 ++ (linspaceTail y0 y1 ny ++ (List.replicate nx y1 ++ linspaceTail y1 y0 ny))) = outline x0 x1 y0 y1 nx ny := by
  unfold outline
  rw [List.zip_append (by simp [linspaceTail_length]), List.zip_append (by simp [linspaceTail_length]), List.zip_append (by simp [linspaceTail_length]),
    zip_replicate_right _ _ _ (linspaceTail_length _ _ _), zip_replicate_left _ _ _ (linspaceTail_length _ _ _),
    zip_replicate_right _ _ _ (linspaceTail_length _ _ _), zip_replicate_left _ _ _ (linspaceTail_length _ _ _)]

theorem replicate_split (a b : Nat) (c : ℝ) : List.replicate (a + b) c = List.replicate a c ++ List.replicate b c := by
  rw [List.replicate_append_replicate]

/-- The rectangle. -/
theorem rectangle_eq (x0 x1 y0 y1 density : ℝ) (hx : 0 ≤ (x1 - x0) * density) (hy : 0 ≤ (y1 - y0) * density) :
    generateRectangle ⟨2, [x0, y0], [x1, y1]⟩ density = .ok (outline x0 x1 y0 y1 ⌈(x1 - x0) * density⌉₊ ⌈(y1 - y0) * density⌉₊) := by
  have c1 : ¬ (⌈(x1 - x0) * density⌉ < 0 ∨ ⌈(y1 - y0) * density⌉ < 0) := by
    rintro (h | h)
    · exact absurd (Int.ceil_nonneg hx) (not_le.2 h)
    · exact absurd (Int.ceil_nonneg hy) (not_le.2 h)
  simp only [generateRectangle, AABB.side, AABB.lower, AABB.upper, bind, Except.bind, pure, Except.pure, ne_eq, not_true_eq_false, if_false,
    List.getElem?_cons_zero, List.getElem?_cons_succ, c1, Int.ceil_toNat]
  generalize ⌈(x1 - x0) * density⌉₊ = nx
  generalize ⌈(y1 - y0) * density⌉₊ = ny
  have hz : List.replicate (2 * (nx + ny)) (0 : ℝ) =
      [] ++ (List.replicate nx 0 ++ (List.replicate ny 0 ++ (List.replicate nx 0 ++ List.replicate ny 0))) := by
    rw [List.nil_append, ← replicate_split, ← replicate_split, ← replicate_split]; congr 1; omega
  rw [hz, setSlice_split [] _ _ _ 0 nx rfl (by simp) (by simp [linspaceTail_length]), setSlice_split [] _ _ _ 0 nx rfl (by simp) (by simp)]
  simp only [List.nil_append]
  rw [setSlice_split (linspaceTail x0 x1 nx) (List.replicate ny 0) _ _ nx (nx + ny) (by simp [linspaceTail_length]) (by simp [linspaceTail_length]) (by simp),
    setSlice_split (List.replicate nx y0) (List.replicate ny 0) _ _ nx (nx + ny) (by simp) (by simp) (by simp [linspaceTail_length])]
  simp only []
  rw [← List.append_assoc (linspaceTail x0 x1 nx), ← List.append_assoc (List.replicate nx y0),
    setSlice_split (linspaceTail x0 x1 nx ++ List.replicate ny x1) (List.replicate nx 0) _ _ (nx + ny) (2 * nx + ny) (by simp [linspaceTail_length])
      (by simp [linspaceTail_length]; omega) (by simp [linspaceTail_length]),
    setSlice_split (List.replicate nx y0 ++ linspaceTail y0 y1 ny) (List.replicate nx 0) _ _ (nx + ny) (2 * nx + ny) (by simp [linspaceTail_length])
      (by simp [linspaceTail_length]; omega) (by simp)]
  simp only []
  rw [← List.append_assoc (linspaceTail x0 x1 nx ++ List.replicate ny x1), ← List.append_assoc (List.replicate nx y0 ++ linspaceTail y0 y1 ny)]
  have t1 := setSlice_split ((linspaceTail x0 x1 nx ++ List.replicate ny x1) ++ linspaceTail x1 x0 nx) (List.replicate ny 0) [] (List.replicate ny x0)
    (2 * nx + ny) (((linspaceTail x0 x1 nx ++ List.replicate ny x1) ++ linspaceTail x1 x0 nx ++ List.replicate ny 0).length)
    (by simp [linspaceTail_length]; omega) (by simp; omega) (by simp)
  have t2 := setSlice_split ((List.replicate nx y0 ++ linspaceTail y0 y1 ny) ++ List.replicate nx y1) (List.replicate ny 0) [] (linspaceTail y1 y0 ny)
    (2 * nx + ny) (((List.replicate nx y0 ++ linspaceTail y0 y1 ny) ++ List.replicate nx y1 ++ List.replicate ny 0).length)
    (by simp [linspaceTail_length]; omega) (by simp; omega) (by simp [linspaceTail_length])
  simp only [List.append_nil] at t1 t2
  rw [t1, t2]
  simp only [List.append_assoc]
  rw [zip_outline]

/-- `generate_rectangle` for a proper box of the plane and a positive density: as many points as
the numbers per side (rounded up) ask for, on the boundary, pairwise distinct, with the corners. -/
theorem C59_rectangle (x0 x1 y0 y1 density : ℝ) (hx : x0 < x1) (hy : y0 < y1) (hd : 0 < density) :
    ∃ pts, generateRectangle ⟨2, [x0, y0], [x1, y1]⟩ density = .ok pts ∧
      pts.length = 2 * (⌈(x1 - x0) * density⌉₊ + ⌈(y1 - y0) * density⌉₊) ∧ (∀ p ∈ pts, Spec.OnRectangle x0 x1 y0 y1 p) ∧ pts.Nodup ∧
      (x0, y0) ∈ pts ∧ (x1, y0) ∈ pts ∧ (x1, y1) ∈ pts ∧ (x0, y1) ∈ pts := by
  have h1 : 0 < (x1 - x0) * density := mul_pos (by linarith) hd
  have h2 : 0 < (y1 - y0) * density := mul_pos (by linarith) hd
  obtain ⟨k1, k2, k3, k4⟩ := outline_corners x0 x1 y0 y1 (Nat.ceil_pos.2 h1) (Nat.ceil_pos.2 h2)
  exact ⟨_, rectangle_eq x0 x1 y0 y1 density h1.le h2.le, outline_length .., outline_on hx hy _ _, outline_nodup hx hy _ _, k4, k1, k2, k3⟩

/-- Boxes of other dimensions are rejected. -/
theorem C59_rectangle_dim (b : AABB ℝ) (density : ℝ) (h : b.dim ≠ 2) : generateRectangle b density = .error .notImplemented := by
  unfold generateRectangle; rw [if_pos h]

theorem square_eq (n : Nat) : generateUnitSquare n = .ok ((outline 0 1 0 1 n n).map fun q => (q.1 - 0.5, q.2 - 0.5)) := by
  have hz : List.replicate (4 * n) (0 : ℝ) =
      [] ++ (List.replicate n 0 ++ (List.replicate n 0 ++ (List.replicate n 0 ++ List.replicate n 0))) := by
    rw [List.nil_append, ← replicate_split, ← replicate_split, ← replicate_split]; congr 1; omega
  simp only [generateUnitSquare, bind, Except.bind, pure, Except.pure]
  have hx1 : setSlice (List.replicate (4 * n) 0) 0 n (linspaceTail 0 1 n) =
      .ok (linspaceTail 0 1 n ++ (List.replicate n 0 ++ (List.replicate n 0 ++ List.replicate n 0))) := by
    rw [hz, setSlice_split [] _ _ _ 0 n rfl (by simp) (by simp [linspaceTail_length])]; rfl
  have hy1 : setSlice (List.replicate (4 * n) 0) n (2 * n) (linspaceTail 0 1 n) =
      .ok (List.replicate n 0 ++ (linspaceTail 0 1 n ++ (List.replicate n 0 ++ List.replicate n 0))) := by
    rw [hz, List.nil_append, setSlice_split (List.replicate n 0) (List.replicate n 0) _ _ n (2 * n) (by simp) (by simp; omega)
      (by simp [linspaceTail_length])]
  -- the last point of the lower side has abscissa one already
  have hlast : ∃ init, linspaceTail 0 1 n = init ++ List.replicate (min 1 n) 1 ∧ init.length = n - 1 := by
    cases n with
    | zero => exact ⟨[], rfl, rfl⟩
    | succ m =>
      refine ⟨(List.range m).map fun k : Nat => 0 + ((k : ℝ) + 1) * ((1 - 0) / ((m + 1 : Nat) : ℝ)), ?_, by simp⟩
      rw [linspaceTail_eq, List.range_succ, List.map_append]
      congr 1
      have hm : ((m : ℝ) + 1) ≠ 0 := by positivity
      simp [hm]
  obtain ⟨init, hi1, hi2⟩ := hlast
  have hx2 : setSliceConst (linspaceTail 0 1 n ++ (List.replicate n 0 ++ (List.replicate n 0 ++ List.replicate n 0))) (n - 1) (2 * n) 1 =
      .ok (linspaceTail 0 1 n ++ (List.replicate n 1 ++ (List.replicate n 0 ++ List.replicate n 0))) := by
    unfold setSliceConst
    have hl : (linspaceTail 0 1 n ++ (List.replicate n 0 ++ (List.replicate n 0 ++ List.replicate n (0 : ℝ)))).length = 4 * n := by
      simp [linspaceTail_length]; omega
    rw [hl]
    have hc : min (2 * n) (4 * n) - min (n - 1) (4 * n) = min 1 n + n := by omega
    rw [hc, replicate_split, hi1]
    have e : init ++ List.replicate (min 1 n) 1 ++ (List.replicate n 0 ++ (List.replicate n 0 ++ List.replicate n (0 : ℝ))) =
        init ++ ((List.replicate (min 1 n) 1 ++ List.replicate n 0) ++ (List.replicate n 0 ++ List.replicate n (0 : ℝ))) := by simp
    rw [e, setSlice_split init _ _ _ (n - 1) (2 * n) hi2.symm (by simp [hi2]; omega) (by simp)]
    simp only [List.append_assoc]
  have hx3 : setSlice (linspaceTail 0 1 n ++ (List.replicate n 1 ++ (List.replicate n 0 ++ List.replicate n 0))) (2 * n) (3 * n) (linspaceTail 1 0 n) =
      .ok (linspaceTail 0 1 n ++ (List.replicate n 1 ++ (linspaceTail 1 0 n ++ List.replicate n 0))) := by
    rw [← List.append_assoc (linspaceTail 0 1 n), setSlice_split (linspaceTail 0 1 n ++ List.replicate n 1) (List.replicate n 0) _ _ (2 * n) (3 * n)
      (by simp [linspaceTail_length]; omega) (by simp [linspaceTail_length]; omega) (by simp [linspaceTail_length]), List.append_assoc]
  have hy2 : setSliceConst (List.replicate n 0 ++ (linspaceTail 0 1 n ++ (List.replicate n 0 ++ List.replicate n 0))) (2 * n) (3 * n) 1 =
      .ok (List.replicate n 0 ++ (linspaceTail 0 1 n ++ (List.replicate n 1 ++ List.replicate n 0))) := by
    unfold setSliceConst
    have hl : (List.replicate n 0 ++ (linspaceTail 0 1 n ++ (List.replicate n 0 ++ List.replicate n (0 : ℝ)))).length = 4 * n := by
      simp [linspaceTail_length]; omega
    have hc : min (3 * n) (4 * n) - min (2 * n) (4 * n) = n := by omega
    rw [hl, hc, ← List.append_assoc (List.replicate n 0), setSlice_split (List.replicate n 0 ++ linspaceTail 0 1 n) (List.replicate n 0) _ _ (2 * n) (3 * n)
      (by simp [linspaceTail_length]; omega) (by simp [linspaceTail_length]; omega) (by simp), List.append_assoc]
  have hy3 : setSlice (List.replicate n 0 ++ (linspaceTail 0 1 n ++ (List.replicate n 1 ++ List.replicate n 0))) (3 * n) (4 * n) (linspaceTail 1 0 n) =
      .ok (List.replicate n 0 ++ (linspaceTail 0 1 n ++ (List.replicate n 1 ++ linspaceTail 1 0 n))) := by
    have := setSlice_split (List.replicate n 0 ++ linspaceTail 0 1 n ++ List.replicate n 1) (List.replicate n 0) [] (linspaceTail 1 0 n) (3 * n) (4 * n)
      (by simp [linspaceTail_length]; omega) (by simp [linspaceTail_length]; omega) (by simp [linspaceTail_length])
    simpa using this
  rw [hx1, hy1]
  simp only []
  rw [hx2]
  simp only []
  rw [hx3, hy2]
  simp only []
  rw [hy3]
  simp only []
  rw [zip_outline]

/-- `generate_unit_square`: `4 n` pairwise distinct points on the boundary of the square of side
one about the origin. -/
theorem C59_square (n : Nat) :
    ∃ pts, generateUnitSquare n = .ok pts ∧ pts.length = 4 * n ∧ (∀ p ∈ pts, Spec.OnRectangle (-0.5) 0.5 (-0.5) 0.5 p) ∧ pts.Nodup := by
  refine ⟨_, square_eq n, by rw [List.length_map, outline_length]; omega, ?_, ?_⟩
  · intro p hp
    obtain ⟨q, hq, rfl⟩ := List.mem_map.1 hp
    obtain ⟨⟨h1, h2, h3, h4⟩, h5⟩ := outline_on zero_lt_one zero_lt_one n n q hq
    refine ⟨⟨by norm_num; linarith, by norm_num; linarith, by norm_num; linarith, by norm_num; linarith⟩, ?_⟩
    rcases h5 with h | h | h | h
    · left; rw [h]; norm_num
    · right; left; rw [h]; norm_num
    · right; right; left; rw [h]; norm_num
    · right; right; right; rw [h]; norm_num
  · refine (outline_nodup zero_lt_one zero_lt_one n n).map ?_
    intro a b e
    have e1 := (Prod.mk.inj e).1
    have e2 := (Prod.mk.inj e).2
    exact Prod.ext (by linarith) (by linarith)

/-! ## The circle -/

theorem circle_eq (n : Nat) : generateUnitCircle n =
    (List.range n).map fun k : Nat => (Real.cos ((k : ℝ) * (2 * Real.pi / n)), Real.sin ((k : ℝ) * (2 * Real.pi / n))) := by
  have h : (linspace 0 (2 * Real.pi) (n + 1)).dropLast = (List.range n).map fun k : Nat => (k : ℝ) * (2 * Real.pi / n) := by
    cases n with
    | zero => rfl
    | succ m =>
      rw [linspace, List.range_succ, List.map_append, List.map_singleton, List.dropLast_concat]
      refine List.map_congr_left fun k _ => ?_
      simp
  unfold generateUnitCircle
  rw [h, List.map_map, List.map_map, List.zip_map']
  rfl

/-- `generate_unit_circle`: `n` pairwise distinct points at distance one from the origin. -/
theorem C59_circle (n : Nat) :
    (generateUnitCircle n).length = n ∧ (∀ p ∈ generateUnitCircle n, p.1 ^ 2 + p.2 ^ 2 = 1) ∧ (generateUnitCircle n).Nodup := by
  rw [circle_eq]
  refine ⟨by simp, ?_, ?_⟩
  · intro p hp
    obtain ⟨k, _, rfl⟩ := List.mem_map.1 hp
    exact Real.cos_sq_add_sin_sq _
  · refine List.Nodup.map_on ?_ List.nodup_range
    intro i hi j hj e
    rw [List.mem_range] at hi hj
    have hn : (0 : ℝ) < n := by exact_mod_cast (by omega : 0 < n)
    have hpi := Real.pi_pos
    have hang : ((((i : ℝ) * (2 * Real.pi / n) : ℝ)) : Real.Angle) = (((j : ℝ) * (2 * Real.pi / n) : ℝ)) :=
      Real.Angle.cos_sin_inj (Prod.mk.inj e).1 (Prod.mk.inj e).2
    rw [Real.Angle.angle_eq_iff_two_pi_dvd_sub] at hang
    obtain ⟨k, hk⟩ := hang
    have h1 : ((i : ℝ) - j) = k * n := by
      have h2 : ((i : ℝ) - j) * (2 * Real.pi) = (k * n) * (2 * Real.pi) := by
        have h3 : ((i : ℝ) * (2 * Real.pi / n) - j * (2 * Real.pi / n)) * n = ((i : ℝ) - j) * (2 * Real.pi) := by field_simp
        rw [← h3, hk]; ring
      exact mul_right_cancel₀ (by positivity) h2
    have h2 : (i : ℤ) - j = k * n := by exact_mod_cast h1
    have h3 : k = 0 := by
      by_contra hk0
      have hlt : |(i : ℤ) - j| < n := by rw [abs_lt]; constructor <;> omega
      rw [h2, abs_mul, Nat.abs_cast] at hlt
      have : 1 ≤ |k| := Int.one_le_abs hk0
      nlinarith
    rw [h3] at h2
    omega

/-! ## The disc -/

theorem mem_linspace {a b x : ℝ} {n : Nat} (hab : a ≤ b) (hx : x ∈ linspace a b n) : a ≤ x ∧ x ≤ b := by
  match n with
  | 0 => simp [linspace] at hx
  | 1 => simp [linspace] at hx; subst hx; exact ⟨le_rfl, hab⟩
  | n + 2 =>
    simp only [linspace, List.mem_map, List.mem_range] at hx
    obtain ⟨i, hi, rfl⟩ := hx
    have hn : (0 : ℝ) < (n : ℝ) + 1 := by positivity
    have h1 : (i : ℝ) ≤ n + 1 := by exact_mod_cast Nat.lt_succ_iff.1 hi
    have h2 : (i : ℝ) * ((b - a) / (n + 1)) = (i / (n + 1)) * (b - a) := by ring
    have h3 : (i : ℝ) / (n + 1) ≤ 1 := (div_le_one hn).2 h1
    have h4 : 0 ≤ (i : ℝ) / (n + 1) := by positivity
    rw [h2]
    constructor <;> nlinarith

theorem mapM_mem {α β : Type} {f : α → Py β} : ∀ {l : List α} {r : List β}, l.mapM f = .ok r → ∀ y ∈ r, ∃ x ∈ l, f x = .ok y
  | [], r, h => by simp [pure, Except.pure] at h; subst h; simp
  | a :: l, r, h => by
    rw [List.mapM_cons] at h
    cases h1 : f a with
    | error e => simp [h1, bind, Except.bind] at h
    | ok y =>
      cases h2 : l.mapM f with
      | error e => simp [h1, h2, bind, Except.bind] at h
      | ok ys =>
        simp [h1, h2, bind, Except.bind, pure, Except.pure] at h
        subst h
        intro z hz
        rcases List.mem_cons.1 hz with rfl | hz
        · exact ⟨a, by simp, h1⟩
        · obtain ⟨x, hx, e⟩ := mapM_mem h2 z hz
          exact ⟨x, by simp [hx], e⟩

/-- `generate_disc_density`: whatever it returns lies in the ring between the two radii. -/
theorem C59_disc (density outer inner : ℝ) (hi : 0 ≤ inner) (pts : List (ℝ × ℝ)) (h : generateDiscDensity density outer inner = .ok pts) :
    ∀ p ∈ pts, inner ^ 2 ≤ p.1 ^ 2 + p.2 ^ 2 ∧ p.1 ^ 2 + p.2 ^ 2 ≤ outer ^ 2 := by
  unfold generateDiscDensity at h
  by_cases h1 : inner < outer
  swap
  · simp [h1] at h
  by_cases h2 : ⌈(outer - inner) * density⌉ < 0
  · simp [h1, h2] at h
  rw [if_neg (by simpa using h1), if_neg h2] at h
  cases hm : (linspace inner outer ⌈(outer - inner) * density⌉.toNat).mapM (discCircle density) with
  | error e => simp [hm, bind, Except.bind] at h
  | ok parts =>
    by_cases hp : parts = []
    · simp [hm, hp, bind, Except.bind] at h
    simp [hm, hp, bind, Except.bind, pure, Except.pure] at h
    subst h
    intro p hpt
    obtain ⟨part, hpart, hmem⟩ := List.mem_flatten.1 hpt
    obtain ⟨r, hr, hc⟩ := mapM_mem hm part hpart
    obtain ⟨hr0, hr1⟩ := mem_linspace h1.le hr
    unfold discCircle at hc
    split_ifs at hc
    cases hc
    rw [List.zip_map', List.mem_map] at hmem
    obtain ⟨t, _, rfl⟩ := hmem
    have : (r * Real.cos t) ^ 2 + (r * Real.sin t) ^ 2 = r ^ 2 := by
      rw [mul_pow, mul_pow, ← mul_add, Real.cos_sq_add_sin_sq, mul_one]
    simp only [this]
    constructor <;> nlinarith

/-- A proper rectangle and density. -/
example : ∃ pts, generateRectangle ⟨2, [0, 0], [2, 1]⟩ 1 = .ok pts ∧ pts.length = 6 := by
  obtain ⟨pts, h1, h2, _⟩ := C59_rectangle 0 2 0 1 1 (by norm_num) (by norm_num) (by norm_num)
  refine ⟨pts, h1, ?_⟩
  rw [h2]
  norm_num

end
end Imodal
