import Verif.Props.C47
import Mathlib.Tactic.Ring
import Mathlib.Tactic.FieldSimp
import Mathlib.Tactic.Linarith
/-!
# C48  Scaling and squaring boxes
-/
set_option autoImplicit false
namespace Imodal
variable {𝕜 : Type} [Field 𝕜] [LinearOrder 𝕜] [IsStrictOrderedRing 𝕜]

theorem AABB.shape_getElem? (b : AABB 𝕜) (i : Nat) (lo hi : 𝕜) (h1 : b.kmin[i]? = some lo)
    (h2 : b.kmax[i]? = some hi) : b.shape[i]? = some (hi - lo) := by
  simp [AABB.shape, List.getElem?_zipWith, h1, h2]

theorem AABB.centers_getElem? (b : AABB 𝕜) (i : Nat) (lo hi : 𝕜) (h1 : b.kmin[i]? = some lo)
    (h2 : b.kmax[i]? = some hi) : b.centers[i]? = some ((1/2) * (hi + lo)) := by
  simp [AABB.centers, List.getElem?_zipWith, h1, h2]

theorem scaleSide_length : ∀ (ss ks cs : List 𝕜), ss.length = ks.length → ks.length = cs.length →
    (scaleSide ss ks cs).length = ks.length
  | [], [], [], _, _ => rfl
  | s :: ss, k :: ks, c :: cs, h1, h2 => by
    simp [scaleSide, scaleSide_length ss ks cs (by simpa using h1) (by simpa using h2)]

theorem scaleSide_get : ∀ (ss ks cs : List 𝕜) (i : Nat),
    (scaleSide ss ks cs)[i]? = (ss[i]?).bind fun s => (ks[i]?).bind fun k => (cs[i]?).map fun c =>
      s * (k - c) + c
  | [], ks, cs, i => by simp [scaleSide]
  | s :: ss, [], cs, i => by cases h : (s :: ss)[i]? <;> simp [scaleSide]
  | s :: ss, k :: ks, [], i => by
    cases h : (s :: ss)[i]? <;> cases h' : (k :: ks)[i]? <;> simp [scaleSide]
  | s :: ss, k :: ks, c :: cs, 0 => by simp [scaleSide]
  | s :: ss, k :: ks, c :: cs, i + 1 => by simpa [scaleSide] using scaleSide_get ss ks cs i

/-- What scaling each side about the centre does. -/
theorem scaled_sides (b : AABB 𝕜) (h1 : b.kmin.length = b.dim) (h2 : b.kmax.length = b.dim)
    (fs : List 𝕜) (hf : fs.length = b.dim)
    (b' : AABB 𝕜) (hb' : b' = ⟨b.dim, scaleSide fs b.kmin b.centers, scaleSide fs b.kmax b.centers⟩) :
    b'.centers = b.centers ∧ b'.shape = List.zipWith (fun f s => f * s) fs b.shape ∧
    b'.kmin.length = b.dim ∧ b'.kmax.length = b.dim := by
  have hc : b.centers.length = b.dim := by simp [AABB.centers, h1, h2]
  have key : ∀ i : Nat, i < b.dim → ∃ lo hi f, b.kmin[i]? = some lo ∧ b.kmax[i]? = some hi ∧
      fs[i]? = some f ∧
      b'.kmin[i]? = some (f * (lo - (1/2) * (hi + lo)) + (1/2) * (hi + lo)) ∧
      b'.kmax[i]? = some (f * (hi - (1/2) * (hi + lo)) + (1/2) * (hi + lo)) := by
    intro i hi
    have e1 : b.kmin[i]? = some (b.kmin[i]'(by omega)) := by simp [h1, hi]
    have e2 : b.kmax[i]? = some (b.kmax[i]'(by omega)) := by simp [h2, hi]
    have e3 : fs[i]? = some (fs[i]'(by omega)) := by simp [hf, hi]
    refine ⟨_, _, _, e1, e2, e3, ?_, ?_⟩
    · subst hb'; simp [scaleSide_get, e1, e2, e3, b.centers_getElem? i _ _ e1 e2]
    · subst hb'; simp [scaleSide_get, e1, e2, e3, b.centers_getElem? i _ _ e1 e2]
  have l1 : b'.kmin.length = b.dim := by
    subst hb'; simp [scaleSide_length, h1, hf, hc]
  have l2 : b'.kmax.length = b.dim := by
    subst hb'; simp [scaleSide_length, h2, hf, hc]
  refine ⟨?_, ?_, l1, l2⟩
  · apply List.ext_getElem?
    intro i
    by_cases hi : i < b.dim
    · obtain ⟨lo, hi', f, e1, e2, e3, e4, e5⟩ := key i hi
      rw [b'.centers_getElem? i _ _ e4 e5, b.centers_getElem? i _ _ e1 e2]
      congr 1; ring
    · rw [List.getElem?_eq_none (by simp [AABB.centers, l1, l2]; omega),
        List.getElem?_eq_none (by rw [hc]; omega)]
  · apply List.ext_getElem?
    intro i
    by_cases hi : i < b.dim
    · obtain ⟨lo, hi', f, e1, e2, e3, e4, e5⟩ := key i hi
      rw [b'.shape_getElem? i _ _ e4 e5]
      simp [List.getElem?_zipWith, e3, b.shape_getElem? i _ _ e1 e2]
      ring
    · rw [List.getElem?_eq_none (by simp [AABB.shape, l1, l2]; omega),
        List.getElem?_eq_none (by simp [AABB.shape, h1, h2, hf]; omega)]

/-- `scale` with one factor per side keeps the centre and multiplies each side. -/
theorem C48_scale_sides (b : AABB 𝕜) (hb : b.WF) (fs : List 𝕜) (hf : fs.length = b.dim) :
    ∃ b', b.scaleInPlace (.iter fs) = .ok b' ∧ b'.dim = b.dim ∧ b'.centers = b.centers ∧
      b'.shape = List.zipWith (fun f s => f * s) fs b.shape := by
  refine ⟨⟨b.dim, scaleSide fs b.kmin b.centers, scaleSide fs b.kmax b.centers⟩,
    by simp only [AABB.scaleInPlace]; rw [if_neg (by simpa using hf)], rfl, ?_⟩
  have := scaled_sides b hb.lmin hb.lmax fs hf _ rfl
  exact ⟨this.1, this.2.1⟩

/-- `scale` with one number keeps the centre and multiplies every side by it. -/
theorem C48_scale_uniform (b : AABB 𝕜) (hb : b.WF) (f : 𝕜) :
    ∃ b', b.scaleInPlace (.num f) = .ok b' ∧ b'.dim = b.dim ∧ b'.centers = b.centers ∧
      b'.shape = b.shape.map (fun s => f * s) := by
  refine ⟨_, rfl, rfl, ?_⟩
  have := scaled_sides b hb.lmin hb.lmax (List.replicate b.dim f) (by simp) _ rfl
  refine ⟨this.1, this.2.1.trans ?_⟩
  have hs : b.shape.length = b.dim := by simp [AABB.shape, hb.lmin, hb.lmax]
  rw [← hs]
  generalize b.shape = l
  induction l with
  | nil => rfl
  | cons a l ih => simp [List.replicate_succ, ih]

/-- A non-negative factor gives a proper box again. -/
theorem C48_scale_proper (b : AABB 𝕜) (hb : b.WF) (f : 𝕜) (hf : 0 ≤ f) :
    ∃ b', b.scaleInPlace (.num f) = .ok b' ∧ b'.WF := by
  obtain ⟨h1, h2, h3, h4⟩ := scaled_sides b hb.lmin hb.lmax (List.replicate b.dim f) (by simp) _ rfl
  refine ⟨_, rfl, h3, h4, ?_⟩
  intro i lo hi e1 e2
  have hs := AABB.shape_getElem? _ i lo hi e1 e2
  rw [h2, List.getElem?_zipWith] at hs
  have hi' : i < b.dim := by
    have := (List.getElem?_eq_some_iff.1 e1).1
    rw [h3] at this; exact this
  have f1 : b.kmin[i]? = some (b.kmin[i]'(by have := hb.lmin; omega)) := by simp [hb.lmin, hi']
  have f2 : b.kmax[i]? = some (b.kmax[i]'(by have := hb.lmax; omega)) := by simp [hb.lmax, hi']
  rw [b.shape_getElem? i _ _ f1 f2] at hs
  simp [List.getElem?_replicate, hi'] at hs
  have hle := hb.le i _ _ f1 f2
  have : 0 ≤ hi - lo := by
    rw [← hs]; exact mul_nonneg hf (sub_nonneg.2 hle)
  linarith

theorem pyMax_spec : ∀ (xs : List 𝕜) (x : 𝕜),
    x ≤ xs.foldl (fun m y => if m < y then y else m) x ∧
    (∀ y ∈ xs, y ≤ xs.foldl (fun m y => if m < y then y else m) x) ∧
    (xs.foldl (fun m y => if m < y then y else m) x = x ∨
      xs.foldl (fun m y => if m < y then y else m) x ∈ xs)
  | [], x => by simp
  | y :: xs, x => by
    have ih := pyMax_spec xs (if x < y then y else x)
    simp only [List.foldl_cons]
    by_cases h : x < y
    · simp only [h, if_true] at ih ⊢
      refine ⟨le_trans h.le ih.1, ?_, ?_⟩
      · intro z hz
        rcases List.mem_cons.1 hz with rfl | hz
        · exact ih.1
        · exact ih.2.1 z hz
      · rcases ih.2.2 with h' | h'
        · right; rw [h']; simp
        · right; simp [h']
    · simp only [h, if_false] at ih ⊢
      refine ⟨ih.1, ?_, ?_⟩
      · intro z hz
        rcases List.mem_cons.1 hz with rfl | hz
        · exact le_trans (not_lt.1 h) ih.1
        · exact ih.2.1 z hz
      · rcases ih.2.2 with h' | h'
        · left; exact h'
        · right; simp [h']

theorem divAll_ok (top : 𝕜) : ∀ (ss : List 𝕜), (∀ s ∈ ss, s ≠ 0) →
    divAll top ss = .ok (ss.map (fun s => top / s))
  | [], _ => rfl
  | s :: ss, h => by
    simp [divAll, h s (by simp), divAll_ok top ss (fun x hx => h x (by simp [hx]))]

theorem divAll_zero (top : 𝕜) : ∀ (ss : List 𝕜), (∃ s ∈ ss, s = 0) →
    divAll top ss = .error .zeroDivision
  | [], h => by simp at h
  | s :: ss, h => by
    simp only [divAll]
    split
    · rfl
    · rename_i hs
      obtain ⟨x, hx, h0⟩ := h
      rcases List.mem_cons.1 hx with rfl | hx
      · exact absurd h0 hs
      · rw [divAll_zero top ss ⟨x, hx, h0⟩]

/-- Squaring a box all of whose sides are positive keeps the centre and makes every side
equal to the largest one. -/
theorem C48_squared_partial (b : AABB 𝕜) (hb : b.WF) (hd : 0 < b.dim)
    (hpos : ∀ s ∈ b.shape, 0 < s) :
    ∃ b' top, b.squaredInPlace = .ok b' ∧ b'.dim = b.dim ∧ b'.centers = b.centers ∧
      top ∈ b.shape ∧ (∀ s ∈ b.shape, s ≤ top) ∧ b'.shape = List.replicate b.dim top := by
  have hs : b.shape.length = b.dim := by simp [AABB.shape, hb.lmin, hb.lmax]
  unfold AABB.squaredInPlace
  split
  · rename_i h1
    rw [h1] at hs
    obtain ⟨x, hx⟩ := List.length_eq_one_iff.1 hs
    exact ⟨b, x, rfl, rfl, rfl, by simp [hx], by simp [hx], by simp [hx, h1]⟩
  · cases hsh : b.shape with
    | nil => rw [hsh] at hs; simp at hs; omega
    | cons x xs =>
      simp only [pyMax]
      generalize ht : xs.foldl (fun m y => if m < y then y else m) x = top
      have hm := pyMax_spec xs x
      rw [ht] at hm
      rw [divAll_ok top (x :: xs) (fun s h => (hpos s (by rw [hsh]; exact h)).ne')]
      have hsc := scaled_sides b hb.lmin hb.lmax ((x :: xs).map fun s => top / s)
        (by rw [List.length_map, ← hsh, hs]) _ rfl
      refine ⟨_, top, rfl, rfl, hsc.1, ?_, ?_, hsc.2.1.trans ?_⟩
      · rcases hm.2.2 with h | h <;> simp [h]
      · intro s h
        rcases List.mem_cons.1 h with rfl | h
        · exact hm.1
        · exact hm.2.1 s h
      · rw [hsh, ← hs, hsh]
        have hne : ∀ s ∈ x :: xs, s ≠ 0 := fun s h => (hpos s (by rw [hsh]; exact h)).ne'
        clear hsc hpos hsh hm ht hs
        generalize x :: xs = l at hne
        induction l with
        | nil => rfl
        | cons a l ih =>
          simp only [List.map_cons, List.zipWith_cons_cons, List.length_cons, List.replicate_succ]
          rw [ih (fun s h => hne s (by simp [h])), div_mul_cancel₀ _ (hne a (by simp))]

/-- Disagreement: a box of two or more dimensions with an empty side cannot be squared,
the call raises `ZeroDivisionError`. -/
theorem C48_squared_flat_raises (b : AABB 𝕜) (hd : b.dim ≠ 1) (h0 : (0 : 𝕜) ∈ b.shape) :
    b.squaredInPlace = .error .zeroDivision := by
  unfold AABB.squaredInPlace
  rw [if_neg hd]
  cases hsh : b.shape with
  | nil => rw [hsh] at h0; simp at h0
  | cons x xs =>
    simp only [pyMax]
    rw [divAll_zero _ (x :: xs) ⟨0, by rw [← hsh]; exact h0, rfl⟩]

/-- The copying variants give a new object holding what the in-place variant would have
made of the original, and change no existing object; the in-place variants change only
their object.  For every method body `f` (scaling and squaring). -/
theorem C48_copy_vs_in_place (f : AABB 𝕜 → Py (AABB 𝕜)) (s : Boxes 𝕜) (i : Nat) (b b' : AABB 𝕜)
    (hb : s[i]? = some b) (hf : f b = .ok b') :
    boxMethod i f s = (.ok (), s.set i b') ∧
    boxCopyMethod i f s = (.ok s.length, s ++ [b']) := by
  constructor
  · simp [boxMethod, hb, hf]
  · simp [boxCopyMethod, hb, boxMethod, hf]

/-- If the method raises, both variants leave every existing object unchanged. -/
theorem C48_failure_keeps (f : AABB 𝕜 → Py (AABB 𝕜)) (s : Boxes 𝕜) (i : Nat) (b : AABB 𝕜) (e : PyErr)
    (hb : s[i]? = some b) (hf : f b = .error e) :
    boxMethod i f s = (.error e, s) ∧
    ∃ s', boxCopyMethod i f s = (.error e, s') ∧ s <+: s' := by
  constructor
  · simp [boxMethod, hb, hf]
  · exact ⟨s ++ [b], by simp [boxCopyMethod, hb, boxMethod, hf], List.prefix_append _ _⟩

/-- After `scale` the original has kept its bounds and the result has the scaled sides. -/
theorem C48_scale_object (s : Boxes 𝕜) (i : Nat) (b : AABB 𝕜) (hb : s[i]? = some b) (hw : b.WF) (f : 𝕜) :
    ∃ s' b', boxScale i (.num f) s = (.ok s.length, s') ∧ s'[i]? = some b ∧
      s'[s.length]? = some b' ∧ b'.centers = b.centers ∧ b'.shape = b.shape.map (fun x => f * x) := by
  obtain ⟨b', h1, _, h2, h3⟩ := C48_scale_uniform b hw f
  have := (C48_copy_vs_in_place (·.scaleInPlace (.num f)) s i b b' hb h1).2
  refine ⟨s ++ [b'], b', this, ?_, by simp, h2, h3⟩
  rw [List.getElem?_append_left (List.getElem?_eq_some_iff.1 hb).1]; exact hb

/-- Disagreement: a negative factor turns a box inside out, and the result is no longer a
proper box (the constructor would have rejected it). -/
theorem C48_negative_scale_improper (b : AABB 𝕜) (hb : b.WF) (f : 𝕜) (hf : f < 0)
    (hpos : ∃ s ∈ b.shape, 0 < s) :
    ∃ b', b.scaleInPlace (.num f) = .ok b' ∧ ¬ b'.WF := by
  obtain ⟨b', h1, _, _, h3⟩ := C48_scale_uniform b hb f
  refine ⟨b', h1, fun hw => ?_⟩
  obtain ⟨s, hs, hpos⟩ := hpos
  have hm : f * s ∈ b'.shape := by rw [h3]; exact List.mem_map_of_mem hs
  obtain ⟨i, hi⟩ := List.getElem?_of_mem hm
  simp only [AABB.shape, List.getElem?_zipWith] at hi
  cases e1 : b'.kmax[i]? with
  | none => simp [e1] at hi
  | some hi' =>
    cases e2 : b'.kmin[i]? with
    | none => simp [e1, e2] at hi
    | some lo =>
      simp [e1, e2] at hi
      have := hw.le i lo hi' e2 e1
      have := mul_neg_of_neg_of_pos hf hpos
      linarith

example : ∀ s ∈ exBox.shape, 0 < s := by
  intro s hs; simp [exBox, AABB.shape] at hs; rcases hs with rfl | rfl <;> norm_num

end Imodal
