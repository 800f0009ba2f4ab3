import Verif.Props.C55
/-!
# C63: sampling an image by grey level, masks
-/
set_option autoImplicit false
namespace Imodal
noncomputable section

/-! ## `sample_from_greyscale` -/

theorem greyLoop_error (h w : Nat) (I : Nat → Nat → ℝ) (t : ℝ) : ∀ (rs : List (List ℝ)), (∀ r ∈ rs, r.length = 2) →
    (∃ a b, [a, b] ∈ rs ∧ ((h : ℝ) ≤ a ∨ (w : ℝ) ≤ b)) → greyLoop h w I t rs = .error .index
  | [], _, ⟨_, _, hm, _⟩ => by simp at hm
  | r :: rs, h2, ⟨a, b, hm, hab⟩ => by
    match r, h2 r (by simp) with
    | [x, y], _ =>
      simp only [greyLoop, pairOf, bind, Except.bind]
      by_cases hc : ⌊x⌋ < 0 ∨ (h : ℤ) ≤ ⌊x⌋ ∨ ⌊y⌋ < 0 ∨ (w : ℤ) ≤ ⌊y⌋
      · rw [if_pos hc]
      · rw [if_neg hc]
        rcases List.mem_cons.1 hm with e | hm
        · obtain ⟨rfl, rfl⟩ : a = x ∧ b = y := by simpa using e
          exfalso
          apply hc
          rcases hab with hab | hab
          · exact .inr (.inl (Int.le_floor.2 (by simpa using hab)))
          · exact .inr (.inr (.inr (Int.le_floor.2 (by simpa using hab))))
        · rw [greyLoop_error h w I t rs (fun r hr => h2 r (by simp [hr])) ⟨a, b, hm, hab⟩]

theorem grey_pixels (h w : Nat) : (extent2 0 (h : ℝ) 0 (w : ℝ)).fillCount [h, w] = .ok (cart [linspace 0 (h : ℝ) h, linspace 0 (w : ℝ) w]) := by
  unfold AABB.fillCount
  rw [if_neg (by simp [extent2]), grid2vec_meshgrid _ (by simp [extent2, linspaces])]
  rfl

theorem linspace_nonempty (a b : ℝ) {n : Nat} (hn : 1 ≤ n) : a ∈ linspace a b n := by
  rcases Nat.lt_or_ge n 2 with h | h
  · obtain rfl : n = 1 := by omega
    simp [linspace]
  · exact (linspace_ends a b n h).1

/-- `sample_from_greyscale` raises `IndexError` for every image of more than one pixel: its last
sample position is one past the last row or column. -/
theorem C63_disagreement (h w : Nat) (hh : 1 ≤ h) (hw : 1 ≤ w) (h2 : 2 ≤ h ∨ 2 ≤ w) (I : Nat → Nat → ℝ) (threshold : ℝ) (np : Bool) :
    sampleFromGreyscale h w I threshold np = .error .index := by
  unfold sampleFromGreyscale
  rw [if_neg (by omega), ofArgs_eq (by positivity) (by positivity)]
  simp only [bind, Except.bind, grey_pixels]
  refine greyLoop_error h w I threshold _ ?_ ?_
  · intro r hr
    rw [mem_cart] at hr
    exact hr.length_eq
  · rcases h2 with h2 | h2
    · refine ⟨(h : ℝ), 0, ?_, .inl le_rfl⟩
      rw [mem_cart]
      exact .cons (linspace_ends 0 (h : ℝ) h h2).2 (.cons (linspace_nonempty 0 _ hw) .nil)
    · refine ⟨0, (w : ℝ), ?_, .inr le_rfl⟩
      rw [mem_cart]
      exact .cons (linspace_nonempty 0 _ hh) (.cons (linspace_ends 0 (w : ℝ) w h2).2 .nil)

/-! ## `mask_to_indices` -/

/-- Stacking masked columns is masking the stacked rows. -/
theorem stackRows_select {α : Type} (mask : List Bool) : ∀ (gs : List (List α)), (∀ g ∈ gs, g.length = mask.length) →
    stackRows (mask.filter id).length (gs.map fun g => ((g.zip mask).filter fun e => e.2).map fun e => e.1) =
      (((stackRows mask.length gs).zip mask).filter fun e => e.2).map fun e => e.1
  | [], _ => by
    simp only [stackRows, List.map_nil]
    induction mask with
    | nil => rfl
    | cons b mask ih => cases b <;> simp [List.replicate_succ, ih]
  | g :: gs, hg => by
    simp only [List.map_cons, stackRows]
    rw [stackRows_select mask gs fun g' hg' => hg g' (by simp [hg'])]
    have hlen : (stackRows mask.length gs).length = mask.length := by
      have : ∀ (l : List (List α)), (∀ g ∈ l, g.length = mask.length) → (stackRows mask.length l).length = mask.length := by
        intro l
        induction l with
        | nil => intro _; simp [stackRows]
        | cons a l ih => intro h; simp [stackRows, h a (by simp), ih fun b hb => h b (by simp [hb])]
      exact this gs fun g' hg' => hg g' (by simp [hg'])
    have hg0 := hg g (by simp)
    generalize stackRows mask.length gs = R at hlen
    clear hg
    induction mask generalizing g R with
    | nil =>
      simp at hg0 hlen
      subst hg0; subst hlen
      rfl
    | cons b mask ih =>
      match g, R, hg0, hlen with
      | x :: g, r :: R, hg0, hlen =>
        have := ih g (by simpa using hg0) R (by simpa using hlen)
        cases b <;> simp_all

theorem select_length {α : Type} : ∀ (g : List α) (mask : List Bool), g.length = mask.length →
    (((g.zip mask).filter fun e => e.2).map fun e => e.1).length = (mask.filter id).length
  | [], [], _ => rfl
  | x :: g, b :: mask, h => by
    have := select_length g mask (by simpa using h)
    cases b <;> simp_all

theorem mem_select {α : Type} (x : α) : ∀ (g : List α) (mask : List Bool),
    x ∈ (((g.zip mask).filter fun e => e.2).map fun e => e.1) ↔ ∃ k : Nat, g[k]? = some x ∧ mask[k]? = some true
  | [], _ => by simp
  | _ :: _, [] => by simp
  | y :: g, b :: mask => by
    have ih := mem_select x g mask
    constructor
    · intro h
      cases b with
      | false =>
        obtain ⟨k, h1, h2⟩ := ih.1 (by simpa using h)
        exact ⟨k + 1, by simpa using h1, by simpa using h2⟩
      | true =>
        have h' : x = y ∨ x ∈ (((g.zip mask).filter fun e => e.2).map fun e => e.1) := by simpa using h
        rcases h' with rfl | h'
        · exact ⟨0, rfl, rfl⟩
        · obtain ⟨k, h1, h2⟩ := ih.1 h'
          exact ⟨k + 1, by simpa using h1, by simpa using h2⟩
    · rintro ⟨k, h1, h2⟩
      cases k with
      | zero =>
        simp at h1 h2
        subst h1; subst h2
        simp
      | succ k =>
        have := ih.2 ⟨k, by simpa using h1, by simpa using h2⟩
        cases b <;> simp_all

theorem cart_range_get : ∀ (shape idx : List Nat), InShape shape idx → (cart (shape.map List.range))[rowMajor shape idx]? = some idx
  | [], [], _ => rfl
  | [], _ :: _, h => absurd h (by simp [InShape])
  | _ :: _, [], h => absurd h (by simp [InShape])
  | n :: ns, i :: is, h => by
    have ih := cart_range_get ns is h.2
    have hl : (cart (ns.map List.range)).length = ns.prod := by rw [cart_length]; simp [Function.comp_def]
    have hr : rowMajor ns is < ns.prod := by rw [← hl]; exact (List.getElem?_eq_some_iff.1 ih).1
    rw [List.map_cons, cart, rowMajor, flatMap_range_get (m := ns.prod) _ (fun x => by rw [List.length_map, hl]) n i _ h.1 hr, List.getElem?_map, ih]
    rfl

theorem cart_nodup {α : Type} : ∀ (ls : List (List α)), (∀ l ∈ ls, l.Nodup) → (cart ls).Nodup
  | [], _ => by simp [cart]
  | l :: ls, h => by
    rw [cart, List.nodup_flatMap]
    refine ⟨fun x _ => (cart_nodup ls fun l' hl' => h l' (by simp [hl'])).map fun a b e => by simpa using e, ?_⟩
    refine List.Pairwise.imp ?_ (h l (by simp))
    intro a b hab r hr hr'
    obtain ⟨r1, _, rfl⟩ := List.mem_map.1 hr
    obtain ⟨r2, _, e⟩ := List.mem_map.1 hr'
    exact hab (List.cons.inj e).1.symm

theorem inShape_of_mem : ∀ (shape idx : List Nat), idx ∈ cart (shape.map List.range) → InShape shape idx
  | [], idx, h => by simp [cart] at h; subst h; trivial
  | n :: ns, idx, h => by
    rw [mem_cart] at h
    cases h with
    | cons h1 h2 => exact ⟨List.mem_range.1 h1, inShape_of_mem ns _ ((mem_cart _ _).2 h2)⟩

/-- `mask_to_indices` of a mask with at least one axis lists exactly the positions at which the
mask is set, each once, in row-major order. -/
theorem C63_mask (shape : List Nat) (hs : shape ≠ []) (mask : List Bool) (hm : mask.length = shape.prod) :
    ∃ out, maskToIndices shape mask = .ok out ∧ out.Nodup ∧ out.Sublist (cart (shape.map List.range)) ∧
      ∀ idx, idx ∈ out ↔ InShape shape idx ∧ mask[rowMajor shape idx]? = some true := by
  have hne : shape.map List.range ≠ [] := by simpa using hs
  have hsize : gridSize (shape.map List.range) = mask.length := by
    rw [hm]
    clear hs hm hne
    induction shape with
    | nil => rfl
    | cons n ns ih => simp [gridSize, ih]
  have hg : ∀ g ∈ meshgrid (shape.map List.range), g.length = mask.length := fun g hg => (meshgrid_size _ g hg).trans hsize
  have hnd : (cart (shape.map List.range)).Nodup := cart_nodup _ fun l hl => by
    obtain ⟨n, _, rfl⟩ := List.mem_map.1 hl
    exact List.nodup_range
  have hsub : List.Sublist ((((cart (shape.map List.range)).zip mask).filter fun e => e.2).map fun e => e.1) (cart (shape.map List.range)) := by
    have hl : (cart (shape.map List.range)).length ≤ mask.length := by rw [cart_length, hm]; simp [Function.comp_def]
    have := (List.filter_sublist (p := fun e : List Nat × Bool => e.2) (l := (cart (shape.map List.range)).zip mask)).map fun e => e.1
    rwa [show (((cart (shape.map List.range)).zip mask).map fun e => e.1) = cart (shape.map List.range) from List.map_fst_zip hl] at this
  refine ⟨(((cart (shape.map List.range)).zip mask).filter fun e => e.2).map fun e => e.1, ?_, hnd.sublist hsub, hsub, ?_⟩
  · unfold maskToIndices
    have hmap := mapM_ok (fun g => selectRows g mask) (fun g => ((g.zip mask).filter fun e => e.2).map fun e => e.1) (meshgrid (shape.map List.range))
      fun g hg' => by unfold selectRows; rw [if_pos (hg g hg').symm]
    simp only [bind, Except.bind, hmap]
    cases hmg : meshgrid (shape.map List.range) with
    | nil =>
      exfalso
      cases shape with
      | nil => exact hs rfl
      | cons n ns => simp [meshgrid] at hmg
    | cons g gs =>
      simp only [List.map_cons]
      rw [hmg] at hg
      have hc := select_length g mask (hg g (by simp))
      rw [if_pos]
      · have := stackRows_select mask (g :: gs) hg
        rw [List.map_cons] at this
        rw [hc, this, ← hmg, ← hsize, stackRows_meshgrid]
        rfl
      · rw [List.all_eq_true]
        intro t ht
        obtain ⟨g', hg', rfl⟩ := List.mem_map.1 ht
        rw [beq_iff_eq, hc, select_length g' mask (hg g' (by simp [hg']))]
  · intro idx
    rw [mem_select]
    constructor
    · rintro ⟨k, h1, h2⟩
      have hin := inShape_of_mem shape idx (List.mem_of_getElem? h1)
      have hk := cart_range_get shape idx hin
      have : k = rowMajor shape idx := by
        obtain ⟨a1, a2⟩ := List.getElem?_eq_some_iff.1 h1
        obtain ⟨b1, b2⟩ := List.getElem?_eq_some_iff.1 hk
        exact (hnd.getElem_inj_iff).1 (a2.trans b2.symm)
      exact ⟨hin, this ▸ h2⟩
    · rintro ⟨h1, h2⟩
      exact ⟨_, cart_range_get shape idx h1, h2⟩

/-- What holds: for an image of one pixel the sample is that pixel, at the corner of the frame,
exactly if it meets the threshold; and the mask helper is right for all shapes. Missing: images
of more than one pixel, for which the function raises. -/
theorem C63_partial (I : Nat → Nat → ℝ) (threshold : ℝ) (np : Bool) :
    (threshold ≤ I 0 0 → sampleFromGreyscale 1 1 I threshold np = .ok [((0, 0), I 0 0)]) ∧
    (I 0 0 < threshold → sampleFromGreyscale 1 1 I threshold np = .ok []) ∧
    ∀ (shape : List Nat), shape ≠ [] → ∀ mask : List Bool, mask.length = shape.prod →
      ∃ out, maskToIndices shape mask = .ok out ∧ ∀ idx, idx ∈ out ↔ InShape shape idx ∧ mask[rowMajor shape idx]? = some true := by
  have hrun : ∀ r, greyLoop 1 1 I threshold [[0, 0]] = r → sampleFromGreyscale 1 1 I threshold np = r := by
    rintro r rfl
    unfold sampleFromGreyscale
    rw [if_neg (by omega), ofArgs_eq (by positivity) (by positivity)]
    simp only [bind, Except.bind, grey_pixels]
    rfl
  refine ⟨fun h => hrun _ ?_, fun h => hrun _ ?_, fun shape hs mask hm => ?_⟩
  · simp [greyLoop, pairOf, bind, Except.bind, pure, Except.pure, pix, not_lt.2 h]
  · simp [greyLoop, pairOf, bind, Except.bind, pure, Except.pure, pix, h]
  · obtain ⟨out, h1, _, _, h4⟩ := C63_mask shape hs mask hm
    exact ⟨out, h1, h4⟩

example : ∃ out, maskToIndices [2, 2] [true, false, false, true] = .ok out ∧ [1, 1] ∈ out ∧ [0, 1] ∉ out := by
  obtain ⟨out, h1, _, _, h4⟩ := C63_mask [2, 2] (by simp) [true, false, false, true] rfl
  exact ⟨out, h1, (h4 _).2 ⟨by simp [InShape], rfl⟩, fun h => by simpa [rowMajor] using ((h4 _).1 h).2⟩

end
end Imodal
